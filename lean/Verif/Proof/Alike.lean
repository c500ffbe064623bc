import Verif.Proof.Transform
import Verif.Proof.AttrOps
import Verif.Spec.Alike

/-!
# Lemmas on pages that are alike
-/

namespace Fuser

open Spec

/-! ## Names, texts and attributes -/

theorem sameName_ascii {a b : Str} (h : SameName a b) : Ascii a ↔ Ascii b :=
  ⟨fun h' => h.symm.ascii h', fun h' => h.ascii h'⟩

theorem identifierEq_same {a b c d : Str} (h : SameName a b) (h' : SameName c d) :
    identifierEq a c = identifierEq b d := by
  rw [Bool.eq_iff_iff, identifierEq_iff, identifierEq_iff, map_lowerChar_eq, map_lowerChar_eq,
    isAscii_iff', isAscii_iff', isAscii_iff', isAscii_iff', sameName_ascii h, sameName_ascii h']
  exact and_congr_right fun _ => and_congr_right fun _ =>
    ⟨fun x => (h.symm.trans x).trans h', fun x => (h.trans x).trans h'.symm⟩

variable {L : Likeness} (hL : L.Proper)
include hL

theorem like_nameEq {i j n m : Identifier} (h : L.name i j) (h' : L.name n m) :
    i.eq n = j.eq m := identifierEq_same (hL.name h) (hL.name h')

theorem like_isEq {i j : Identifier} (h : L.name i j) (s : Str) : i.isEq s = j.isEq s :=
  identifierEq_same (hL.name h) (.refl s)

theorem like_classes {a b : Attribute} (h : LikeAttribute L a b) : a.classes = b.classes := by
  obtain ⟨an, av⟩ := a
  obtain ⟨bn, bv⟩ := b
  unfold Attribute.classes
  rw [like_isEq hL h.1]
  split
  · next hc =>
    obtain ⟨hn, h : LikeValue L an av bv⟩ := h
    cases h with
    | none => rfl
    | some h =>
      have hc : SameName an.str "class".toList :=
        (hL.name hn).trans (map_lowerChar_eq.1 (identifierEq_iff.1 hc).2.2)
      simp only [Option.map_some, hL.seen (.inr hc) h]
  · rfl

theorem like_hasClass1 {a b : Attribute} (h : LikeAttribute L a b) {c d : Str} (hc : SameName c d) :
    a.hasClass c = b.hasClass d := by
  unfold Attribute.hasClass
  rw [like_classes hL h]
  split
  · congr 1
    funext x
    exact identifierEq_same hc (.refl x)
  · rfl

omit hL in
theorem joinClasses_same {c d : Str} (hc : SameName c d) (cs : List Str) (acc : EncodedText) :
    joinClasses c cs acc = joinClasses d cs acc := by
  induction cs generalizing acc with
  | nil => rfl
  | cons x xs ih => rw [joinClasses, joinClasses, ih, identifierEq_same hc (.refl x)]

theorem like_removeClass1 {a b : Attribute} (h : LikeAttribute L a b) {c d : Str}
    (hc : SameName c d) : Option.Rel (LikeAttribute L) (a.removeClass c) (b.removeClass d) := by
  have hm : a.makeWithout c = b.makeWithout d := by
    unfold Attribute.makeWithout
    rw [like_hasClass1 hL h hc, like_classes hL h]
    split
    · rfl
    · split
      · rfl
      · rw [joinClasses_same hc]
  unfold Attribute.removeClass
  rw [hm]
  split
  · exact .some h
  · split
    · exact .none
    · exact .some ⟨h.1, .some (hL.refl _ _)⟩

theorem like_hasClass {as bs : Attributes} (h : List.Forall₂ (LikeAttribute L) as bs) {c d : Str}
    (hc : SameName c d) : Attributes.hasClass as c = Attributes.hasClass bs d := by
  unfold Attributes.hasClass
  induction h with
  | nil => rfl
  | cons h _ ih => rw [List.any_cons, List.any_cons, like_hasClass1 hL h hc, ih]

theorem like_hasId {as bs : Attributes} (h : List.Forall₂ (LikeAttribute L) as bs) (x : Str) :
    Attributes.hasId as x = Attributes.hasId bs x := by
  unfold Attributes.hasId
  induction h with
  | nil => rfl
  | @cons a b _ _ h _ ih =>
    obtain ⟨an, av⟩ := a
    obtain ⟨bn, bv⟩ := b
    rw [List.any_cons, List.any_cons, like_isEq hL h.1, ih]
    congr 1
    cases hc : bn.isEq "id".toList with
    | false => rfl
    | true =>
      have hc : SameName an.str "id".toList :=
        (hL.name h.1).trans (map_lowerChar_eq.1 (identifierEq_iff.1 hc).2.2)
      cases (show LikeValue L an av bv from h.2) with
      | none => rfl
      | some hv => simp only [hL.seen (.inl hc) hv]

theorem like_filter {as bs : Attributes} (h : List.Forall₂ (LikeAttribute L) as bs)
    {n m : Identifier} (hn : L.name n m) :
    List.Forall₂ (LikeAttribute L) (as.filter fun a => !a.name.eq n)
      (bs.filter fun a => !a.name.eq m) := by
  induction h with
  | nil => exact .nil
  | cons h _ ih =>
    rw [List.filter_cons, List.filter_cons, like_nameEq hL h.1 hn]
    split
    · exact .cons h ih
    · exact ih

theorem like_addTo {as bs : Attributes} (h : List.Forall₂ (LikeAttribute L) as bs)
    {n m : Identifier} (hn : L.name n m) {v w x y : Value} (hv : L.value n v w) (hx : L.value n x y) :
    List.Forall₂ (LikeAttribute L) (Attributes.addToAttribute as n v x)
      (Attributes.addToAttribute bs m w y) := by
  induction h with
  | nil => exact .cons ⟨hn, .some hv⟩ .nil
  | @cons a b _ _ h h' ih =>
    obtain ⟨an, av⟩ := a
    obtain ⟨bn, bv⟩ := b
    rw [Attributes.addToAttribute, Attributes.addToAttribute, like_nameEq hL h.1 hn]
    split
    · next hc =>
      have hk : SameName n.str an.str :=
        (hL.name hn).trans
          ((hL.name h.1).trans (map_lowerChar_eq.1 (identifierEq_iff.1 hc).2.2)).symm
      refine .cons ⟨h.1, .some ?_⟩ h'
      cases (show LikeValue L an av bv from h.2) with
      | none => exact hL.anyCase hk hv
      | some hw => exact hL.join (hL.join hw (hL.anyCase hk hx)) (hL.anyCase hk hv)
    · exact .cons h ih

theorem like_change {o o' : AttrOp} (ho : LikeChange L o o') {as bs : Attributes}
    (h : List.Forall₂ (LikeAttribute L) as bs) :
    List.Forall₂ (LikeAttribute L) (o.apply as) (o'.apply bs) := by
  cases ho with
  | removeClass hn =>
    change List.Forall₂ _ (Attributes.removeClass _ _) (Attributes.removeClass _ _)
    unfold Attributes.removeClass
    rw [like_hasClass hL h (hL.name hn)]
    split
    · clear * - hL h hn
      induction h with
      | nil => exact .nil
      | cons h _ ih =>
        rw [List.filterMap_cons, List.filterMap_cons]
        have := like_removeClass1 hL h (hL.name hn)
        revert this
        generalize Attribute.removeClass _ _ = u
        generalize Attribute.removeClass _ _ = v
        intro hr
        cases hr with
        | none => exact ih
        | some h => exact .cons h ih
    · exact h
  | removeAttribute hn => exact like_filter hL h hn
  | addAttribute hn hv => exact List.rel_append h (.cons ⟨hn, hv⟩ .nil)
  | @replaceAttribute n m v w hn hv =>
    have hf := like_filter hL h hn
    change List.Forall₂ _ (Attributes.replaceAttribute _ _ _) (Attributes.replaceAttribute _ _ _)
    unfold Attributes.replaceAttribute
    simp only [h.length_eq, hf.length_eq]
    split
    · exact List.rel_append hf (.cons ⟨hn, hv⟩ .nil)
    · exact hf
  | addToAttribute hn hv hx => exact like_addTo hL h hn hv hx
  | setAttribute hn hv => exact List.rel_append (like_filter hL h hn) (.cons ⟨hn, hv⟩ .nil)

/-- The selectors of the crate agree on events alike. -/
theorem like_selector {s : Selector} (hs : ∀ f, s ≠ .custom f) : LikeSelector L s s := by
  intro e f h
  have tag : ∀ t u as bs, L.name t u → List.Forall₂ (LikeAttribute L) as bs →
      ∀ e f : Event, e.elementTagStart = some t → f.elementTagStart = some u →
        e.attributes = some as → f.attributes = some bs → s.matches e = s.matches f := by
    intro t u as bs ht ha e f h1 h2 h3 h4
    cases s with
    | custom g => exact absurd rfl (hs g)
    | id i => simp only [Selector.matches, h3, h4]; exact like_hasId hL ha _
    | tag i =>
      simp only [Selector.matches, h1, h2]
      exact identifierEq_same (hL.name ht) (.refl _)
    | «class» i => simp only [Selector.matches, h3, h4]; exact like_hasClass hL ha (.refl _)
    | classes is =>
      simp only [Selector.matches, h3, h4]
      congr 1
      funext i
      exact like_hasClass hL ha (.refl _)
    | static mt mi mc =>
      simp only [Selector.matches, h1, h2, h3, h4]
      congr 1
      · congr 1
        · cases mt with
          | none => rfl
          | some m => exact like_isEq hL ht m
        · cases mi with
          | none => rfl
          | some m => exact like_hasId hL ha m
      · cases mc with
        | none => rfl
        | some cs =>
          simp only
          congr 1
          funext c
          exact like_hasClass hL ha (.refl _)
  cases h with
  | opening ht ha => exact tag _ _ _ _ ht ha _ _ rfl rfl rfl rfl
  | selfClosed ht ha => exact tag _ _ _ _ ht ha _ _ rfl rfl rfl rfl
  | void ht ha => exact tag _ _ _ _ ht ha _ _ rfl rfl rfl rfl
  | _ =>
    cases s with
    | custom g => exact absurd rfl (hs g)
    | _ => rfl

end Fuser
