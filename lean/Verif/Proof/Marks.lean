import Verif.Spec.Marks
import Verif.Proof.PerName

/-!
# Calls about classes and ids
-/

namespace Fuser

open Spec

theorem hasClass_ofName {c : List Char} {as : Attributes} :
    HasClass c as ↔ HasClass c (ofName "class".toList as) := by
  constructor
  · rintro ⟨a, ha, h⟩
    exact ⟨a, List.mem_filter.2 ⟨ha, @decide_eq_true _ (_) h.1⟩, h⟩
  · rintro ⟨a, ha, h⟩
    simp only [ofName, List.mem_filter] at ha
    exact ⟨a, ha.1, h⟩

theorem hasId_ofName {i : List Char} {as : Attributes} :
    HasId i as ↔ HasId i (ofName "id".toList as) := by
  constructor
  · rintro ⟨a, ha, h⟩
    exact ⟨a, List.mem_filter.2 ⟨ha, @decide_eq_true _ (_) h.1⟩, h⟩
  · rintro ⟨a, ha, h⟩
    simp only [ofName, List.mem_filter] at ha
    exact ⟨a, ha.1, h⟩

theorem valid_mark {m : MarkCall} (h : m.Proper) : ValidCall m.op := by
  have h1 : ValidIdent "id".toList := validate_iff.1 rfl
  have h2 : ValidIdent "class".toList := validate_iff.1 rfl
  cases m with
  | addClass x => exact h2
  | removeClass x => exact h
  | setId x => exact h1
  | removeId => exact h1
  | other op => exact h.1

theorem class_id : ¬ SameName "class".toList "id".toList ∧ ¬ SameName "id".toList "class".toList := by
  have h : ¬ SameName "class".toList "id".toList := by
    intro h
    have := (identifierEq_right (isAscii_iff'.1 (by decide +kernel))).2 h
    revert this
    decide +kernel
  exact ⟨h, fun h' => h h'.symm⟩

/-- Calls not about the class keep the classes. -/
theorem hasClass_apart {m : MarkCall} (h : m.Proper) (hn : ¬ SameName (aboutName m.op) "class".toList)
    (c : List Char) (as : Attributes) : HasClass c (m.op.apply as) ↔ HasClass c as := by
  rw [hasClass_ofName, (ofName_call _ (valid_mark h) as).2 hn, ← hasClass_ofName]

theorem hasId_apart {m : MarkCall} (h : m.Proper) (hn : ¬ SameName (aboutName m.op) "id".toList)
    (c : List Char) (as : Attributes) : HasId c (m.op.apply as) ↔ HasId c as := by
  rw [hasId_ofName, (ofName_call _ (valid_mark h) as).2 hn, ← hasId_ofName]

theorem hasId_set {x : Identifier} {i : List Char} {as : Attributes} :
    HasId i ((AttrOp.setId x).apply as) ↔ SameName x.str i := by
  have hid : Ascii idIdentifier.str := isAscii_iff'.1 (by decide +kernel)
  constructor
  · rintro ⟨a, ha, hn, v, hv, hs⟩
    simp only [AttrOp.setId, AttrOp.apply, Attributes.setAttribute, List.mem_append, List.mem_filter,
      List.mem_singleton] at ha
    rcases ha with ⟨-, ha⟩ | rfl
    · have : a.name.eq idIdentifier = true := (eq_iff_named hid).2 hn
      simp [this] at ha
    · cases hv
      exact hs
  · intro h
    refine ⟨⟨idIdentifier, some x.intoValue⟩, ?_, SameName.refl _, _, rfl, h⟩
    simp [AttrOp.setId, AttrOp.apply, Attributes.setAttribute]

theorem hasId_removed {i : List Char} {as : Attributes} : ¬ HasId i (AttrOp.removeId.apply as) := by
  have hid : Ascii idIdentifier.str := isAscii_iff'.1 (by decide +kernel)
  rintro ⟨a, ha, hn, -⟩
  simp only [AttrOp.removeId, AttrOp.apply, Attributes.removeAttribute, List.mem_filter] at ha
  have : a.name.eq idIdentifier = true := (eq_iff_named hid).2 hn
  simp [this] at ha

theorem classAfter_congr {c : List Char} {ms : List MarkCall} {p q : Prop} (h : p ↔ q) :
    ClassAfter c ms p ↔ ClassAfter c ms q := by rw [propext h]

theorem idAfter_congr {c : List Char} {ms : List MarkCall} {p q : Prop} (h : p ↔ q) :
    IdAfter c ms p ↔ IdAfter c ms q := by rw [propext h]

theorem notRemoved_cons {c : List Char} {m : MarkCall} {ms : List MarkCall} :
    NotRemoved c (m :: ms) ↔ (∀ x, m = .removeClass x → ¬ SameName x.str c) ∧ NotRemoved c ms := by
  constructor
  · exact fun h => ⟨fun x hx => h x (by simp [hx]), fun x hx => h x (List.mem_cons_of_mem _ hx)⟩
  · rintro ⟨h1, h2⟩ x hx
    rcases List.mem_cons.1 hx with h | h
    · exact h1 x h.symm
    · exact h2 x h

theorem classAfter_cons {c : List Char} {m : MarkCall} {ms : List MarkCall} {p : Prop} :
    ClassAfter c (m :: ms) p ↔ ClassAfter c ms
      ((∃ x, m = .addClass x ∧ SameName x.str c) ∨
        p ∧ ∀ x, m = .removeClass x → ¬ SameName x.str c) := by
  constructor
  · rintro (⟨pre, x, post, h, hx, hr⟩ | ⟨hp, hr⟩)
    · cases pre with
      | nil =>
        simp only [List.nil_append, List.cons.injEq] at h
        obtain ⟨rfl, rfl⟩ := h
        exact .inr ⟨.inl ⟨x, rfl, hx⟩, hr⟩
      | cons a pre =>
        simp only [List.cons_append, List.cons.injEq] at h
        obtain ⟨rfl, rfl⟩ := h
        exact .inl ⟨pre, x, post, rfl, hx, hr⟩
    · rw [notRemoved_cons] at hr
      exact .inr ⟨.inr ⟨hp, hr.1⟩, hr.2⟩
  · rintro (⟨pre, x, post, rfl, hx, hr⟩ | ⟨⟨x, rfl, hx⟩ | ⟨hp, hm⟩, hr⟩)
    · exact .inl ⟨m :: pre, x, post, rfl, hx, hr⟩
    · exact .inl ⟨[], x, ms, rfl, hx, hr⟩
    · exact .inr ⟨hp, notRemoved_cons.2 ⟨hm, hr⟩⟩

theorem idLeft_cons {m : MarkCall} {ms : List MarkCall} :
    IdLeft (m :: ms) ↔ (m ≠ .removeId ∧ ∀ x, m ≠ .setId x) ∧ IdLeft ms := by
  simp only [IdLeft, List.mem_cons, not_or, ne_eq]
  constructor
  · rintro ⟨⟨h1, h2⟩, h3⟩
    exact ⟨⟨fun h => h1 h.symm, fun x h => (h3 x).1 h.symm⟩, h2, fun x => (h3 x).2⟩
  · rintro ⟨⟨h1, h3⟩, h2, h4⟩
    exact ⟨⟨fun h => h1 h.symm, h2⟩, fun x => ⟨fun h => h3 x h.symm, h4 x⟩⟩

theorem idAfter_cons {c : List Char} {m : MarkCall} {ms : List MarkCall} {p : Prop} :
    IdAfter c (m :: ms) p ↔ IdAfter c ms
      ((∃ x, m = .setId x ∧ SameName x.str c) ∨ p ∧ m ≠ .removeId ∧ ∀ x, m ≠ .setId x) := by
  constructor
  · rintro (⟨pre, x, post, h, hx, hr⟩ | ⟨hp, hr⟩)
    · cases pre with
      | nil =>
        simp only [List.nil_append, List.cons.injEq] at h
        obtain ⟨rfl, rfl⟩ := h
        exact .inr ⟨.inl ⟨x, rfl, hx⟩, hr⟩
      | cons a pre =>
        simp only [List.cons_append, List.cons.injEq] at h
        obtain ⟨rfl, rfl⟩ := h
        exact .inl ⟨pre, x, post, rfl, hx, hr⟩
    · rw [idLeft_cons] at hr
      exact .inr ⟨.inr ⟨hp, hr.1⟩, hr.2⟩
  · rintro (⟨pre, x, post, rfl, hx, hr⟩ | ⟨⟨x, rfl, hx⟩ | ⟨hp, hm⟩, hr⟩)
    · exact .inl ⟨m :: pre, x, post, rfl, hx, hr⟩
    · exact .inl ⟨[], x, ms, rfl, hx, hr⟩
    · exact .inr ⟨hp, idLeft_cons.2 ⟨hm, hr⟩⟩

theorem hasClass_mark {m : MarkCall} (h : m.Proper) (c : List Char) (as : Attributes) :
    HasClass c (m.op.apply as) ↔ (∃ x, m = .addClass x ∧ SameName x.str c) ∨
      HasClass c as ∧ ∀ x, m = .removeClass x → ¬ SameName x.str c := by
  cases m with
  | addClass x =>
    rw [MarkCall.op, hasClass_addClass h]
    simp [or_comm]
  | removeClass x =>
    have := hasClass_removeClass (as := as) (ValidIdent.ascii h) c
    rw [MarkCall.op, AttrOp.apply, this]
    simp
  | setId x => rw [hasClass_apart h class_id.2]; simp
  | removeId => rw [hasClass_apart h class_id.2]; simp
  | other op => rw [hasClass_apart h h.2.1]; simp

theorem hasId_mark {m : MarkCall} (h : m.Proper) (c : List Char) (as : Attributes) :
    HasId c (m.op.apply as) ↔ (∃ x, m = .setId x ∧ SameName x.str c) ∨
      HasId c as ∧ m ≠ .removeId ∧ ∀ x, m ≠ .setId x := by
  cases m with
  | addClass x => rw [hasId_apart h class_id.1]; simp
  | removeClass x => rw [hasId_apart h class_id.1]; simp
  | setId x => rw [MarkCall.op, hasId_set]; simp
  | removeId => simp [MarkCall.op, hasId_removed]
  | other op => rw [hasId_apart h h.2.2]; simp

theorem hasClass_marks (c : List Char) : ∀ (ms : List MarkCall), (∀ m ∈ ms, m.Proper) → ∀ as,
    (HasClass c (applyAll (ms.map MarkCall.op) as) ↔ ClassAfter c ms (HasClass c as))
  | [], _, as => by
    simp [applyAll, ClassAfter, NotRemoved]
  | m :: ms, h, as => by
    rw [classAfter_cons, ← classAfter_congr (hasClass_mark (h m List.mem_cons_self) c as)]
    exact hasClass_marks c ms (fun x hx => h x (List.mem_cons_of_mem _ hx)) _

theorem hasId_marks (c : List Char) : ∀ (ms : List MarkCall), (∀ m ∈ ms, m.Proper) → ∀ as,
    (HasId c (applyAll (ms.map MarkCall.op) as) ↔ IdAfter c ms (HasId c as))
  | [], _, as => by
    simp [applyAll, IdAfter, IdLeft]
  | m :: ms, h, as => by
    rw [idAfter_cons, ← idAfter_congr (hasId_mark (h m List.mem_cons_self) c as)]
    exact hasId_marks c ms (fun x hx => h x (List.mem_cons_of_mem _ hx)) _

theorem hasClass_foreign {c : List Char} (h : ¬ Ascii c) (as : Attributes) :
    Attributes.hasClass as c = false := by
  have hc : isAscii c = false := Bool.eq_false_iff.2 fun hc => h (isAscii_iff'.1 hc)
  rw [Attributes.hasClass, List.any_eq_false]
  intro a _
  unfold Attribute.hasClass
  cases a.classes with
  | none => simp
  | some l => simp [identifierEq, hc]

theorem hasId_foreign {c : List Char} (h : ¬ Ascii c) (as : Attributes) :
    Attributes.hasId as c = false := by
  have hc : isAscii c = false := Bool.eq_false_iff.2 fun hc => h (isAscii_iff'.1 hc)
  rw [Attributes.hasId, List.any_eq_false]
  intro a _
  cases a.value with
  | none => simp
  | some l => simp [identifierEq, hc]

/-- Selectors see the tag, the ids and the classes. -/
theorem matches_marks {s : Selector} (hs : ∀ f, s ≠ .custom f) {g g' : Attributes → Attributes}
    {e : Event} (h1 : ∀ as, e.attributes = some as → (∀ c, HasClass c (g as) ↔ HasClass c (g' as)) ∧
      ∀ c, HasId c (g as) ↔ HasId c (g' as)) :
    s.matches (withAttributes g e) = s.matches (withAttributes g' e) := by
  classical
  cases e with
  | openingTag t x | selfClosedTag t x | voidTag t x =>
    obtain ⟨ha, hb⟩ := h1 x rfl
    have hid : ∀ i, Attributes.hasId (g x) i = Attributes.hasId (g' x) i := by
      intro i
      by_cases hi : Ascii i
      · rw [Bool.eq_iff_iff, attributes_hasId_iff hi, attributes_hasId_iff hi, hb]
      · rw [hasId_foreign hi, hasId_foreign hi]
    have hcl : ∀ i, Attributes.hasClass (g x) i = Attributes.hasClass (g' x) i := by
      intro i
      by_cases hi : Ascii i
      · rw [Bool.eq_iff_iff, attributes_hasClass_iff hi, attributes_hasClass_iff hi, ha]
      · rw [hasClass_foreign hi, hasClass_foreign hi]
    cases s with
    | custom f => exact absurd rfl (hs f)
    | _ => simp [Selector.matches, withAttributes, Event.attributes, Event.elementTagStart, hid, hcl]
  | _ => rfl

end Fuser
