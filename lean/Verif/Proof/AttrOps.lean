import Verif.Proof.Attr
import Verif.Model.Api

/-!
# Helper lemmas about the attribute operations
-/

namespace Fuser

open Spec

theorem addToAttribute_absent {as : Attributes} {n : Identifier} {v sep : Value}
    (hn : Ascii n.str) (h : ∀ a ∈ as, ¬ Named n.str a) :
    Attributes.addToAttribute as n v sep = as ++ [⟨n, some v⟩] := by
  induction as with
  | nil => rfl
  | cons a as ih =>
    simp only [List.mem_cons, forall_eq_or_imp] at h
    rw [Attributes.addToAttribute, if_neg (by rw [eq_iff_named hn]; exact h.1), ih h.2]
    rfl

theorem addToAttribute_first {pre post : Attributes} {a : Attribute} {n : Identifier}
    {v sep : Value} (hn : Ascii n.str) (h : ∀ a ∈ pre, ¬ Named n.str a) (ha : Named n.str a) :
    Attributes.addToAttribute (pre ++ a :: post) n v sep =
      pre ++ ⟨a.name, some (match a.value with
        | some old => EncodedText.join (EncodedText.join old sep) v
        | none => v)⟩ :: post := by
  induction pre with
  | nil =>
    rw [List.nil_append, Attributes.addToAttribute, if_pos ((eq_iff_named hn).2 ha)]
    rfl
  | cons b pre ih =>
    simp only [List.mem_cons, forall_eq_or_imp] at h
    rw [List.cons_append, Attributes.addToAttribute,
      if_neg (by rw [eq_iff_named hn]; exact h.1), ih h.2]
    rfl

/-- Every list has a first attribute of a name or none. -/
theorem named_split (as : Attributes) (n : Str) :
    (∀ a ∈ as, ¬ Named n a) ∨
    ∃ pre a post, as = pre ++ a :: post ∧ (∀ a ∈ pre, ¬ Named n a) ∧ Named n a := by
  induction as with
  | nil => simp
  | cons a as ih =>
    by_cases h : Named n a
    · exact .inr ⟨[], a, as, rfl, by simp, h⟩
    · rcases ih with ih | ⟨pre, b, post, rfl, h1, h2⟩
      · exact .inl (by simpa [h] using ih)
      · exact .inr ⟨a :: pre, b, post, rfl, by simpa [h] using h1, h2⟩

theorem join_str (a b : EncodedText) : (EncodedText.join a b).str = a.str ++ b.str := by
  unfold EncodedText.join
  split
  · next h => rw [utf8Len_eq_zero] at h; simp [h]
  · cases a <;> rfl

theorem hasClass_append {c : Str} {as bs : Attributes} :
    HasClass c (as ++ bs) ↔ HasClass c as ∨ HasClass c bs := by
  simp [HasClass, or_and_right, exists_or]

theorem hasClass_cons {c : Str} {a : Attribute} {bs : Attributes} :
    HasClass c (a :: bs) ↔ CarriesClass c a ∨ HasClass c bs := by
  simp [HasClass]

theorem carriesClass_words {c : Str} {a : Attribute} (ha : Named "class".toList a) {v : Value}
    (hv : a.value = some v) : CarriesClass c a ↔ ∃ w ∈ splitWhitespace v.str, SameName w c := by
  simp only [CarriesClass, ha, hv, mem_splitWhitespace, true_and, Option.some.injEq,
    exists_eq_left']

/-- The effect of `add_class` on the presence of a class. -/
theorem hasClass_addClass {as : Attributes} {x : Identifier} (hx : ValidIdent x.str) (c : Str) :
    HasClass c ((AttrOp.addClass x).apply as) ↔ HasClass c as ∨ SameName x.str c := by
  have hcls : classIdentifier.str = "class".toList := rfl
  have hval : x.intoValue.str = x.str := rfl
  have hword : splitWhitespace x.str = [x.str] := splitWhitespace_word hx.1 hx.2.2.1
  have hnamed : Named "class".toList ⟨classIdentifier, some x.intoValue⟩ := SameName.refl _
  change HasClass c (Attributes.addToAttribute as classIdentifier x.intoValue classSeparator) ↔ _
  rcases named_split as "class".toList with h | ⟨pre, a, post, rfl, h1, h2⟩
  · rw [addToAttribute_absent (n := classIdentifier) ascii_class h, hasClass_append, hasClass_cons,
      carriesClass_words hnamed rfl, hval, hword]
    simp [HasClass]
  · rw [addToAttribute_first (n := classIdentifier) ascii_class h1 h2, hasClass_append, hasClass_cons, hasClass_append,
      hasClass_cons]
    suffices h : CarriesClass c ⟨a.name, some (match a.value with
        | some old => EncodedText.join (EncodedText.join old classSeparator) x.intoValue
        | none => x.intoValue)⟩ ↔ CarriesClass c a ∨ SameName x.str c by
      rw [h]; tauto
    have key : ∀ v' : Value, CarriesClass c ⟨a.name, some v'⟩ ↔
        ∃ w ∈ splitWhitespace v'.str, SameName w c :=
      fun v' => carriesClass_words (a := ⟨a.name, some v'⟩) h2 rfl
    cases hv : a.value with
    | none =>
      rw [key, hval, hword]
      simp [CarriesClass, hv]
    | some v =>
      rw [key, carriesClass_words h2 hv]
      simp only [join_str, hval]
      have : classSeparator.str = [' '] := rfl
      rw [this, List.append_assoc, List.singleton_append, splitWhitespace_append_space, hword]
      simp only [List.mem_append, List.mem_singleton, or_and_right, exists_or, exists_eq_left]

/-! ## Removing classes -/

/-- Words joined by single spaces. -/
def joinWords : List Str → Str
  | [] => []
  | [w] => w
  | w :: w' :: ws => w ++ ' ' :: joinWords (w' :: ws)

theorem joinWords_append (ws : List Str) (h : ws ≠ []) (w : Str) :
    joinWords (ws ++ [w]) = joinWords ws ++ ' ' :: w := by
  induction ws with
  | nil => exact absurd rfl h
  | cons v ws ih =>
    cases ws with
    | nil => rfl
    | cons v' ws =>
      have := ih (by simp)
      simp only [List.cons_append] at this
      simp [joinWords, this]

theorem joinWords_eq_nil {ws : List Str} (h : ∀ w ∈ ws, w ≠ []) : joinWords ws = [] ↔ ws = [] := by
  cases ws with
  | nil => simp [joinWords]
  | cons w ws =>
    cases ws with
    | nil => simpa [joinWords] using h
    | cons v ws => simp [joinWords]

theorem joinClasses_eq (name : Str) (cs : List Str) (acc : EncodedText) (done : List Str)
    (hd : ∀ w ∈ done, w ≠ []) (hc : ∀ w ∈ cs, w ≠ []) (ha : acc.str = joinWords done) :
    (joinClasses name cs acc).str =
      joinWords (done ++ cs.filter fun c => !identifierEq name c) := by
  induction cs generalizing acc done with
  | nil => simp [joinClasses, ha]
  | cons c cs ih =>
    simp only [List.mem_cons, forall_eq_or_imp] at hc
    rw [joinClasses]
    by_cases h : identifierEq name c = true
    · rw [if_pos h, ih acc done hd hc.2 ha]
      simp [h]
    · rw [if_neg h]
      simp only [Bool.not_eq_true] at h
      have hf : (c :: cs).filter (fun c => !identifierEq name c) =
          [c] ++ cs.filter (fun c => !identifierEq name c) := by simp [h]
      rw [hf, ← List.append_assoc]
      apply ih
      · intro w hw
        simp at hw
        rcases hw with hw | rfl
        · exact hd w hw
        · exact hc.1
      · exact hc.2
      · have hi : ∀ t : EncodedText, t.intoActual = t.str := by intro t; cases t <;> rfl
        by_cases hdn : done = []
        · have : EncodedText.isEmpty acc = true := by simp [EncodedText.isEmpty, ha, hdn, joinWords]
          rw [this]
          have hp : ∀ t : EncodedText, (EncodedText.pushEncodedStr t c).str = t.str ++ c := by
            intro t; rw [← hi t]; rfl
          simp [hp, ha, hdn, joinWords]
        · have : EncodedText.isEmpty acc = false := by
            simp [EncodedText.isEmpty, ha, joinWords_eq_nil hd, hdn]
          rw [this, joinWords_append done hdn]
          have hp : ∀ (t : EncodedText) c, (EncodedText.pushEncodedStr t c).str = t.str ++ c := by
            intro t c; rw [← hi t]; rfl
          simp [hp, ha]

theorem splitWhitespace_joinWords {ws : List Str} (h1 : ∀ w ∈ ws, w ≠ [])
    (h2 : ∀ w ∈ ws, ∀ c ∈ w, ¬ Space c) : splitWhitespace (joinWords ws) = ws := by
  induction ws with
  | nil => rfl
  | cons w ws ih =>
    simp only [List.mem_cons, forall_eq_or_imp] at h1 h2
    cases ws with
    | nil => simpa [joinWords] using splitWhitespace_word h1.1 h2.1
    | cons v ws =>
      rw [joinWords, splitWhitespace_append_space, splitWhitespace_word h1.1 h2.1, ih h1.2 h2.2]
      rfl

theorem splitWhitespace_ne_nil {v w : Str} (h : w ∈ splitWhitespace v) :
    w ≠ [] ∧ ∀ c ∈ w, ¬ Space c :=
  let h := mem_splitWhitespace.1 h
  ⟨h.1, h.2.1⟩

/-- What happens to one attribute. -/
theorem attribute_removeClass {a : Attribute} {x : Str} (hx : Ascii x) :
    (¬ CarriesClass x a ∧ a.removeClass x = some a) ∨
    (CarriesClass x a ∧ ∃ v, a.value = some v ∧
      ((a.removeClass x = none ∧ ∀ w ∈ splitWhitespace v.str, SameName w x) ∨
       ∃ v', a.removeClass x = some ⟨a.name, some v'⟩ ∧
        splitWhitespace v'.str =
          ((splitWhitespace v.str).filter fun w => !identifierEq x w) ∧
        ((splitWhitespace v.str).filter fun w => !identifierEq x w) ≠ [] ∧
        v'.str = joinWords ((splitWhitespace v.str).filter fun w => !identifierEq x w))) := by
  by_cases h : CarriesClass x a
  · right
    refine ⟨h, ?_⟩
    have h' := (hasClass_iff hx).2 h
    obtain ⟨hn, v, hv, w, hw, hwx⟩ := h
    refine ⟨v, hv, ?_⟩
    have hcl : a.classes = some (splitWhitespace v.str) := by
      have : identifierEq a.name.str "class".toList = true := (identifierEq_right ascii_class).2 hn
      rw [Attribute.classes, Identifier.isEq, if_pos this, hv]
      simp only [Option.map_some, Option.some.injEq, List.filter_eq_self]
      intro w hw
      simpa using (splitWhitespace_ne_nil hw).1
    have hj := joinClasses_eq x (splitWhitespace v.str) EncodedText.new [] (by simp)
      (fun w hw => (splitWhitespace_ne_nil hw).1) rfl
    rw [List.nil_append] at hj
    have hne : ∀ w ∈ (splitWhitespace v.str).filter fun w => !identifierEq x w,
        w ≠ [] ∧ ∀ c ∈ w, ¬ Space c := fun w hw =>
      splitWhitespace_ne_nil (List.mem_filter.1 hw).1
    have hmw : a.makeWithout x = some (joinClasses x (splitWhitespace v.str) EncodedText.new) := by
      simp [Attribute.makeWithout, h', hcl]
    rw [Attribute.removeClass, hmw]
    by_cases he : EncodedText.isEmpty (joinClasses x (splitWhitespace v.str) EncodedText.new) = true
    · left
      refine ⟨by simp [he], ?_⟩
      rw [EncodedText.isEmpty, List.isEmpty_iff, hj, joinWords_eq_nil fun w hw => (hne w hw).1] at he
      intro w hw
      rw [List.filter_eq_nil_iff] at he
      have := he w hw
      rw [← identifierEq_left hx]
      simpa using this
    · right
      refine ⟨joinClasses x (splitWhitespace v.str) EncodedText.new, by simp [he], ?_, ?_, hj⟩
      · rw [hj]
        exact splitWhitespace_joinWords (fun w hw => (hne w hw).1) fun w hw => (hne w hw).2
      · rwa [EncodedText.isEmpty, List.isEmpty_iff, hj,
          joinWords_eq_nil fun w hw => (hne w hw).1] at he
  · left
    have h' : a.hasClass x = false := by
      rw [Bool.eq_false_iff]
      intro h''
      exact h ((hasClass_iff hx).1 h'')
    exact ⟨h, by simp [Attribute.removeClass, Attribute.makeWithout, h']⟩

theorem carriesClass_removeClass {a : Attribute} {x : Str} (hx : Ascii x) (c : Str) :
    (∃ b, a.removeClass x = some b ∧ CarriesClass c b) ↔ CarriesClass c a ∧ ¬ SameName x c := by
  rcases attribute_removeClass (a := a) hx with ⟨h1, h2⟩ | ⟨h1, v, hv, h2⟩
  · rw [h2]
    simp only [Option.some.injEq, exists_eq_left', iff_self_and]
    rintro ⟨hn, v, hv, w, hw, hwc⟩ hxc
    exact h1 ⟨hn, v, hv, w, hw, hwc.trans hxc.symm⟩
  · have hn := h1.1
    rcases h2 with ⟨h2, h3⟩ | ⟨v', h2, h3, -⟩
    · rw [h2, carriesClass_words hn hv]
      simp only [reduceCtorEq, false_and, exists_false, false_iff, not_and, not_not]
      rintro ⟨w, hw, hwc⟩
      exact (h3 w hw).symm.trans hwc
    · rw [h2]
      simp only [Option.some.injEq, exists_eq_left']
      rw [carriesClass_words (a := ⟨a.name, some v'⟩) hn rfl, h3, carriesClass_words hn hv]
      simp only [List.mem_filter, Bool.not_eq_true', ← Bool.not_eq_true, identifierEq_left hx]
      constructor
      · rintro ⟨w, ⟨hw, hwx⟩, hwc⟩
        exact ⟨⟨w, hw, hwc⟩, fun h => hwx (hwc.trans h.symm)⟩
      · rintro ⟨⟨w, hw, hwc⟩, h⟩
        exact ⟨w, ⟨hw, fun h' => h (h'.symm.trans hwc)⟩, hwc⟩

theorem attributes_removeClass_eq {as : Attributes} {x : Identifier} (hx : Ascii x.str) :
    Attributes.removeClass as x = as.filterMap fun a => a.removeClass x.str := by
  unfold Attributes.removeClass
  split
  · rfl
  · next h =>
    rw [attributes_hasClass_iff hx] at h
    induction as with
    | nil => rfl
    | cons a as ih =>
      rw [hasClass_cons] at h
      rcases attribute_removeClass (a := a) hx with ⟨h1, h2⟩ | ⟨h1, _⟩
      · rw [List.filterMap_cons_some (f := fun a => Attribute.removeClass a x.str) h2, ← ih (fun h' => h (.inr h'))]
      · exact absurd (.inl h1) h

theorem joinWords_intercalate (ws : List Str) : joinWords ws = [' '].intercalate ws := by
  induction ws with
  | nil => rfl
  | cons w ws ih =>
    cases ws with
    | nil => simp [joinWords]
    | cons v ws => rw [joinWords, ih, List.intercalate_cons_cons]; simp

theorem otherWords_eq {x : Str} (hx : Ascii x) (ws : List Str) :
    otherWords x ws = ws.filter fun w => !identifierEq x w := by
  classical
  unfold otherWords
  congr 1
  funext w
  have h := identifierEq_left (a := x) (b := w) hx
  by_cases hw : SameName w x
  · simp [hw, h.2 hw]
  · simp [hw, Bool.eq_false_iff.2 fun h' => hw (h.1 h')]

/-- The exact effect of `remove_class`. -/
theorem withoutClass_removeClass {as : Attributes} {x : Identifier} (hx : Ascii x.str) :
    WithoutClass x.str as (Attributes.removeClass as x) := by
  rw [attributes_removeClass_eq hx]
  induction as with
  | nil => exact .nil
  | cons a as ih =>
    rw [List.filterMap_cons]
    rcases attribute_removeClass (a := a) hx with
      ⟨h1, h2⟩ | ⟨h1, v, hv, ⟨h2, h3⟩ | ⟨v', h2, _, h4, h5⟩⟩
    · rw [h2]
      exact .other h1 ih
    · rw [h2]
      refine .gone h1 hv (words_splitWhitespace _) ?_ ih
      simpa [otherWords] using h3
    · rw [h2]
      refine .rest h1 hv (words_splitWhitespace _) ?_ ?_ ih <;> rw [otherWords_eq hx]
      · exact h4
      · rw [h5, joinWords_intercalate]

theorem hasClass_removeClass {as : Attributes} {x : Identifier} (hx : Ascii x.str) (c : Str) :
    HasClass c (Attributes.removeClass as x) ↔ HasClass c as ∧ ¬ SameName x.str c := by
  rw [attributes_removeClass_eq hx]
  unfold HasClass
  simp only [List.mem_filterMap]
  constructor
  · rintro ⟨b, ⟨a, ha, hab⟩, hb⟩
    obtain ⟨h1, h2⟩ := (carriesClass_removeClass hx c).1 ⟨b, hab, hb⟩
    exact ⟨⟨a, ha, h1⟩, h2⟩
  · rintro ⟨⟨a, ha, h1⟩, h2⟩
    obtain ⟨b, hab, hb⟩ := (carriesClass_removeClass hx c).2 ⟨h1, h2⟩
    exact ⟨b, ⟨a, ha, hab⟩, hb⟩

/-! ## Attributes by name -/

theorem ofName_append (n : Str) (as bs : Attributes) :
    ofName n (as ++ bs) = ofName n as ++ ofName n bs := List.filter_append ..

theorem notOfName_append (n : Str) (as bs : Attributes) :
    notOfName n (as ++ bs) = notOfName n as ++ notOfName n bs := List.filter_append ..

theorem ofName_notOfName (n : Str) (as : Attributes) : ofName n (notOfName n as) = [] := by
  simp [ofName, notOfName]

theorem notOfName_notOfName (n : Str) (as : Attributes) :
    notOfName n (notOfName n as) = notOfName n as := by
  simp [notOfName]

theorem ofName_single {n : Str} {a : Attribute} (h : Named n a) : ofName n [a] = [a] := by
  simp [ofName, h]

theorem notOfName_single {n : Str} {a : Attribute} (h : Named n a) : notOfName n [a] = [] := by
  simp [notOfName, h]

theorem setAttribute_eq (as : Attributes) {n : Identifier} (hn : Ascii n.str) (v : Option Value) :
    (AttrOp.setAttribute n v).apply as = notOfName n.str as ++ [⟨n, v⟩] := by
  change (as.filter fun a => !a.name.eq n) ++ _ = _
  rw [filter_ne_eq as hn]

theorem removeAttribute_eq (as : Attributes) {n : Identifier} (hn : Ascii n.str) :
    (AttrOp.removeAttribute n).apply as = notOfName n.str as := by
  change (as.filter fun a => !a.name.eq n) = _
  rw [filter_ne_eq as hn]

end Fuser
