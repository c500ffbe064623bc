import Verif.Proof.Select

/-!
# Properties C01-C07: text, identifiers, numbers
-/

namespace Fuser

open Spec

/-- C01. A static string is stored in encoded form: no `<`, `>`, `"`, and every `&` starts one of
the four character references. -/
theorem C01_static_text_safe (s : Str) :
    ∃ t, fromUnencodedStaticStr s = .ok t ∧ Safe t.str ∧ Safe t.render := by
  obtain ⟨t, ht, hs⟩ := fromUnencodedStaticStr_eq s
  refine ⟨t, ht, hs ▸ escape_safe s, ?_⟩
  have : t.render = t.str := rfl
  rw [this, hs]
  exact escape_safe s

example : ∃ t, fromUnencodedStaticStr "a<b & \"c\">".toList = .ok t ∧
    t.str = "a&lt;b &amp; &quot;c&quot;&gt;".toList := ⟨_, rfl, rfl⟩

example : ¬ Safe "a & b".toList := by
  rintro ⟨-, h⟩
  obtain ⟨e, he, h⟩ := h "a ".toList " b".toList rfl
  revert h
  revert e
  decide

/-- C01 for a `Text` turned into encoded text (`From<Text>`), however the text is stored. -/
theorem C01_converted_text_safe (t : Deferred) :
    ∃ u, EncodedText.ofText t = .ok u ∧ Safe u.str ∧ Safe u.render := by
  obtain ⟨u, hu, hs⟩ := ofText_eq t
  refine ⟨u, hu, hs ▸ escape_safe t.str, ?_⟩
  have : u.render = u.str := rfl
  rw [this, hs]
  exact escape_safe t.str

example : EncodedText.ofText (.actual "a<b".toList) = .ok (.actual "a&lt;b".toList) := rfl

example : EncodedText.ofText (.static "a b".toList) = .ok (.static "a b".toList) := rfl

/-- C02. Reading the character references back gives the original string; different strings never
render the same. -/
theorem C02_encoding_lossless (s : Str) :
    ∃ t, fromUnencodedStaticStr s = .ok t ∧ decode t.str = s ∧
      ∀ s' t', fromUnencodedStaticStr s' = .ok t' → t'.render = t.render → s' = s := by
  obtain ⟨t, ht, hs⟩ := fromUnencodedStaticStr_eq s
  refine ⟨t, ht, by rw [hs, decode_escape], ?_⟩
  intro s' t' ht' h
  obtain ⟨t'', ht'', hs'⟩ := fromUnencodedStaticStr_eq s'
  rw [ht'] at ht''
  cases ht''
  have h : t'.str = t.str := h
  rw [hs, hs'] at h
  exact escape_injective h

/-- C02 for a `Text` turned into encoded text. -/
theorem C02_converted_text_lossless (t : Deferred) :
    ∃ u, EncodedText.ofText t = .ok u ∧ decode u.str = t.str ∧
      ∀ t' u', EncodedText.ofText t' = .ok u' → u'.render = u.render → t'.str = t.str := by
  obtain ⟨u, hu, hs⟩ := ofText_eq t
  refine ⟨u, hu, by rw [hs, decode_escape], ?_⟩
  intro t' u' hu' h
  obtain ⟨u'', hu'', hs'⟩ := ofText_eq t'
  rw [hu'] at hu''
  cases hu''
  have h : u'.str = u.str := h
  rw [hs, hs'] at h
  exact escape_injective h

example : decode "1 &lt; 2 &amp;amp; x".toList = "1 < 2 &amp; x".toList := by
  simp [decode]

/-- C03, the full claim: a runtime string is stored like a static string. -/
def DynamicTextEncoded : Prop :=
  ∀ s t, fromUnencodedStaticStr s = .ok t → (fromUnencodedStr s).str = t.str

/-- C03 is false: `from_unencoded_str` stores the text as it is. -/
theorem C03_dynamic_text_encoded_false :
    ¬ DynamicTextEncoded ∧ ¬ Safe (fromUnencodedStr "<script>".toList).str := by
  constructor
  · intro h
    have := h "<".toList (.actual "&lt;".toList) rfl
    simp [fromUnencodedStr, Deferred.str] at this
  · rintro ⟨h, -⟩
    have := h '<' (by decide)
    simp at this

/-- C03, what holds: the two agree exactly on strings without `& < > "`.
Missing: agreement on all other strings, which is false. -/
theorem C03_dynamic_text_encoded_partial (s : Str) :
    (∃ t, fromUnencodedStaticStr s = .ok t ∧ (fromUnencodedStr s).str = t.str) ↔
      ∀ c ∈ s, c ≠ '&' ∧ c ≠ '<' ∧ c ≠ '>' ∧ c ≠ '"' := by
  obtain ⟨t, ht, hs⟩ := fromUnencodedStaticStr_eq s
  have : (∀ c ∈ s, c ≠ '&' ∧ c ≠ '<' ∧ c ≠ '>' ∧ c ≠ '"') ↔ ∀ c ∈ s, encodeChars c = false := by
    simp [encodeChars, and_assoc]
  rw [this, ← escape_eq_self, ht]
  simp only [Except.ok.injEq, exists_eq_left', hs]
  exact eq_comm

example : ∃ t, fromUnencodedStaticStr "it's 5 o'clock".toList = .ok t ∧
    (fromUnencodedStr "it's 5 o'clock".toList).str = t.str := ⟨_, rfl, rfl⟩

/-- C04. Identifiers are accepted exactly when valid, and otherwise the first applicable error is
reported; both constructors behave the same. -/
theorem C04_identifier_validation (s : Str) :
    (ValidIdent s → Identifier.fromStaticStr s = .ok ⟨.static s⟩ ∧
      Identifier.fromStr s = .ok ⟨.actual s⟩) ∧
    (∀ e, Identifier.fromStaticStr s = .error e ↔ Identifier.fromStr s = .error e) ∧
    (∀ e, Identifier.fromStr s = .error e ↔ IdentError s e) ∧
    ((∃ i, Identifier.fromStr s = .ok i) ↔ ValidIdent s) ∧
    ((∃ i, Identifier.fromStaticStr s = .ok i) ↔ ValidIdent s) := by
  have hs : Identifier.fromStaticStr s = (validate s).map fun v => ⟨.static v⟩ := by
    unfold Identifier.fromStaticStr
    cases validate s <;> rfl
  have hd : Identifier.fromStr s = (validate s).map fun v => ⟨.actual v⟩ := by
    unfold Identifier.fromStr
    cases validate s <;> rfl
  have hok : (∃ v, validate s = .ok v) ↔ ValidIdent s := by
    rw [← validate_iff]
    constructor
    · rintro ⟨v, hv⟩
      rw [(validate_ok hv).1] at hv
      exact hv
    · exact fun h => ⟨s, h⟩
  rw [hs, hd]
  refine ⟨?_, ?_, ?_, ?_, ?_⟩
  · intro h
    rw [validate_iff.2 h]
    exact ⟨rfl, rfl⟩
  · intro e
    cases validate s <;> simp [Except.map]
  · intro e
    have : (Except.map (fun v => (⟨.actual v⟩ : Identifier)) (validate s) = .error e) ↔
        validate s = .error e := by
      cases validate s <;> simp [Except.map]
    rw [this]
    exact validate_error
  · rw [← hok]
    cases validate s <;> simp [Except.map]
  · rw [← hok]
    cases validate s <;> simp [Except.map]

example : Identifier.fromStr "data-x:1".toList = .ok ⟨.actual "data-x:1".toList⟩ := by rfl
example : Identifier.fromStr "a b".toList = .error (.whitespace ' ') := by rfl
example : Identifier.fromStr "a/b=".toList = .error (.forbidden '/') := by rfl
example : ValidIdent "h1".toList := validate_iff.1 rfl

/-- C05. The comparison of identifiers is equality up to ASCII case; it is an equivalence on valid
identifiers, symmetric and transitive on all strings, and reflexive exactly on ASCII strings. -/
theorem C05_identifier_comparison :
    (∀ i j : Identifier, ValidIdent i.str → ValidIdent j.str →
      (i.eq j = true ↔ SameName i.str j.str)) ∧
    (∀ l r, identifierEq l r = true ↔ Ascii l ∧ Ascii r ∧ SameName l r) ∧
    (∀ i : Identifier, ValidIdent i.str → i.eq i = true) ∧
    (∀ l r, identifierEq l r = identifierEq r l) ∧
    (∀ a b c, identifierEq a b = true → identifierEq b c = true → identifierEq a c = true) ∧
    (∀ s, identifierEq s s = true ↔ Ascii s) ∧
    (∀ (i : Identifier) s, i.isEq s = identifierEq i.str s) := by
  refine ⟨?_, ?_, ?_, identifierEq_comm, fun _ _ _ => identifierEq_trans, ?_, fun _ _ => rfl⟩
  · intro i j hi hj
    exact identifierEq_right hj.ascii
  · intro l r
    constructor
    · intro h
      have h' := identifierEq_iff.1 h
      exact ⟨isAscii_iff'.1 h'.1, isAscii_iff'.1 h'.2.1, (identifierEq_right (isAscii_iff'.1 h'.2.1)).1 h⟩
    · rintro ⟨_, h2, h3⟩
      exact (identifierEq_right h2).2 h3
  · intro i hi
    exact (identifierEq_right hi.ascii).2 (SameName.refl _)
  · intro s
    rw [identifierEq_self, isAscii_iff']

example : identifierEq "DiV".toList "dIv".toList = true ∧ identifierEq "é".toList "é".toList = false ∧
    identifierEq "a@".toList "a`".toList = false := by decide

/-- C06. Integers render as decimal numerals that read back as the same number and contain no
markup. Unsigned types are the case of `Value.ofNat`. -/
theorem C06_numbers_decimal :
    (∀ n : Int, IsNumeral (Value.ofInt n).render ∧ readInt (Value.ofInt n).render = n ∧
      Safe (Value.ofInt n).render) ∧
    (∀ n : Nat, IsNumeral (Value.ofNat n).render ∧ readNat (Value.ofNat n).render = n ∧
      Safe (Value.ofNat n).render ∧ '-' ∉ (Value.ofNat n).render) := by
  have digit : ∀ c : Char, '0' ≤ c ∧ c ≤ '9' →
      c ≠ '<' ∧ c ≠ '>' ∧ c ≠ '"' ∧ c ≠ '&' ∧ c ≠ '-' := by
    rintro c ⟨h1, h2⟩
    rw [char_le_iff] at h1 h2
    have e0 : '0'.toNat = 48 := rfl
    have e9 : '9'.toNat = 57 := rfl
    rw [e0] at h1
    rw [e9] at h2
    refine ⟨?_, ?_, ?_, ?_, ?_⟩ <;> rintro rfl <;> revert h1 h2 <;> decide
  have safe : ∀ s : Str, (∀ c ∈ s, c ≠ '<' ∧ c ≠ '>' ∧ c ≠ '"' ∧ c ≠ '&') → Safe s := by
    intro s h
    refine ⟨fun c hc => ⟨(h c hc).1, (h c hc).2.1, (h c hc).2.2.1⟩, ?_⟩
    rintro pre post rfl
    exact absurd rfl (h '&' (by simp)).2.2.2
  have plain : ∀ n, formatNat n = ['0'] ∨ (formatNat n).head? ≠ some '0' := by
    intro n
    by_cases h : (formatNat n).head? = some '0'
    · rw [formatNat_head n h]
      exact .inl rfl
    · exact .inr h
  have nat : ∀ n : Nat, IsNumeral (formatNat n) ∧ readNat (formatNat n) = n ∧
      Safe (formatNat n) ∧ '-' ∉ formatNat n := by
    intro n
    obtain ⟨h1, h2, h3⟩ := formatNat_spec n
    refine ⟨⟨_, h2, h3, .inl ⟨rfl, plain n⟩⟩, h1, safe _ fun c hc => ?_, fun h => ?_⟩
    · have := digit c (h3 c hc)
      exact ⟨this.1, this.2.1, this.2.2.1, this.2.2.2.1⟩
    · exact (digit _ (h3 _ h)).2.2.2.2 rfl
  refine ⟨?_, nat⟩
  intro n
  change IsNumeral (formatInt n) ∧ readInt (formatInt n) = n ∧ Safe (formatInt n)
  cases n with
  | ofNat n =>
    obtain ⟨h1, h2, h3, h4⟩ := nat n
    refine ⟨h1, ?_, h3⟩
    change readInt (formatNat n) = n
    cases hf : formatNat n with
    | nil => exact absurd hf (formatNat_spec n).2.1
    | cons c s =>
      have : c ≠ '-' := by
        rintro rfl
        exact h4 (by rw [hf]; simp)
      rw [hf] at h2
      simp only [readInt]
      split
      · next heq => cases heq; exact absurd rfl this
      · exact congrArg _ h2
  | negSucc n =>
    obtain ⟨h1, h2, h3⟩ := formatNat_spec (n + 1)
    refine ⟨⟨_, h2, h3, .inr ⟨rfl, fun h => absurd (formatNat_head _ h) (by omega)⟩⟩, ?_, ?_⟩
    · change -(readNat (formatNat (n + 1)) : Int) = _
      rw [h1]
      rfl
    · apply safe
      intro c hc
      change c ∈ '-' :: formatNat (n + 1) at hc
      rcases List.mem_cons.1 hc with rfl | hc
      · decide
      · have := digit c (h3 c hc)
        exact ⟨this.1, this.2.1, this.2.2.1, this.2.2.2.1⟩

example : (Value.ofInt (-1203)).render = "-1203".toList ∧ (Value.ofInt 0).render = "0".toList := by decide

example : ¬ IsNumeral "007".toList := by
  rintro ⟨ds, -, -, ⟨rfl, h | h⟩ | ⟨h, -⟩⟩
  · cases h
  · exact h rfl
  · cases h

/-- C07, the full claim: texts compare equal exactly when they render the same. -/
def TextEqualityIsRenderEquality : Prop :=
  ∀ a b : Data, (a == b) = true ↔ a.render = b.render

/-- C07 is false: a static text and a runtime text with the same content compare different, and so
do the events and templates holding them. -/
theorem C07_text_equality_false :
    ¬ TextEqualityIsRenderEquality ∧
    ∃ e f : Event, e.render = f.render ∧ e.eq f = false := by
  constructor
  · intro h
    exact absurd ((h (.static "a".toList) (.actual "a".toList)).2 rfl) (by decide)
  · exact ⟨.data (.static "a".toList), .data (.actual "a".toList), rfl, by decide⟩

/-- C07, what holds: equal texts render the same, and for texts stored the same way the converse
holds too. Texts stored differently are never equal, whatever they hold. Missing: the converse for
texts stored differently, which is false. -/
theorem C07_text_equality_partial :
    (∀ a b : Data, (a == b) = true → a.render = b.render) ∧
    (∀ s t : Str, ((Deferred.static s == Deferred.static t) = true ↔
      (Deferred.static s).render = (Deferred.static t).render)) ∧
    (∀ s t : Str, ((Deferred.actual s == Deferred.actual t) = true ↔
      (Deferred.actual s).render = (Deferred.actual t).render)) ∧
    (∀ s t : Str, (Deferred.static s == Deferred.actual t) = false ∧
      (Deferred.actual s == Deferred.static t) = false) := by
  refine ⟨?_, ?_, ?_, fun s t => ⟨?_, ?_⟩⟩
  · intro a b h
    rw [beq_iff_eq.1 h]
  · intro s t
    rw [beq_iff_eq, Deferred.static.injEq]
    rfl
  · intro s t
    rw [beq_iff_eq, Deferred.actual.injEq]
    rfl
  · exact beq_eq_false_iff_ne.2 (by simp)
  · exact beq_eq_false_iff_ne.2 (by simp)

example : ((Deferred.static "x".toList) == (Deferred.static "x".toList)) = true := by decide

end Fuser
