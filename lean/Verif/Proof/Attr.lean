import Verif.Proof.Encode
import Verif.Spec.Attr

/-!
# Helper lemmas about attributes, classes and ids
-/

namespace Fuser

open Spec

theorem isWhitespace_iff {c : Char} : isWhitespace c = true ↔ Space c := by
  unfold isWhitespace Space spaceCodes
  simp
  omega

theorem isWhitespace_false {c : Char} : isWhitespace c = false ↔ ¬ Space c := by
  rw [← isWhitespace_iff]; simp

theorem forbiddenChar_iff {c : Char} : forbiddenChar c = true ↔ c ∈ forbidden := by
  simp [forbiddenChar, forbidden, or_assoc]

theorem forbiddenChar_false {c : Char} : forbiddenChar c = false ↔ c ∉ forbidden := by
  rw [← forbiddenChar_iff]; simp

theorem isAscii_iff' {s : Str} : isAscii s = true ↔ Ascii s := by simp [isAscii, Ascii]

theorem validate_iff {s : Str} : validate s = .ok s ↔ ValidIdent s := by
  constructor
  · intro h
    obtain ⟨_, h1, h2, h3, h4⟩ := validate_ok h
    exact ⟨h1, isAscii_iff'.1 h2, fun c hc => isWhitespace_false.1 (h3 c hc),
      fun c hc => forbiddenChar_false.1 (h4 c hc)⟩
  · rintro ⟨h1, h2, h3, h4⟩
    exact validate_of h1 (isAscii_iff'.2 h2) (fun c hc => isWhitespace_false.2 (h3 c hc))
      (fun c hc => forbiddenChar_false.2 (h4 c hc))

/-! ## Names -/

theorem Spec.SameLetter.ascii {c d : Char} (h : SameLetter c d) (hd : d.toNat < 128) :
    c.toNat < 128 := by
  rw [← lowerChar_eq_iff, char_eq_iff, lowerChar_toNat, lowerChar_toNat] at h
  split at h <;> split at h <;> omega

theorem Spec.SameName.refl (s : Str) : SameName s s := by rw [← map_lowerChar_eq]

theorem Spec.SameName.symm {a b : Str} (h : SameName a b) : SameName b a := by
  rw [← map_lowerChar_eq] at *; exact h.symm

theorem Spec.SameName.trans {a b c : Str} (h : SameName a b) (h' : SameName b c) : SameName a c := by
  rw [← map_lowerChar_eq] at *; exact Eq.trans h h'

theorem Spec.SameName.ascii {a b : Str} (h : SameName a b) (hb : Ascii b) : Ascii a := by
  unfold SameName at h
  induction h with
  | nil => exact hb
  | cons hcd _ ih =>
    simp only [Ascii, List.mem_cons, forall_eq_or_imp] at *
    exact ⟨hcd.ascii hb.1, ih hb.2⟩

/-- Comparison with an ASCII name. -/
theorem identifierEq_right {a b : Str} (hb : Ascii b) : identifierEq a b = true ↔ SameName a b := by
  rw [identifierEq_iff, map_lowerChar_eq, isAscii_iff', isAscii_iff']
  exact ⟨fun h => h.2.2, fun h => ⟨h.ascii hb, hb, h⟩⟩

theorem identifierEq_left {a b : Str} (ha : Ascii a) : identifierEq a b = true ↔ SameName b a := by
  rw [identifierEq_comm, identifierEq_right ha]

theorem ascii_class : Ascii "class".toList := by
  intro c hc; simp at hc; rcases hc with rfl | rfl | rfl | rfl | rfl <;> decide

theorem ascii_id : Ascii "id".toList := by
  intro c hc; simp at hc; rcases hc with rfl | rfl <;> decide

theorem Spec.ValidIdent.ascii {s : Str} (h : ValidIdent s) : Ascii s := h.2.1

/-! ## Words -/

theorem splitBy_ne_nil (p : Char → Bool) (s : Str) : splitBy p s ≠ [] := by
  cases s with
  | nil => simp [splitBy]
  | cons c s =>
    unfold splitBy
    split
    · simp
    · split <;> simp

theorem splitBy_cons_sep {p : Char → Bool} {c : Char} {s : Str} (h : p c = true) :
    splitBy p (c :: s) = [] :: splitBy p s := by simp [splitBy, h]

theorem splitBy_cons {p : Char → Bool} {c : Char} {s : Str} (h : p c = false) :
    ∃ w ws, splitBy p s = w :: ws ∧ splitBy p (c :: s) = (c :: w) :: ws := by
  rw [splitBy.eq_def p (c :: s)]
  simp only [h, Bool.false_eq_true, if_false]
  cases hs : splitBy p s with
  | nil => exact absurd hs (splitBy_ne_nil p s)
  | cons w ws => exact ⟨w, ws, rfl, rfl⟩

theorem splitBy_append_sep {p : Char → Bool} {a b : Str} {c : Char} (h : p c = true) :
    splitBy p (a ++ c :: b) = splitBy p a ++ splitBy p b := by
  induction a with
  | nil => simp [splitBy, h]
  | cons d a ih =>
    by_cases hd : p d = true
    · simp [splitBy_cons_sep hd, ih]
    · simp only [Bool.not_eq_true] at hd
      obtain ⟨w, ws, h1, h2⟩ := splitBy_cons (s := a) hd
      obtain ⟨w', ws', h3, h4⟩ := splitBy_cons (s := a ++ c :: b) hd
      rw [List.cons_append, h4, h2]
      rw [ih, h1] at h3
      simp at h3
      simp [h3.1, h3.2]

theorem splitBy_none {p : Char → Bool} {a : Str} (h : ∀ c ∈ a, p c = false) :
    splitBy p a = [a] := by
  induction a with
  | nil => rfl
  | cons d a ih =>
    simp only [List.mem_cons, forall_eq_or_imp] at h
    obtain ⟨w, ws, h1, h2⟩ := splitBy_cons (s := a) h.1
    rw [ih h.2] at h1
    simp at h1
    rw [h2, h1.1, h1.2]

/-- The pieces of a split: separator-free, delimited by separators or the ends. -/
theorem mem_splitBy {p : Char → Bool} {w s : Str} : w ∈ splitBy p s ↔
    (∀ c ∈ w, p c = false) ∧ ∃ pre post, s = pre ++ w ++ post ∧
      (∀ c, pre.getLast? = some c → p c = true) ∧ (∀ c, post.head? = some c → p c = true) := by
  constructor
  · intro hw
    suffices h : ∀ s w ws, splitBy p s = w :: ws →
        (∀ c ∈ w, p c = false) ∧ ∃ post, s = w ++ post ∧ (∀ c, post.head? = some c → p c = true) ∧
        (∀ w' ∈ ws, (∀ c ∈ w', p c = false) ∧ ∃ pre post', s = pre ++ w' ++ post' ∧
          (∀ c, pre.getLast? = some c → p c = true) ∧ pre ≠ [] ∧
          (∀ c, post'.head? = some c → p c = true)) by
      cases hs : splitBy p s with
      | nil => exact absurd hs (splitBy_ne_nil p s)
      | cons v vs =>
        obtain ⟨h1, post, h2, h3, h4⟩ := h s v vs hs
        rw [hs] at hw
        rcases List.mem_cons.1 hw with rfl | hw
        · exact ⟨h1, [], post, by simpa using h2, by simp, h3⟩
        · obtain ⟨h5, pre, post', h6, h7, _, h9⟩ := h4 w hw
          exact ⟨h5, pre, post', h6, h7, h9⟩
    intro s
    induction s with
    | nil =>
      intro w ws h
      simp [splitBy] at h
      obtain ⟨rfl, rfl⟩ := h
      exact ⟨by simp, [], by simp⟩
    | cons c s ih =>
      intro w ws h
      by_cases hc : p c = true
      · rw [splitBy_cons_sep hc] at h
        simp at h
        obtain ⟨rfl, rfl⟩ := h
        refine ⟨by simp, c :: s, by simp, by simp [hc], ?_⟩
        intro w' hw'
        cases hs : splitBy p s with
        | nil => exact absurd hs (splitBy_ne_nil p s)
        | cons v vs =>
          obtain ⟨h1, post, h2, h3, h4⟩ := ih v vs hs
          rw [hs] at hw'
          rcases List.mem_cons.1 hw' with rfl | hw'
          · exact ⟨h1, [c], post, by simp [h2], by simp [hc], by simp, h3⟩
          · obtain ⟨h5, pre, post', h6, h7, h8, h9⟩ := h4 w' hw'
            refine ⟨h5, c :: pre, post', by simp [h6], ?_, by simp, h9⟩
            intro d hd
            rw [List.getLast?_cons_of_ne_nil h8] at hd
            exact h7 d hd
      · simp only [Bool.not_eq_true] at hc
        obtain ⟨v, vs, h1, h2⟩ := splitBy_cons (s := s) hc
        rw [h2] at h
        simp at h
        obtain ⟨rfl, rfl⟩ := h
        obtain ⟨h3, post, h4, h5, h6⟩ := ih v vs h1
        refine ⟨by simpa [hc] using h3, post, by simp [h4], h5, ?_⟩
        intro w' hw'
        obtain ⟨h7, pre, post', h8, h9, h10, h11⟩ := h6 w' hw'
        refine ⟨h7, c :: pre, post', by simp [h8], ?_, by simp, h11⟩
        intro d hd
        rw [List.getLast?_cons_of_ne_nil h10] at hd
        exact h9 d hd
  · rintro ⟨hw, pre, post, rfl, h1, h2⟩
    have hpost : ∀ post : Str, (∀ c, post.head? = some c → p c = true) →
        w ∈ splitBy p (w ++ post) := by
      intro post h2
      cases post with
      | nil => simp [splitBy_none hw]
      | cons c post =>
        rw [splitBy_append_sep (h2 c rfl), splitBy_none hw]
        simp
    rcases List.eq_nil_or_concat pre with rfl | ⟨pre, c, rfl⟩
    · simpa using hpost post h2
    · have hc := h1 c (by simp)
      have : pre.concat c ++ w ++ post = pre ++ c :: (w ++ post) := by simp
      rw [this, splitBy_append_sep hc]
      exact List.mem_append_right _ (hpost post h2)

theorem mem_splitWhitespace {w v : Str} : w ∈ splitWhitespace v ↔ IsWord w v := by
  unfold splitWhitespace IsWord
  rw [List.mem_filter, mem_splitBy]
  simp only [isWhitespace_iff, isWhitespace_false]
  constructor
  · rintro ⟨⟨h1, h2⟩, h3⟩
    exact ⟨by simpa using h3, h1, h2⟩
  · rintro ⟨h1, h2, h3⟩
    exact ⟨⟨h2, h3⟩, by simpa using h1⟩

theorem splitWhitespace_append_space (a b : Str) :
    splitWhitespace (a ++ ' ' :: b) = splitWhitespace a ++ splitWhitespace b := by
  unfold splitWhitespace
  rw [splitBy_append_sep (by decide)]
  simp

theorem splitWhitespace_word {w : Str} (h1 : w ≠ []) (h2 : ∀ c ∈ w, ¬ Space c) :
    splitWhitespace w = [w] := by
  unfold splitWhitespace
  rw [splitBy_none (fun c hc => isWhitespace_false.2 (h2 c hc))]
  simp [h1]

theorem words_space {c : Char} {v : Str} {ws : List Str} (hc : Space c) (h : Words v ws) :
    Words (c :: v) ws := by
  cases h with
  | done h => exact .done (by simpa [hc] using h)
  | @word gap w rest ws h1 h2 h3 h4 h5 =>
    exact .word (gap := c :: gap) (by simpa [hc] using h1) h2 h3 h4 h5

/-- The pieces of the standard library are the words, in order. -/
theorem words_splitWhitespace (v : Str) : Words v (splitWhitespace v) := by
  induction v with
  | nil => exact .done (by simp)
  | cons c v ih =>
    by_cases hc : isWhitespace c = true
    · have : splitWhitespace (c :: v) = splitWhitespace v := by
        simp [splitWhitespace, splitBy_cons_sep hc]
      rw [this]
      exact words_space (isWhitespace_iff.1 hc) ih
    · rw [Bool.not_eq_true] at hc
      have hs := isWhitespace_false.1 hc
      obtain ⟨w, ws, h1, h2⟩ := splitBy_cons (s := v) hc
      have e : splitWhitespace (c :: v) = (c :: w) :: ws.filter fun w => !w.isEmpty := by
        simp [splitWhitespace, h2]
      rw [e]
      have e' : splitWhitespace v = (w :: ws).filter fun w => !w.isEmpty := by
        rw [splitWhitespace, h1]
      rw [e'] at ih
      cases v with
      | nil =>
        simp only [splitBy, List.cons.injEq] at h1
        obtain ⟨rfl, rfl⟩ := h1
        exact .word (gap := []) (w := [c]) (rest := []) (by simp) (by simp) (by simpa using hs)
          (by simp) ih
      | cons d v =>
        by_cases hd : isWhitespace d = true
        · rw [splitBy_cons_sep hd] at h1
          simp only [List.cons.injEq] at h1
          obtain ⟨rfl, rfl⟩ := h1
          exact .word (gap := []) (w := [c]) (rest := d :: v) (by simp) (by simp) (by simpa using hs)
            (by simpa using isWhitespace_iff.1 hd) ih
        · rw [Bool.not_eq_true] at hd
          obtain ⟨w', ws', h3, h4⟩ := splitBy_cons (s := v) hd
          rw [h4] at h1
          simp only [List.cons.injEq] at h1
          obtain ⟨rfl, rfl⟩ := h1
          rw [List.filter_cons_of_pos (by simp)] at ih
          generalize hv : d :: v = u at ih
          cases ih with
          | @word gap _ rest _ k1 k2 k3 k4 k5 =>
            cases gap with
            | cons g gap =>
              simp only [List.cons_append, List.cons.injEq] at hv
              exact absurd (k1 g (by simp)) (hv.1 ▸ isWhitespace_false.1 hd)
            | nil =>
              exact .word (gap := []) (w := c :: d :: w') (by simp) (by simp)
                (List.forall_mem_cons.2 ⟨hs, k3⟩) k4 k5

/-! ## Classes and ids -/

theorem hasClass_iff {a : Attribute} {c : Str} (hc : Ascii c) :
    a.hasClass c = true ↔ CarriesClass c a := by
  unfold Attribute.hasClass Attribute.classes CarriesClass Named Identifier.isEq
  by_cases hn : identifierEq a.name.str "class".toList = true
  · rw [if_pos hn]
    rw [identifierEq_right ascii_class] at hn
    cases hv : a.value with
    | none => simp
    | some v =>
      simp only [Option.map_some, List.any_eq_true, List.mem_filter, mem_splitWhitespace, hn,
        true_and, Option.some.injEq, exists_eq_left']
      constructor
      · rintro ⟨w, ⟨h1, h2⟩, h3⟩
        exact ⟨w, h1, (identifierEq_left hc).1 h3⟩
      · rintro ⟨w, h1, h2⟩
        exact ⟨w, ⟨h1, by simpa using h1.1⟩, (identifierEq_left hc).2 h2⟩
  · rw [if_neg hn]
    rw [identifierEq_right ascii_class] at hn
    simp only [Bool.false_eq_true, false_iff]
    rintro ⟨h, _⟩
    exact hn h

theorem attributes_hasClass_iff {as : Attributes} {c : Str} (hc : Ascii c) :
    Attributes.hasClass as c = true ↔ HasClass c as := by
  simp [Attributes.hasClass, HasClass, hasClass_iff hc]

theorem attributes_hasId_iff {as : Attributes} {x : Str} (hx : Ascii x) :
    Attributes.hasId as x = true ↔ HasId x as := by
  unfold Attributes.hasId HasId Named Identifier.isEq
  rw [List.any_eq_true]
  constructor
  · rintro ⟨a, ha, h⟩
    rw [Bool.and_eq_true, identifierEq_right ascii_id] at h
    refine ⟨a, ha, h.1, ?_⟩
    have h2 := h.2
    cases hv : a.value with
    | none => simp [hv] at h2
    | some v =>
      rw [hv] at h2
      exact ⟨v, rfl, (identifierEq_right hx).1 h2⟩
  · rintro ⟨a, ha, h1, v, hv, h2⟩
    refine ⟨a, ha, ?_⟩
    rw [Bool.and_eq_true, identifierEq_right ascii_id, hv]
    exact ⟨h1, (identifierEq_right hx).2 h2⟩

theorem eq_iff_named {a : Attribute} {n : Identifier} (hn : Ascii n.str) :
    a.name.eq n = true ↔ Named n.str a := identifierEq_right hn

open Classical in
theorem filter_ne_eq (as : Attributes) {n : Identifier} (hn : Ascii n.str) :
    (as.filter fun a => !a.name.eq n) = notOfName n.str as := by
  unfold notOfName
  apply List.filter_congr
  intro a _
  rw [Bool.eq_iff_iff]
  simp [← eq_iff_named hn]

end Fuser
