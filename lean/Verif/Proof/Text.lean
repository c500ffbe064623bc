import Verif.Model.Text

/-!
# Helper lemmas about text primitives
-/

namespace Fuser

@[simp] theorem utf8Len_nil : utf8Len [] = 0 := rfl

@[simp] theorem utf8Len_cons (c : Char) (s : Str) : utf8Len (c :: s) = c.utf8Size + utf8Len s := by
  simp [utf8Len]

@[simp] theorem utf8Len_append (a b : Str) : utf8Len (a ++ b) = utf8Len a + utf8Len b := by
  simp [utf8Len]

theorem utf8Len_eq_zero {s : Str} : utf8Len s = 0 ↔ s = [] := by
  cases s with
  | nil => simp
  | cons c s =>
    have := c.utf8Size_pos
    simp; omega

theorem splitBytes_append (a b : Str) : splitBytes (a ++ b) (utf8Len a) = some (a, b) := by
  induction a with
  | nil => cases b <;> simp [splitBytes]
  | cons c a ih =>
    have hc := c.utf8Size_pos
    obtain ⟨n, hn⟩ : ∃ n, utf8Len (c :: a) = n + 1 := ⟨utf8Len (c :: a) - 1, by simp; omega⟩
    rw [hn, List.cons_append, splitBytes]
    have h1 : c.utf8Size ≤ n + 1 := by simp at hn; omega
    have h2 : n + 1 - c.utf8Size = utf8Len a := by simp at hn; omega
    simp [h1, h2, ih]

@[simp] theorem splitBytes_zero (s : Str) : splitBytes s 0 = some ([], s) := by
  cases s <;> simp [splitBytes]

theorem sliceTo_append (a b : Str) : sliceTo (a ++ b) (utf8Len a) = .ok a := by
  simp [sliceTo, splitBytes_append]

theorem sliceFrom_append (a b : Str) : sliceFrom (a ++ b) (utf8Len a) = .ok b := by
  simp [sliceFrom, splitBytes_append]

theorem sliceFrom_all (a : Str) : sliceFrom a (utf8Len a) = .ok [] := by
  simpa using sliceFrom_append a []

theorem sliceFrom_cons (c : Char) (s : Str) : sliceFrom (c :: s) c.utf8Size = .ok s := by
  simpa using sliceFrom_append [c] s

@[simp] theorem sliceFrom_zero (s : Str) : sliceFrom s 0 = .ok s := by simp [sliceFrom]
@[simp] theorem sliceTo_zero (s : Str) : sliceTo s 0 = .ok [] := by simp [sliceTo]

theorem takeWhile_forall {p : Char → Bool} {s : Str} : ∀ c ∈ s.takeWhile p, p c = true := by
  induction s with
  | nil => simp
  | cons d s ih =>
    intro c hc
    by_cases h : p d <;> simp [h] at hc
    rcases hc with rfl | hc
    · exact h
    · exact ih c hc

theorem dropWhile_cons {p : Char → Bool} {s b : Str} {c : Char} (h : s.dropWhile p = c :: b) :
    p c = false := by
  induction s with
  | nil => simp at h
  | cons d s ih =>
    by_cases hd : p d <;> simp [hd] at h
    · exact ih h
    · rw [← h.1]; simpa using hd

/-- The part of a string before the first character of a class, and the part from there on. -/
theorem findChar_eq (p : Char → Bool) (s : Str) :
    findChar p s =
      if s.dropWhile (fun c => !p c) = [] then none
      else some (utf8Len (s.takeWhile fun c => !p c)) := by
  induction s with
  | nil => simp [findChar]
  | cons c s ih =>
    by_cases h : p c
    · simp [findChar, h]
    · simp only [findChar, h, ih]
      by_cases h2 : s.dropWhile (fun c => !p c) = []
      · simp [h, h2]
      · simp [h, h2, Nat.add_comm]

theorem findChar_none {p : Char → Bool} {s : Str} : findChar p s = none ↔ ∀ c ∈ s, ¬ p c := by
  induction s with
  | nil => simp [findChar]
  | cons c s ih =>
    by_cases h : p c <;> simp [findChar, h, ih]

/-- The bytes before the first match, or all of them. -/
theorem findChar_getD (p : Char → Bool) (s : Str) :
    (findChar p s).getD (utf8Len s) = utf8Len (s.takeWhile fun c => !p c) := by
  rw [findChar_eq]
  split
  · next h =>
    have := List.takeWhile_append_dropWhile (p := fun c => !p c) (l := s)
    rw [h, List.append_nil] at this
    simp [this]
  · simp

/-! ## ASCII case -/

theorem identifierEq_iff {l r : Str} :
    identifierEq l r = true ↔ isAscii l = true ∧ isAscii r = true ∧
      l.map lowerChar = r.map lowerChar := by
  simp [identifierEq, eqIgnoreAsciiCase, and_assoc]

theorem identifierEq_self {s : Str} : identifierEq s s = isAscii s := by
  rw [Bool.eq_iff_iff, identifierEq_iff]; simp

theorem identifierEq_comm (l r : Str) : identifierEq l r = identifierEq r l := by
  rw [Bool.eq_iff_iff, identifierEq_iff, identifierEq_iff]
  constructor <;> rintro ⟨a, b, c⟩ <;> exact ⟨b, a, c.symm⟩

theorem identifierEq_trans {a b c : Str} (h1 : identifierEq a b = true)
    (h2 : identifierEq b c = true) : identifierEq a c = true := by
  rw [identifierEq_iff] at *
  exact ⟨h1.1, h2.2.1, h1.2.2.trans h2.2.2⟩

/-- Equal names are interchangeable in comparisons. -/
theorem identifierEq_congr {a b : Str} (h : identifierEq a b = true) (c : Str) :
    identifierEq a c = identifierEq b c := by
  rw [Bool.eq_iff_iff]
  constructor
  · intro h'; exact identifierEq_trans (by rw [identifierEq_comm]; exact h) h'
  · intro h'; exact identifierEq_trans h h'

theorem validate_ok {s v : Str} (h : validate s = .ok v) : v = s ∧ s ≠ [] ∧ isAscii s = true ∧
    (∀ c ∈ s, isWhitespace c = false) ∧ (∀ c ∈ s, forbiddenChar c = false) := by
  unfold validate at h
  split at h
  · simp at h
  · next hne =>
    split at h
    · simp at h
    · next ha =>
      split at h
      · simp at h
      · next hw =>
        split at h
        · simp at h
        · next hf =>
          simp at h ha hne
          simp only [List.find?_eq_none] at hw hf
          exact ⟨h.symm, hne, ha, by simpa using hw, by simpa using hf⟩

theorem validate_of {s : Str} (h1 : s ≠ []) (h2 : isAscii s = true)
    (h3 : ∀ c ∈ s, isWhitespace c = false) (h4 : ∀ c ∈ s, forbiddenChar c = false) :
    validate s = .ok s := by
  have hw : s.find? isWhitespace = none := by simpa [List.find?_eq_none] using h3
  have hf : s.find? forbiddenChar = none := by simpa [List.find?_eq_none] using h4
  simp [validate, h1, h2, hw, hf]

end Fuser
