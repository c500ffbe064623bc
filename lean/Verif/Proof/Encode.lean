import Verif.Proof.Text
import Verif.Spec.Text
import Mathlib.Data.List.Forall2

/-!
# Helper lemmas about encoding, identifiers and numbers
-/

namespace Fuser

open Spec

/-- The encoding of one character. -/
def escapeChar (c : Char) : Str :=
  if c = '&' then "&amp;".toList
  else if c = '<' then "&lt;".toList
  else if c = '>' then "&gt;".toList
  else if c = '"' then "&quot;".toList
  else [c]

/-- The encoding of a text. -/
def escape (s : Str) : Str := s.flatMap escapeChar

theorem escapeChar_plain {c : Char} (h : encodeChars c = false) : escapeChar c = [c] := by
  simp [encodeChars] at h
  simp [escapeChar, h]

theorem encodeChar_eq {c : Char} (h : encodeChars c = true) : encodeChar c = .ok (escapeChar c) := by
  simp [encodeChars, or_assoc] at h
  rcases h with rfl | rfl | rfl | rfl <;> simp [encodeChar, escapeChar]

theorem escape_plain {s : Str} (h : ∀ c ∈ s, encodeChars c = false) : escape s = s := by
  induction s with
  | nil => rfl
  | cons c s ih =>
    simp only [List.mem_cons, forall_eq_or_imp] at h
    simp only [escape, List.flatMap_cons, escapeChar_plain h.1] at *
    simp [ih h.2]

theorem escape_append (a b : Str) : escape (a ++ b) = escape a ++ escape b := by
  simp [escape]

theorem encodeLoop_eq (fuel : Nat) (s out : Str) (h : s.length < fuel) :
    encodeLoop fuel s out = .ok (out ++ escape s) := by
  induction fuel generalizing s out with
  | zero => omega
  | succ fuel ih =>
    rw [encodeLoop]
    by_cases hs : s = []
    · simp [hs, escape]
    · have hs' : s.isEmpty = false := by simpa using hs
      rw [hs']
      simp only [Bool.false_eq_true, if_false, findChar_getD]
      obtain ⟨a, ha⟩ : ∃ a, a = s.takeWhile (fun c => !encodeChars c) := ⟨_, rfl⟩
      obtain ⟨b, hb⟩ : ∃ b, b = s.dropWhile (fun c => !encodeChars c) := ⟨_, rfl⟩
      have hab : s = a ++ b := by rw [ha, hb, List.takeWhile_append_dropWhile]
      have hplain : ∀ c ∈ a, encodeChars c = false := by
        intro c hc
        rw [ha] at hc
        simpa using takeWhile_forall c hc
      rw [← ha, hab, sliceTo_append, sliceFrom_append]
      simp only [bind, Except.bind]
      cases b with
      | nil => simp [escape_plain hplain]
      | cons c b =>
        have hc : encodeChars c = true := by
          simpa using dropWhile_cons hb.symm
        simp only [encodeChar_eq hc, sliceFrom_cons]
        rw [ih]
        · rw [escape_append, escape_plain hplain]
          simp [escape]
        · have := congrArg List.length hab
          simp at this; omega

theorem encodeStrOptional_eq (s : Str) :
    encodeStrOptional s =
      .ok (if ∀ c ∈ s, encodeChars c = false then none else some (escape s)) := by
  unfold encodeStrOptional
  by_cases h : ∀ c ∈ s, encodeChars c = false
  · have : findChar encodeChars s = none := findChar_none.2 (by simpa using h)
    rw [if_pos h]; simp [this]
  · have h2 : (findChar encodeChars s).isNone = false := by
      rw [Bool.eq_false_iff]
      intro h'
      rw [Option.isNone_iff_eq_none, findChar_none] at h'
      exact h (by simpa using h')
    rw [h2, if_neg h]
    simp [encodeLoop_eq, bind, Except.bind, pure, Except.pure]

/-- The static-string constructors never panic and store the encoding. -/
theorem fromUnencodedStaticStr_eq (s : Str) :
    ∃ t, fromUnencodedStaticStr s = .ok t ∧ t.str = escape s := by
  unfold fromUnencodedStaticStr
  rw [encodeStrOptional_eq]
  by_cases h : ∀ c ∈ s, encodeChars c = false
  · exact ⟨.static s, by rw [if_pos h]; simp [bind, Except.bind, pure, Except.pure],
      by simp [Deferred.str, escape_plain h]⟩
  · exact ⟨.actual (escape s), by
      rw [if_neg h]; simp [bind, Except.bind, pure, Except.pure], rfl⟩

theorem ofText_eq (t : Deferred) : ∃ u, EncodedText.ofText t = .ok u ∧ u.str = escape t.str := by
  unfold EncodedText.ofText
  rw [encodeStrOptional_eq]
  by_cases h : ∀ c ∈ t.str, encodeChars c = false
  · exact ⟨t, by rw [if_pos h]; simp [bind, Except.bind, pure, Except.pure],
      by rw [escape_plain h]⟩
  · exact ⟨.actual (escape t.str), by
      rw [if_neg h]; simp [bind, Except.bind, pure, Except.pure], rfl⟩

theorem escape_safe (s : Str) : Safe (escape s) := by
  constructor
  · intro c hc
    simp only [escape, List.mem_flatMap] at hc
    obtain ⟨d, _, hd⟩ := hc
    unfold escapeChar at hd
    split at hd
    · simp at hd; rcases hd with rfl | rfl | rfl | rfl | rfl <;> simp
    split at hd
    · simp at hd; rcases hd with rfl | rfl | rfl | rfl <;> simp
    split at hd
    · simp at hd; rcases hd with rfl | rfl | rfl | rfl <;> simp
    split at hd
    · simp at hd; rcases hd with rfl | rfl | rfl | rfl | rfl | rfl <;> simp
    · next h1 h2 h3 h4 =>
      simp at hd; subst hd
      exact ⟨h2, h3, h4⟩
  · induction s with
    | nil => intro pre post h; simp [escape] at h
    | cons c s ih =>
      intro pre post h
      change escapeChar c ++ escape s = pre ++ '&' :: post at h
      -- the first character of an entity is its only ampersand
      by_cases hc : encodeChars c = true
      · have key : ∃ e ∈ entities, escapeChar c = e.1 ∧ ∃ r, e.1 = '&' :: r ∧ '&' ∉ r := by
          simp [encodeChars, or_assoc] at hc
          rcases hc with rfl | rfl | rfl | rfl
          · exact ⟨("&amp;".toList, '&'), by simp [entities], rfl, "amp;".toList, rfl, by simp⟩
          · exact ⟨("&lt;".toList, '<'), by simp [entities], rfl, "lt;".toList, rfl, by simp⟩
          · exact ⟨("&gt;".toList, '>'), by simp [entities], rfl, "gt;".toList, rfl, by simp⟩
          · exact ⟨("&quot;".toList, '"'), by simp [entities], rfl, "quot;".toList, rfl, by simp⟩
        obtain ⟨e, he, h1, r, h2, h3⟩ := key
        rw [h1] at h
        cases pre with
        | nil => exact ⟨e, he, by rw [List.nil_append] at h; exact ⟨_, h⟩⟩
        | cons d pre =>
          rw [h2] at h
          simp only [List.cons_append, List.cons.injEq] at h
          rw [List.append_eq_append_iff] at h
          rcases h.2 with ⟨a', h4, h5⟩ | ⟨c', h4, h5⟩
          · exact ih a' post h5
          · cases c' with
            | nil => exact ih [] post (by simpa using h5.symm)
            | cons x c' =>
              simp at h5
              exact absurd (by rw [h4, ← h5.1]; simp) h3
      · simp only [Bool.not_eq_true] at hc
        rw [escapeChar_plain hc] at h
        cases pre with
        | nil =>
          simp at h
          rw [h.1] at hc
          exact absurd hc (by decide)
        | cons d pre =>
          simp at h
          exact ih pre post h.2

theorem decode_escape (s : Str) : decode (escape s) = s := by
  induction s with
  | nil => simp [escape, decode]
  | cons c s ih =>
    change decode (escapeChar c ++ escape s) = c :: s
    unfold escapeChar
    split
    · next h => subst h; simp [decode, ih]
    split
    · next h => subst h; simp [decode, ih]
    split
    · next h => subst h; simp [decode, ih]
    split
    · next h => subst h; simp [decode, ih]
    · next h1 _ _ _ =>
      rw [List.singleton_append, decode.eq_def]
      split <;> simp_all

theorem escape_injective {s t : Str} (h : escape s = escape t) : s = t := by
  rw [← decode_escape s, h, decode_escape]

theorem escape_eq_self {s : Str} : escape s = s ↔ ∀ c ∈ s, encodeChars c = false := by
  constructor
  · intro h c hc
    have hs := escape_safe s
    have he := decode_escape s
    rw [h] at hs he
    have h1 := hs.1 c hc
    simp only [encodeChars, beq_eq_false_iff_ne, ne_eq, Bool.or_eq_false_iff]
    refine ⟨⟨⟨?_, h1.1⟩, h1.2.1⟩, h1.2.2⟩
    -- a text with an entity gets longer
    intro hamp
    subst hamp
    have hl : ∀ s : Str, s.length ≤ (escape s).length := by
      intro s
      induction s with
      | nil => simp
      | cons d s ih =>
        have : 1 ≤ (escapeChar d).length := by
          unfold escapeChar; split <;> [skip; split <;> [skip; split <;> [skip; split]]] <;> simp
        simp [escape] at *; omega
    obtain ⟨a, b, rfl⟩ := List.append_of_mem hc
    have h2 := congrArg List.length h
    rw [escape_append, show escape ('&' :: b) = "&amp;".toList ++ escape b from rfl] at h2
    have := hl a
    have := hl b
    simp at h2; omega
  · exact escape_plain

/-! ## Identifier comparison -/

theorem lowerChar_toNat (c : Char) :
    (lowerChar c).toNat = if 65 ≤ c.toNat ∧ c.toNat ≤ 90 then c.toNat + 32 else c.toNat := by
  unfold lowerChar
  by_cases h : 65 ≤ c.toNat ∧ c.toNat ≤ 90
  · have hv : (c.toNat + 32).isValidChar := by left; omega
    have hb : (decide (65 ≤ c.toNat) && decide (c.toNat ≤ 90)) = true := by simp [h]
    rw [if_pos hb, if_pos h, Char.ofNat, dif_pos hv]
    rfl
  · have hb : ¬ (decide (65 ≤ c.toNat) && decide (c.toNat ≤ 90)) = true := by simpa using h
    rw [if_neg hb, if_neg h]

theorem char_le_iff {c d : Char} : c ≤ d ↔ c.toNat ≤ d.toNat := Iff.rfl

theorem char_eq_iff {c d : Char} : c = d ↔ c.toNat = d.toNat := by
  constructor
  · rintro rfl; rfl
  · intro h
    apply Char.ext
    exact UInt32.toNat_inj.mp h

theorem lowerChar_eq_iff {c d : Char} : lowerChar c = lowerChar d ↔ SameLetter c d := by
  rw [char_eq_iff, lowerChar_toNat, lowerChar_toNat]
  unfold SameLetter
  rw [char_le_iff, char_le_iff, char_le_iff, char_le_iff, char_eq_iff]
  have h1 : 'A'.toNat = 65 := rfl
  have h2 : 'Z'.toNat = 90 := rfl
  rw [h1, h2]
  split <;> split <;> omega

theorem map_lowerChar_eq {l r : Str} : l.map lowerChar = r.map lowerChar ↔ SameName l r := by
  unfold SameName
  induction l generalizing r with
  | nil => cases r <;> simp
  | cons c l ih =>
    cases r with
    | nil => simp
    | cons d r => simp [ih, lowerChar_eq_iff]

/-! ## Numbers -/

theorem readNat_append (a : Str) (c : Char) :
    readNat (a ++ [c]) = 10 * readNat a + (c.toNat - 48) := by
  simp [readNat]

theorem digitChar_spec {n : Nat} (h : n < 10) :
    (Nat.digitChar n).toNat = 48 + n := by
  match n, h with
  | 0, _ | 1, _ | 2, _ | 3, _ | 4, _ | 5, _ | 6, _ | 7, _ | 8, _ | 9, _ => rfl

theorem formatNat_lt {n : Nat} (h : n < 10) : formatNat n = [Nat.digitChar n] := by
  simp [formatNat, Nat.toDigits_of_lt_base h]

theorem formatNat_ge {n : Nat} (h : 10 ≤ n) :
    formatNat n = formatNat (n / 10) ++ [Nat.digitChar (n % 10)] := by
  simp [formatNat, Nat.toDigits_of_base_le (by decide) h]

theorem formatNat_spec (n : Nat) :
    readNat (formatNat n) = n ∧ formatNat n ≠ [] ∧ ∀ c ∈ formatNat n, '0' ≤ c ∧ c ≤ '9' := by
  induction n using Nat.strongRecOn with
  | _ n ih =>
    have hd : ∀ m, m < 10 → '0' ≤ Nat.digitChar m ∧ Nat.digitChar m ≤ '9' := by
      intro m hm
      rw [char_le_iff, char_le_iff, digitChar_spec hm]
      have h1 : '0'.toNat = 48 := rfl
      have h2 : '9'.toNat = 57 := rfl
      omega
    by_cases h : n < 10
    · rw [formatNat_lt h]
      refine ⟨?_, by simp, by simpa using hd n h⟩
      simp [readNat, digitChar_spec h]
    · have h : 10 ≤ n := by omega
      obtain ⟨h1, h2, h3⟩ := ih (n / 10) (by omega)
      rw [formatNat_ge h]
      refine ⟨?_, by simp, ?_⟩
      · rw [readNat_append, h1, digitChar_spec (by omega)]
        omega
      · intro c hc
        simp at hc
        rcases hc with hc | rfl
        · exact h3 c hc
        · exact hd _ (by omega)

/-- The first digit is zero only for zero. -/
theorem formatNat_head (n : Nat) (h : (formatNat n).head? = some '0') : n = 0 := by
  induction n using Nat.strongRecOn with
  | _ n ih =>
    by_cases hn : n < 10
    · rw [formatNat_lt hn] at h
      have hc : (Nat.digitChar n).toNat = '0'.toNat := congrArg Char.toNat (by simpa using h)
      rw [digitChar_spec hn] at hc
      have : '0'.toNat = 48 := rfl
      omega
    · have hn : 10 ≤ n := by omega
      rw [formatNat_ge hn, List.head?_append_of_ne_nil _ (formatNat_spec _).2.1] at h
      have := ih (n / 10) (by omega) h
      omega

end Fuser
