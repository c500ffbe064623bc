import Verif.Spec.File
import Verif.Proof.FromStr
import Mathlib.Tactic.Common

/-!
# The UTF-8 decoder
-/

namespace Fuser
open Spec

theorem ofNat_val {v : Nat} (h : v.isValidChar) : (Char.ofNat v).val.toNat = v := by
  have : Char.ofNat v = Char.ofNatAux v h := by simp [Char.ofNat, h]
  rw [this]
  rfl

theorem char_val (c : Char) : c.val.toNat.isValidChar := c.valid

theorem char_of {c : Char} {v : Nat} (h : c.val.toNat = v) : Char.ofNat v = c := by
  subst h; exact Char.ofNat_toNat c

theorem isCont_iff {b : UInt8} : isCont b = true ↔ 0x80 ≤ b.toNat ∧ b.toNat ≤ 0xBF := by
  simp [isCont, UInt8.le_iff_toNat_le]

theorem second3_iff {a b : UInt8} : second3 a b = true ↔
    (0x80 ≤ b.toNat ∧ b.toNat ≤ 0xBF) ∧ (a.toNat = 0xE0 → 0xA0 ≤ b.toNat) ∧
      (a.toNat = 0xED → b.toNat ≤ 0x9F) := by
  have h1 : a = 0xE0 ↔ a.toNat = 0xE0 := by rw [← UInt8.toNat_inj]; rfl
  have h2 : a = 0xED ↔ a.toNat = 0xED := by rw [← UInt8.toNat_inj]; rfl
  unfold second3
  split
  · next h =>
    rw [h1] at h
    simp [UInt8.le_iff_toNat_le]
    omega
  · next h =>
    rw [h1] at h
    split
    · next h' =>
      rw [h2] at h'
      simp [UInt8.le_iff_toNat_le]
      omega
    · next h' =>
      rw [h2] at h'
      rw [isCont_iff]
      omega

theorem second4_iff {a b : UInt8} : second4 a b = true ↔
    (0x80 ≤ b.toNat ∧ b.toNat ≤ 0xBF) ∧ (a.toNat = 0xF0 → 0x90 ≤ b.toNat) ∧
      (a.toNat = 0xF4 → b.toNat ≤ 0x8F) := by
  have h1 : a = 0xF0 ↔ a.toNat = 0xF0 := by rw [← UInt8.toNat_inj]; rfl
  have h2 : a = 0xF4 ↔ a.toNat = 0xF4 := by rw [← UInt8.toNat_inj]; rfl
  unfold second4
  split
  · next h =>
    rw [h1] at h
    simp [UInt8.le_iff_toNat_le]
    omega
  · next h =>
    rw [h1] at h
    split
    · next h' =>
      rw [h2] at h'
      simp [UInt8.le_iff_toNat_le]
      omega
    · next h' =>
      rw [h2] at h'
      rw [isCont_iff]
      omega

theorem byte_of {b : UInt8} {v : Nat} (h : b.toNat = v) : UInt8.ofNat v = b := by
  subst h; exact UInt8.ofNat_toNat

theorem ofNat_byte {v : Nat} (h : v < 256) : (UInt8.ofNat v).toNat = v := by
  simp [UInt8.toNat_ofNat', Nat.mod_eq_of_lt h]

/-- Decoding gives back the encoded character. -/
theorem decodeChar_encode (c : Char) (rest : List UInt8) :
    decodeChar (String.utf8EncodeChar c ++ rest) = some (c, rest) := by
  have hv := char_val c
  generalize hn : c.val.toNat = v at hv
  simp only [Nat.isValidChar] at hv
  have hc : String.utf8EncodeChar c = if v ≤ 127 then [UInt8.ofNat v]
    else if v ≤ 2047 then [UInt8.ofNat (v / 64 % 32 + 192), UInt8.ofNat (v % 64 + 128)]
    else if v ≤ 65535 then [UInt8.ofNat (v / 4096 % 16 + 224), UInt8.ofNat (v / 64 % 64 + 128), UInt8.ofNat (v % 64 + 128)]
    else [UInt8.ofNat (v / 262144 % 8 + 240), UInt8.ofNat (v / 4096 % 64 + 128), UInt8.ofNat (v / 64 % 64 + 128),
          UInt8.ofNat (v % 64 + 128)] := by rw [← hn]; rfl
  rw [hc]
  split
  · have h1 := ofNat_byte (v := v) (by omega)
    generalize UInt8.ofNat v = b0 at *
    simp only [List.cons_append, List.nil_append, decodeChar]
    rw [if_pos (by rw [UInt8.lt_iff_toNat_lt]; change _ < 128; omega), h1, char_of hn]
  · split
    · have h1 := ofNat_byte (v := v / 64 % 32 + 192) (by omega)
      have h2 := ofNat_byte (v := v % 64 + 128) (by omega)
      generalize UInt8.ofNat (v / 64 % 32 + 192) = b0 at *
      generalize UInt8.ofNat (v % 64 + 128) = b1 at *
      simp only [List.cons_append, List.nil_append, decodeChar]
      rw [if_neg (by rw [UInt8.lt_iff_toNat_lt]; change ¬ _ < 128; omega),
        if_pos (by
          simp only [Bool.and_eq_true, decide_eq_true_eq, UInt8.le_iff_toNat_le]
          change 194 ≤ _ ∧ _ ≤ 223
          omega),
        if_pos (by rw [isCont_iff]; omega)]
      rw [char_of (c := c) (by omega)]
    · split
      · have h1 := ofNat_byte (v := v / 4096 % 16 + 224) (by omega)
        have h2 := ofNat_byte (v := v / 64 % 64 + 128) (by omega)
        have h3 := ofNat_byte (v := v % 64 + 128) (by omega)
        generalize UInt8.ofNat (v / 4096 % 16 + 224) = b0 at *
        generalize UInt8.ofNat (v / 64 % 64 + 128) = b1 at *
        generalize UInt8.ofNat (v % 64 + 128) = b2 at *
        simp only [List.cons_append, List.nil_append, decodeChar]
        rw [if_neg (by rw [UInt8.lt_iff_toNat_lt]; change ¬ _ < 128; omega),
          if_neg (by
            simp only [Bool.and_eq_true, decide_eq_true_eq, UInt8.le_iff_toNat_le]
            change ¬ (194 ≤ _ ∧ _ ≤ 223)
            omega),
          if_pos (by
            simp only [Bool.and_eq_true, decide_eq_true_eq, UInt8.le_iff_toNat_le]
            change 224 ≤ _ ∧ _ ≤ 239
            omega),
          if_pos (by
            rw [Bool.and_eq_true, isCont_iff, second3_iff]
            omega)]
        rw [char_of (c := c) (by omega)]
      · have h1 := ofNat_byte (v := v / 262144 % 8 + 240) (by omega)
        have h2 := ofNat_byte (v := v / 4096 % 64 + 128) (by omega)
        have h3 := ofNat_byte (v := v / 64 % 64 + 128) (by omega)
        have h4 := ofNat_byte (v := v % 64 + 128) (by omega)
        generalize UInt8.ofNat (v / 262144 % 8 + 240) = b0 at *
        generalize UInt8.ofNat (v / 4096 % 64 + 128) = b1 at *
        generalize UInt8.ofNat (v / 64 % 64 + 128) = b2 at *
        generalize UInt8.ofNat (v % 64 + 128) = b3 at *
        simp only [List.cons_append, List.nil_append, decodeChar]
        rw [if_neg (by rw [UInt8.lt_iff_toNat_lt]; change ¬ _ < 128; omega),
          if_neg (by
            simp only [Bool.and_eq_true, decide_eq_true_eq, UInt8.le_iff_toNat_le]
            change ¬ (194 ≤ _ ∧ _ ≤ 223)
            omega),
          if_neg (by
            simp only [Bool.and_eq_true, decide_eq_true_eq, UInt8.le_iff_toNat_le]
            change ¬ (224 ≤ _ ∧ _ ≤ 239)
            omega),
          if_pos (by
            simp only [Bool.and_eq_true, decide_eq_true_eq, UInt8.le_iff_toNat_le]
            change 240 ≤ _ ∧ _ ≤ 244
            omega),
          if_pos (by
            rw [Bool.and_eq_true, Bool.and_eq_true, isCont_iff, isCont_iff, second4_iff]
            omega)]
        rw [char_of (c := c) (by omega)]

theorem encode_of {v : Nat} (h : v.isValidChar) : String.utf8EncodeChar (Char.ofNat v) =
    if v ≤ 127 then [UInt8.ofNat v]
    else if v ≤ 2047 then [UInt8.ofNat (v / 64 % 32 + 192), UInt8.ofNat (v % 64 + 128)]
    else if v ≤ 65535 then [UInt8.ofNat (v / 4096 % 16 + 224), UInt8.ofNat (v / 64 % 64 + 128), UInt8.ofNat (v % 64 + 128)]
    else [UInt8.ofNat (v / 262144 % 8 + 240), UInt8.ofNat (v / 4096 % 64 + 128), UInt8.ofNat (v / 64 % 64 + 128),
          UInt8.ofNat (v % 64 + 128)] := by
  have := ofNat_val h
  conv_rhs => rw [← this]
  rfl

/-- Decoded bytes are the encoding of the character. -/
theorem decodeChar_sound {bs rest : List UInt8} {c : Char} (h : decodeChar bs = some (c, rest)) :
    bs = String.utf8EncodeChar c ++ rest := by
  cases bs with
  | nil => cases h
  | cons b0 bs =>
    have hb0 := b0.toNat_lt
    simp only [decodeChar] at h
    split at h
    · next h0 =>
      rw [UInt8.lt_iff_toNat_lt] at h0
      change _ < 128 at h0
      simp only [Option.some.injEq, Prod.mk.injEq] at h
      obtain ⟨rfl, rfl⟩ := h
      rw [encode_of (.inl (by omega)), if_pos (by omega), UInt8.ofNat_toNat]
      rfl
    · next h0 =>
      rw [UInt8.lt_iff_toNat_lt] at h0
      change ¬ _ < 128 at h0
      split at h
      · next h1 =>
        simp only [Bool.and_eq_true, decide_eq_true_eq, UInt8.le_iff_toNat_le] at h1
        change 194 ≤ _ ∧ _ ≤ 223 at h1
        split at h
        · next b1 q =>
          split at h
          · next h2 =>
            rw [isCont_iff] at h2
            simp only [Option.some.injEq, Prod.mk.injEq] at h
            obtain ⟨rfl, rfl⟩ := h
            rw [encode_of (.inl (by omega)), if_neg (by omega), if_pos (by omega),
              byte_of (b := b0) (by omega), byte_of (b := b1) (by omega)]
            rfl
          · cases h
        · cases h
      · next h1 =>
        split at h
        · next h2 =>
          simp only [Bool.and_eq_true, decide_eq_true_eq, UInt8.le_iff_toNat_le] at h2
          change 224 ≤ _ ∧ _ ≤ 239 at h2
          split at h
          · next b1 b2 q =>
            split at h
            · next h3 =>
              rw [Bool.and_eq_true, isCont_iff, second3_iff] at h3
              simp only [Option.some.injEq, Prod.mk.injEq] at h
              obtain ⟨rfl, rfl⟩ := h
              rw [encode_of (by simp only [Nat.isValidChar]; omega), if_neg (by omega),
                if_neg (by omega), if_pos (by omega),
                byte_of (b := b0) (by omega), byte_of (b := b1) (by omega),
                byte_of (b := b2) (by omega)]
              rfl
            · cases h
          · cases h
        · next h2 =>
          split at h
          · next h3 =>
            simp only [Bool.and_eq_true, decide_eq_true_eq, UInt8.le_iff_toNat_le] at h3
            change 240 ≤ _ ∧ _ ≤ 244 at h3
            split at h
            · next b1 b2 b3 q =>
              split at h
              · next h4 =>
                rw [Bool.and_eq_true, Bool.and_eq_true, isCont_iff, isCont_iff, second4_iff] at h4
                simp only [Option.some.injEq, Prod.mk.injEq] at h
                obtain ⟨rfl, rfl⟩ := h
                rw [encode_of (by simp only [Nat.isValidChar]; omega), if_neg (by omega),
                  if_neg (by omega), if_neg (by omega),
                  byte_of (b := b0) (by omega), byte_of (b := b1) (by omega),
                  byte_of (b := b2) (by omega), byte_of (b := b3) (by omega)]
                rfl
              · cases h
            · cases h
          · cases h

/-! ## Texts -/

theorem encode_ne_nil (c : Char) : String.utf8EncodeChar c ≠ [] := String.utf8EncodeChar_ne_nil

/-- The valid prefix is the longest one. -/
theorem validPrefix_spec : ∀ (n : Nat) (bs : List UInt8), bs.length ≤ n →
    bs = encodeUtf8 (validPrefix n bs).1 ++ (validPrefix n bs).2 ∧
    decodeChar (validPrefix n bs).2 = none := by
  intro n
  induction n with
  | zero =>
    intro bs h
    have : bs = [] := by simpa using h
    subst this
    simp [validPrefix, encodeUtf8, decodeChar]
  | succ n ih =>
    intro bs h
    simp only [validPrefix]
    cases hd : decodeChar bs with
    | none => simp [encodeUtf8, hd]
    | some q =>
      obtain ⟨c, rest⟩ := q
      have hs := decodeChar_sound hd
      have hl : rest.length ≤ n := by
        have := congrArg List.length hs
        have hp := List.length_pos_of_ne_nil (encode_ne_nil c)
        simp only [List.length_append] at this
        omega
      obtain ⟨h1, h2⟩ := ih rest hl
      refine ⟨?_, h2⟩
      simp only [encodeUtf8, List.flatMap_cons, List.append_assoc]
      rw [← h1]
      exact hs

theorem encode_unique {s t : Str} {r q : List UInt8} (h : encodeUtf8 s ++ r = encodeUtf8 t ++ q)
    (hr : decodeChar r = none) (hq : decodeChar q = none) : s = t ∧ r = q := by
  induction s generalizing t with
  | nil =>
    cases t with
    | nil => exact ⟨rfl, by simpa [encodeUtf8] using h⟩
    | cons c t =>
      simp only [encodeUtf8, List.flatMap_nil, List.nil_append, List.flatMap_cons,
        List.append_assoc] at h
      rw [h, decodeChar_encode] at hr
      cases hr
  | cons c s ih =>
    cases t with
    | nil =>
      simp only [encodeUtf8, List.flatMap_nil, List.nil_append, List.flatMap_cons,
        List.append_assoc] at h
      rw [← h, decodeChar_encode] at hq
      cases hq
    | cons d t =>
      simp only [encodeUtf8, List.flatMap_cons, List.append_assoc] at h
      have h1 := decodeChar_encode c (List.flatMap String.utf8EncodeChar s ++ r)
      rw [h, decodeChar_encode] at h1
      simp only [Option.some.injEq, Prod.mk.injEq] at h1
      obtain ⟨rfl, h1⟩ := h1
      obtain ⟨rfl, rfl⟩ := ih h1.symm
      exact ⟨rfl, rfl⟩

theorem encode_injective {s t : Str} (h : encodeUtf8 s = encodeUtf8 t) : s = t :=
  (encode_unique (r := []) (q := []) (by simpa using h) rfl rfl).1

theorem validPrefix_eq {s : Str} {r : List UInt8} (hr : decodeChar r = none) :
    validPrefix (encodeUtf8 s ++ r).length (encodeUtf8 s ++ r) = (s, r) := by
  obtain ⟨h1, h2⟩ := validPrefix_spec _ (encodeUtf8 s ++ r) (Nat.le_refl _)
  obtain ⟨h3, h4⟩ := encode_unique h1 hr h2
  exact Prod.ext h3.symm h4.symm

theorem fromUtf8_encode (s : Str) : fromUtf8 (encodeUtf8 s) = .ok s := by
  have := validPrefix_eq (s := s) (r := []) rfl
  rw [List.append_nil] at this
  unfold fromUtf8
  rw [this]

theorem fromUtf8_cases (bs : List UInt8) :
    (∃ s, bs = encodeUtf8 s ∧ fromUtf8 bs = .ok s) ∨
    ∃ s r, bs = encodeUtf8 s ++ r ∧ r ≠ [] ∧ decodeChar r = none ∧ fromUtf8 bs = .error (s, r) := by
  obtain ⟨h1, h2⟩ := validPrefix_spec _ bs (Nat.le_refl _)
  unfold fromUtf8
  cases hv : validPrefix bs.length bs with
  | mk s r =>
    rw [hv] at h1 h2
    cases r with
    | nil => exact .inl ⟨s, by simpa using h1, rfl⟩
    | cons b r => exact .inr ⟨s, b :: r, h1, by simp, h2, rfl⟩

theorem encode_append (s t : Str) : encodeUtf8 (s ++ t) = encodeUtf8 s ++ encodeUtf8 t := by
  simp [encodeUtf8]

theorem encode_length (s : Str) : (encodeUtf8 s).length = (s.map Char.utf8Size).sum := by
  induction s with
  | nil => rfl
  | cons c s ih =>
    simp only [encodeUtf8, List.flatMap_cons, List.length_append, List.map_cons, List.sum_cons] at ih ⊢
    rw [ih, String.length_utf8EncodeChar]

end Fuser
