import Verif.Proof.Laws
import Verif.Proof.Calls

/-!
# Copies of pages
-/

namespace Fuser

open Spec

theorem copies_add (b : Nat → Forest) (n m : Nat) : ∀ i,
    copies b i (n + m) = (copies b i n).append (copies b (i + n) m) := by
  induction n with
  | zero => intro i; rw [Nat.zero_add]; rfl
  | succ n ih =>
    intro i
    have e : n + 1 + m = (n + m) + 1 := by omega
    have e' : i + 1 + n = i + (n + 1) := by omega
    rw [e]
    change (b i).append (copies b (i + 1) (n + m)) = ((b i).append (copies b (i + 1) n)).append _
    rw [ih (i + 1), append_assoc, e']

theorem copies_shift (b : Nat → Forest) (n m : Nat) : ∀ i,
    copies (fun j => b (n + j)) i m = copies b (n + i) m := by
  induction m with
  | zero => exact fun _ => rfl
  | succ m ih => intro i; simp only [copies, ih (i + 1), Nat.add_assoc]

theorem copies_congr {b c : Nat → Forest} (n : Nat) : ∀ i, (∀ j, i ≤ j → j < i + n → b j = c j) →
    copies b i n = copies c i n := by
  induction n with
  | zero => exact fun _ _ => rfl
  | succ n ih =>
    intro i h
    simp only [copies]
    rw [h i (Nat.le_refl _) (by omega), ih (i + 1) fun j h1 h2 => h j (by omega) (by omega)]

theorem copies_flat (b : Nat → Nat → Forest) (n m : Nat) : ∀ i,
    copies (fun i => copies (b i) 0 m) i n = copies (fun j => b (j / m) (j % m)) (i * m) (n * m) := by
  induction n with
  | zero => intro i; rw [Nat.zero_mul]; rfl
  | succ n ih =>
    intro i
    rw [Nat.succ_mul, Nat.add_comm (n * m) m, copies_add (fun j => b (j / m) (j % m))]
    change (copies (b i) 0 m).append (copies (fun i => copies (b i) 0 m) (i + 1) n) = _
    rw [ih (i + 1), Nat.succ_mul]
    congr 1
    rw [show i * m = i * m + 0 from rfl, ← copies_shift]
    refine copies_congr m 0 fun j _ hj => ?_
    have hm : 0 < m := by omega
    have h1 : (i * m + j) / m = i := by
      rw [Nat.mul_comm, Nat.mul_add_div hm, Nat.div_eq_of_lt (by omega), Nat.add_zero]
    have h2 : (i * m + j) % m = j := by
      rw [Nat.mul_comm, Nat.mul_add_mod, Nat.mod_eq_of_lt (by omega)]
    rw [h1, h2]

theorem copies_meaning {a k : Kind} (q : Prog a k) (hl : Local q) (b : Nat → Forest) (n : Nat)
    (h0 : n = 0 → meaning q .nil = .nil) : ∀ i,
    meaning q (copies b i n) = copies (fun j => meaning q (b j)) i n := by
  induction n with
  | zero => exact fun _ => h0 rfl
  | succ n ih =>
    intro i
    cases n with
    | zero => simp only [copies, append_nil]
    | succ n =>
      have := ih (by omega) (i + 1)
      rw [copies, meaning_append q hl, this]
      rfl

end Fuser
