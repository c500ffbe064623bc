import Verif.Proof.Marks
import Verif.Proof.Apart

/-!
# Elements handed on from one selection to the next
-/

namespace Fuser

open Spec

/-- Starts of elements that the second selector matches are matched by the first. -/
def Covers (s r : Selector) : Forest → Prop
  | .nil | .fail _ => True
  | .leaf e rest => (r.matches e = true → s.matches e = true) ∧ Leaf e ∧ Covers s r rest
  | .elem t as f _ rest =>
    (r.matches (.openingTag t as) = true → s.matches (.openingTag t as) = true) ∧ Covers s r f ∧
      Covers s r rest

theorem events_covers {s r : Selector} {f : Forest} {es : List Event} (hf : f.WF)
    (h : f.events = .ok es)
    (hu : ∀ e ∈ es, r.matches e = true → s.matches e = true) : Covers s r f := by
  induction f generalizing es with
  | nil => trivial
  | fail e => cases h
  | leaf e rest ih =>
    obtain ⟨m, h1, rfl⟩ := leaf_ok h
    exact ⟨hu _ List.mem_cons_self, hf.1, ih hf.2.2.2 h1 fun x hx => hu x (List.mem_cons_of_mem _ hx)⟩
  | elem t as f c rest ihf ihr =>
    obtain ⟨m, m', h1, h2, rfl⟩ := elem_ok h
    exact ⟨hu _ List.mem_cons_self, ihf hf.2.2.1 h1 fun x hx => hu x (by simp [hx]),
      ihr hf.2.2.2 h2 fun x hx => hu x (by simp [hx])⟩

theorem covers_self {s r : Selector} {f : Forest} (h : Covers s r f) : Covers s s f := by
  induction f with
  | nil => trivial
  | fail e => trivial
  | leaf e rest ih => exact ⟨id, h.2.1, ih h.2.2⟩
  | elem t as f c rest ihf ihr => exact ⟨id, ihf h.2.1, ihr h.2.2⟩

/-- Where the first selector does not match, the second does not. -/
theorem covered {s r : Selector} {i : Bool} {e : Event} (hc : r.matches e = true → s.matches e = true)
    (h : ¬ (i && s.matches e) = true) : (i && r.matches e) = false := by
  cases i with
  | false => rfl
  | true =>
    simp only [Bool.true_and] at h ⊢
    exact Bool.eq_false_iff.2 fun h' => h (hc h')

theorem selectTree_hand {s r : Selector} (hs : OnlyStarts s) (hr : OnlyStarts r) (direct : Bool)
    (b c : Nat → Forest → Forest) (hb : ∀ i f, One s f → Covers s s f → One r (b i f)) (f : Forest)
    (hf : Covers s r f) (level n : Nat) :
    selectTree r direct c level n (selectTree s direct b level n f).1 =
      selectTree s direct (fun i f => c i (b i f)) level n f ∧
    (selectTree s direct b level n f).2 =
      (selectTree s direct (fun i f => c i (b i f)) level n f).2 := by
  induction f generalizing level n with
  | nil => exact ⟨rfl, rfl⟩
  | fail e => exact ⟨rfl, rfl⟩
  | leaf e rest ih =>
    simp only [selectTree]
    split
    · next h =>
      obtain ⟨hi, hm⟩ := Bool.and_eq_true_iff.1 h
      have hst := hs e hm
      obtain ⟨ih1, ih2⟩ := ih hf.2.2 level (n + 1)
      have ho : One s (single e) := by simp only [single, hst, if_true]; exact .leaf hst hm
      have hl : Covers s s (single e) := by
        simp only [single, hst, if_true]
        exact ⟨id, hf.2.1, trivial⟩
      simp only
      rw [selectTree_one hi (hb n _ ho hl), ih1]
      exact ⟨rfl, ih2⟩
    · next h =>
      obtain ⟨ih1, ih2⟩ := ih hf.2.2 level n
      simp only [selectTree, covered hf.1 h, Bool.false_eq_true, if_false]
      rw [ih1]
      exact ⟨rfl, ih2⟩
  | elem t as children close rest ih1 ih2 =>
    simp only [selectTree, onlyStarts_closing hs, Bool.and_false]
    split
    · next h =>
      obtain ⟨hi, hm⟩ := Bool.and_eq_true_iff.1 h
      obtain ⟨ih1, ih2⟩ := ih2 hf.2.2 level (n + 1)
      simp only
      rw [selectTree_one hi (hb n _ (.elem hm) ⟨id, covers_self hf.2.1, trivial⟩), ih1]
      exact ⟨rfl, ih2⟩
    · next h =>
      obtain ⟨k1, k2⟩ := ih1 hf.2.1 (level + 1) n
      simp only [Bool.false_eq_true, if_false, selectTree, covered hf.1 h, onlyStarts_closing hr,
        Bool.and_false, k1]
      rw [← k2]
      obtain ⟨j1, j2⟩ := ih2 hf.2.2 level (selectTree s direct b (level + 1) n children).2
      rw [j1]
      exact ⟨rfl, j2⟩

theorem selectOnceTree_hand {s r : Selector} (hs : OnlyStarts s) (hr : OnlyStarts r) (direct : Bool)
    (b c : Forest → Forest) (hb : ∀ f, One s f → Covers s s f → One r (b f)) (f : Forest) (hf : Covers s r f)
    (level : Nat) :
    selectOnceTree r direct c level (selectOnceTree s direct b level f).1 =
      selectOnceTree s direct (fun f => c (b f)) level f ∧
    (selectOnceTree s direct b level f).2 =
      (selectOnceTree s direct (fun f => c (b f)) level f).2 := by
  induction f generalizing level with
  | nil => exact ⟨rfl, rfl⟩
  | fail e => exact ⟨rfl, rfl⟩
  | leaf e rest ih =>
    simp only [selectOnceTree]
    split
    · next h =>
      obtain ⟨hi, hm⟩ := Bool.and_eq_true_iff.1 h
      have hst := hs e hm
      have ho : One s (single e) := by simp only [single, hst, if_true]; exact .leaf hst hm
      have hl : Covers s s (single e) := by
        simp only [single, hst, if_true]
        exact ⟨id, hf.2.1, trivial⟩
      simp only
      rw [selectOnceTree_one hi (hb _ ho hl)]
      exact ⟨rfl, trivial⟩
    · next h =>
      obtain ⟨ih1, ih2⟩ := ih hf.2.2 level
      simp only [selectOnceTree, covered hf.1 h, Bool.false_eq_true, if_false]
      rw [ih1]
      exact ⟨rfl, ih2⟩
  | elem t as children close rest ih1 ih2 =>
    simp only [selectOnceTree, onlyStarts_closing hs, Bool.and_false]
    split
    · next h =>
      obtain ⟨hi, hm⟩ := Bool.and_eq_true_iff.1 h
      simp only
      rw [selectOnceTree_one hi (hb _ (.elem hm) ⟨id, covers_self hf.2.1, trivial⟩)]
      exact ⟨rfl, trivial⟩
    · next h =>
      obtain ⟨k1, k2⟩ := ih1 hf.2.1 (level + 1)
      have h' := covered hf.1 h
      cases hc : (selectOnceTree s direct b (level + 1) children).2 with
      | true =>
        have hc' := k2 ▸ hc
        have hk : (selectOnceTree r direct c (level + 1)
            (selectOnceTree s direct b (level + 1) children).1).2 = true := by rw [k1]; exact hc'
        simp only [if_true, hc', selectOnceTree, h', hk, Bool.false_eq_true, if_false]
        rw [k1]
        exact ⟨rfl, trivial⟩
      | false =>
        have hc' := k2 ▸ hc
        have hk : (selectOnceTree r direct c (level + 1)
            (selectOnceTree s direct b (level + 1) children).1).2 = false := by rw [k1]; exact hc'
        obtain ⟨j1, j2⟩ := ih2 hf.2.2 level
        simp only [Bool.false_eq_true, if_false, hc', selectOnceTree, h', hk,
          onlyStarts_closing hr, Bool.and_false]
        rw [k1, j1]
        exact ⟨rfl, j2⟩

theorem one_handed {s r : Selector} {a k : Kind} (p : Prog a k) (ho : OnlyAttributes p)
    (h : ∀ e, s.matches e = true → r.matches (withAttributes (change p) e) = true) {f : Forest}
    (hf : One s f) (hc : Covers s s f) : One r (meaning p f) := by
  rw [meaning_change p ho]
  cases hf with
  | @leaf e he hm =>
    cases e with
    | selfClosedTag t as => exact .leaf rfl (h _ hm)
    | voidTag t as => exact .leaf rfl (h _ hm)
    | openingTag t as => exact hc.2.1.elim
    | _ => cases he
  | elem hm => exact .elem (h _ hm)

theorem onlyAttributes_calls (ops : List AttrOp) : OnlyAttributes (attrCalls ops) := by
  have h1 : ∀ p : Prog .elem .elem, OnlyAttributes p → OnlyAttributes (ops.foldl .attr p) := by
    induction ops with
    | nil => exact fun p h => h
    | cons op ops ih => exact fun p h => ih (.attr p op) h
  exact h1 .src trivial

theorem change_calls (ops : List AttrOp) (as : Attributes) :
    change (attrCalls ops) as = applyAll ops as := by
  have h2 : ∀ (p : Prog .elem .elem) as, change (ops.foldl .attr p) as = applyAll ops (change p as) := by
    induction ops with
    | nil => exact fun p as => rfl
    | cons op ops ih => exact fun p as => ih (.attr p op) as
  exact h2 .src as

end Fuser
