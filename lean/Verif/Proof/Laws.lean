import Verif.Spec.Laws
import Verif.Proof.Calls
import Verif.Props.Attr

/-!
# Lemmas for the laws of transforms
-/

namespace Fuser

open Spec

theorem forest_append_assoc (f g h : Forest) :
    (f.append g).append h = f.append (g.append h) := by
  induction f with
  | nil => rfl
  | leaf e rest ih => simp only [Forest.append, ih]
  | elem t as children close rest _ ih => simp only [Forest.append, ih]
  | fail e => rfl

/-! ## Locality -/

theorem selectTree_append (s : Selector) (direct : Bool) (b : Forest → Forest) (f g : Forest)
    (level n m : Nat) :
    (selectTree s direct (fun _ => b) level n (f.append g)).1 =
      (selectTree s direct (fun _ => b) level n f).1.append
        (selectTree s direct (fun _ => b) level m g).1 := by
  have hc : ∀ (f : Forest) (level n m : Nat), (selectTree s direct (fun _ => b) level n f).1 =
      (selectTree s direct (fun _ => b) level m f).1 := by
    intro f
    induction f with
    | nil => intros; rfl
    | fail e => intros; rfl
    | leaf e rest ih =>
      intro level n m
      simp only [selectTree]
      split
      · simp only [ih level (n + 1) (m + 1)]
      · simp only [ih level n m]
    | elem t as children close rest ih1 ih2 =>
      intro level n m
      simp only [selectTree]
      split
      · simp only [ih2 level (n + 1) (m + 1)]
      · split
        · simp only
          rw [ih1 (level + 1) n m, ih2 level _ (selectTree s direct (fun _ => b) (level + 1) m
            children).2]
        · simp only
          rw [ih1 (level + 1) n m, ih2 level _ (selectTree s direct (fun _ => b) (level + 1) m
            children).2]
  induction f generalizing level n m with
  | nil => exact hc g level n m
  | fail e => rfl
  | leaf e rest ih =>
    simp only [Forest.append, selectTree]
    split
    · simp only [ih level (n + 1) m, forest_append_assoc]
    · simp only [ih level n m, Forest.append]
  | elem t as children close rest _ ih2 =>
    simp only [Forest.append, selectTree]
    split
    · simp only [ih2 level (n + 1) m, forest_append_assoc]
    · split
      · simp only [Forest.append]
        rw [ih2 level _ m]
      · simp only [Forest.append]
        rw [ih2 level _ m]

theorem removed_append (f g : Forest) :
    removed (f.append g) = (removed f).append (removed g) := by
  unfold removed
  rw [events_append]
  cases hf : f.events with
  | error e => rfl
  | ok es =>
    cases hg : g.events <;> rfl

theorem meaning_append {a k : Kind} (p : Prog a k) (h : Local p) (f g : Forest) :
    meaning p (f.append g) = (meaning p f).append (meaning p g) := by
  induction p generalizing f g with
  | src => rfl
  | forget p ih => exact ih h f g
  | apply p q ih1 ih2 => simp only [meaning, ih1 h.1, ih2 h.2]
  | fallOk p ih => exact ih h f g
  | fallErr e => rfl
  | selectRaw p s direct b ih _ =>
    have hb : (fun i => meaning (b i)) = fun _ => meaning (b 0) := funext fun i => by rw [h.2 i]
    simp only [meaning, ih h.1, hb]
    exact selectTree_append s direct _ _ _ 0 0 0
  | selectOnceRaw p s direct b ih _ => exact h.elim
  | remove p ih => simp only [meaning, ih h, removed_append]
  | prepend p c ih => exact h.elim
  | append p c ih => exact h.elim
  | «repeat» p n b ih _ => exact h.elim
  | orElse p n r q ih1 ih2 ih3 =>
    simp only [meaning]
    split
    · next hn => rw [ih1 h.1, ih2 (h.2.1 hn)]
    · next hn => rw [ih1 h.1, ih3 (h.2.2 (by omega))]
  | applyTemplate p g ih => exact h.elim
  | contents p b ih _ => exact h.elim
  | attr p op ih => exact h.elim

/-! ## Fusion -/

/-- A forest of one element. -/
inductive One (s : Selector) : Forest → Prop
  | leaf {e} : isStart e = true → s.matches e = true → One s (.leaf e .nil)
  | elem {t as f c} : s.matches (.openingTag t as) = true → One s (.elem t as f c .nil)

theorem one_keeps {s : Selector} {a k : Kind} (p : Prog a k) (h : StaysSelected s p) {f : Forest}
    (hf : One s f) : One s (meaning p f) := by
  induction p generalizing f with
  | src => exact hf
  | forget p ih => exact ih h hf
  | apply p q ih1 ih2 => exact ih2 h.2 (ih1 h.1 hf)
  | fallOk p ih => exact ih h hf
  | fallErr e => exact h.elim
  | selectRaw p s direct b ih _ => exact h.elim
  | selectOnceRaw p s direct b ih _ => exact h.elim
  | remove p ih => exact h.elim
  | prepend p c ih => exact h.elim
  | append p c ih => exact h.elim
  | «repeat» p n b ih _ => exact h.elim
  | orElse p n r q ih1 ih2 ih3 => exact h.elim
  | applyTemplate p g ih => exact h.elim
  | contents p b ih _ =>
    simp only [meaning]
    generalize hg : meaning p f = g
    cases (hg ▸ ih h.1 hf : One s g) with
    | @leaf e he hm =>
      cases e with
      | selfClosedTag t as => exact .elem (h.2 t as hm)
      | voidTag t as => exact .leaf he hm
      | openingTag t as => exact .leaf he hm
      | _ => cases he
    | elem hm => exact .elem hm
  | attr p op ih =>
    simp only [meaning]
    generalize hg : meaning p f = g
    cases (hg ▸ ih h.1 hf : One s g) with
    | @leaf e he hm =>
      cases e with
      | selfClosedTag t as => exact .leaf rfl (h.2 _ hm)
      | voidTag t as => exact .leaf rfl (h.2 _ hm)
      | openingTag t as => exact .leaf he hm
      | _ => cases he
    | elem hm => exact .elem (h.2 _ hm)

theorem selectTree_one {s : Selector} {direct : Bool} {b : Nat → Forest → Forest} {level n : Nat}
    (hi : inScope direct level = true) {f : Forest} (hf : One s f) (g : Forest) :
    selectTree s direct b level n (f.append g) =
      ((b n f).append (selectTree s direct b level (n + 1) g).1,
        (selectTree s direct b level (n + 1) g).2) := by
  cases hf with
  | leaf he hm => simp only [Forest.append, selectTree, hi, hm, single, he, Bool.and_self, if_true]
  | elem hm => simp only [Forest.append, selectTree, hi, hm, Bool.and_self, if_true]

theorem selectTree_fuse {s : Selector} (hs : OnlyStarts s) (direct : Bool)
    (b c : Nat → Forest → Forest) (hb : ∀ i f, One s f → One s (b i f)) (f : Forest)
    (level n : Nat) :
    selectTree s direct c level n (selectTree s direct b level n f).1 =
      selectTree s direct (fun i f => c i (b i f)) level n f ∧
    (selectTree s direct b level n f).2 =
      (selectTree s direct (fun i f => c i (b i f)) level n f).2 := by
  induction f generalizing level n with
  | nil => exact ⟨rfl, rfl⟩
  | fail e => exact ⟨rfl, rfl⟩
  | leaf e rest ih =>
    simp only [selectTree]
    split
    · next h =>
      obtain ⟨hi, hm⟩ := Bool.and_eq_true_iff.1 h
      have hst := hs e hm
      obtain ⟨ih1, ih2⟩ := ih level (n + 1)
      have ho : One s (single e) := by simp only [single, hst, if_true]; exact .leaf hst hm
      simp only
      rw [selectTree_one hi (hb n _ ho), ih1]
      exact ⟨rfl, ih2⟩
    · next h =>
      obtain ⟨ih1, ih2⟩ := ih level n
      simp only [selectTree, h]
      rw [ih1]
      exact ⟨rfl, ih2⟩
  | elem t as children close rest ih1 ih2 =>
    simp only [selectTree, onlyStarts_closing hs, Bool.and_false]
    split
    · next h =>
      obtain ⟨hi, hm⟩ := Bool.and_eq_true_iff.1 h
      obtain ⟨ih1, ih2⟩ := ih2 level (n + 1)
      simp only
      rw [selectTree_one hi (hb n _ (.elem hm)), ih1]
      exact ⟨rfl, ih2⟩
    · next h =>
      obtain ⟨k1, k2⟩ := ih1 (level + 1) n
      simp only [Bool.false_eq_true, if_false, selectTree, h, onlyStarts_closing hs,
        Bool.and_false, k1]
      rw [← k2]
      obtain ⟨j1, j2⟩ := ih2 level (selectTree s direct b (level + 1) n children).2
      rw [j1]
      exact ⟨rfl, j2⟩

theorem selectOnceTree_one {s : Selector} {direct : Bool} {b : Forest → Forest} {level : Nat}
    (hi : inScope direct level = true) {f : Forest} (hf : One s f) (g : Forest) :
    selectOnceTree s direct b level (f.append g) = ((b f).append g, true) := by
  cases hf with
  | leaf he hm =>
    simp only [Forest.append, selectOnceTree, hi, hm, single, he, Bool.and_self, if_true]
  | elem hm => simp only [Forest.append, selectOnceTree, hi, hm, Bool.and_self, if_true]

theorem selectOnceTree_fuse {s : Selector} (hs : OnlyStarts s) (direct : Bool)
    (b c : Forest → Forest) (hb : ∀ f, One s f → One s (b f)) (f : Forest) (level : Nat) :
    selectOnceTree s direct c level (selectOnceTree s direct b level f).1 =
      selectOnceTree s direct (fun f => c (b f)) level f ∧
    (selectOnceTree s direct b level f).2 =
      (selectOnceTree s direct (fun f => c (b f)) level f).2 := by
  induction f generalizing level with
  | nil => exact ⟨rfl, rfl⟩
  | fail e => exact ⟨rfl, rfl⟩
  | leaf e rest ih =>
    simp only [selectOnceTree]
    split
    · next h =>
      obtain ⟨hi, hm⟩ := Bool.and_eq_true_iff.1 h
      have hst := hs e hm
      have ho : One s (single e) := by simp only [single, hst, if_true]; exact .leaf hst hm
      simp only
      rw [selectOnceTree_one hi (hb _ ho)]
      exact ⟨rfl, trivial⟩
    · next h =>
      obtain ⟨ih1, ih2⟩ := ih level
      simp only [selectOnceTree, h]
      rw [ih1]
      exact ⟨rfl, ih2⟩
  | elem t as children close rest ih1 ih2 =>
    simp only [selectOnceTree, onlyStarts_closing hs, Bool.and_false]
    split
    · next h =>
      obtain ⟨hi, hm⟩ := Bool.and_eq_true_iff.1 h
      simp only
      rw [selectOnceTree_one hi (hb _ (.elem hm))]
      exact ⟨rfl, trivial⟩
    · next h =>
      obtain ⟨k1, k2⟩ := ih1 (level + 1)
      cases hc : (selectOnceTree s direct b (level + 1) children).2 with
      | true =>
        have hc' := k2 ▸ hc
        have hk : (selectOnceTree s direct c (level + 1)
            (selectOnceTree s direct b (level + 1) children).1).2 = true := by rw [k1]; exact hc'
        simp only [if_true, hc', selectOnceTree, h, hk]
        rw [k1]
        exact ⟨rfl, trivial⟩
      | false =>
        have hc' := k2 ▸ hc
        have hk : (selectOnceTree s direct c (level + 1)
            (selectOnceTree s direct b (level + 1) children).1).2 = false := by rw [k1]; exact hc'
        obtain ⟨j1, j2⟩ := ih2 level
        simp only [Bool.false_eq_true, if_false, hc', selectOnceTree, h, hk,
          onlyStarts_closing hs, Bool.and_false]
        rw [k1, j1]
        exact ⟨rfl, j2⟩

/-! ## Independent changes of attributes -/

theorem meaning_change {a k : Kind} (p : Prog a k) (h : OnlyAttributes p) (f : Forest) :
    meaning p f = onAttributes (change p) f := by
  have hid : ∀ f : Forest, f = onAttributes (fun as => as) f := by
    intro f
    cases f with
    | leaf e rest => cases e <;> rfl
    | _ => rfl
  have hcomp : ∀ (g g' : Attributes → Attributes) (f : Forest),
      onAttributes g (onAttributes g' f) = onAttributes (fun as => g (g' as)) f := by
    intro g g' f
    cases f with
    | leaf e rest => cases e <;> rfl
    | _ => rfl
  induction p generalizing f with
  | src => exact hid f
  | forget p ih => exact ih h f
  | apply p q ih1 ih2 => simp only [meaning, ih1 h.1, ih2 h.2, hcomp]; rfl
  | fallOk p ih => exact ih h f
  | attr p op ih =>
    have h : OnlyAttributes p := h
    simp only [meaning, ih h, hcomp]; rfl
  | fallErr e => exact h.elim
  | selectRaw p s direct b ih _ => exact h.elim
  | selectOnceRaw p s direct b ih _ => exact h.elim
  | remove p ih => exact h.elim
  | prepend p c ih => exact h.elim
  | append p c ih => exact h.elim
  | «repeat» p n b ih _ => exact h.elim
  | orElse p n r q ih1 ih2 ih3 => exact h.elim
  | applyTemplate p g ih => exact h.elim
  | contents p b ih _ => exact h.elim

theorem onlyAttributes_nested {a k : Kind} {p : Prog a k} (h : OnlyAttributes p) :
    WellNested p := by
  induction p with
  | src => trivial
  | forget p ih => exact ih h
  | apply p q ih1 ih2 => exact ⟨ih1 h.1, ih2 h.2⟩
  | fallOk p ih => exact ih h
  | attr p op ih => exact ih h
  | _ => exact h.elim

/-- The event of a leaf with changed attributes. -/
def leafWith (op : Attributes → Attributes) : Event → Event
  | .selfClosedTag t as => .selfClosedTag t (op as)
  | .voidTag t as => .voidTag t (op as)
  | e => e

theorem onAttributes_leaf (op : Attributes → Attributes) (e : Event) (f : Forest) :
    onAttributes op (.leaf e f) = .leaf (leafWith op e) f := by
  cases e <;> rfl

theorem leafWith_cases (op op' : Attributes → Attributes) (e : Event) :
    (leafWith op e = withAttributes op e ∧ leafWith op' e = withAttributes op' e ∧
      leafWith op (leafWith op' e) = withAttributes op (withAttributes op' e) ∧
      leafWith op' (leafWith op e) = withAttributes op' (withAttributes op e)) ∨
    (leafWith op e = e ∧ leafWith op' e = e) := by
  cases e <;> first | exact .inl ⟨rfl, rfl, rfl, rfl⟩ | exact .inr ⟨rfl, rfl⟩

theorem blind_leaf {s : Selector} {op : Attributes → Attributes} (h : Blind s op) (e : Event) :
    s.matches (leafWith op e) = s.matches e := by
  rcases leafWith_cases op op e with ⟨h1, -⟩ | ⟨h1, -⟩
  · rw [h1, h e]
  · rw [h1]

theorem single_start {e : Event} (h : isStart e = true) : single e = .leaf e .nil := by
  simp only [single, h, if_true]

theorem selectTree_leaf {s : Selector} (hs : OnlyStarts s) (d : Bool)
    (op : Nat → Attributes → Attributes) (e : Event) (rest : Forest) (level n : Nat) :
    selectTree s d (fun i => onAttributes (op i)) level n (.leaf e rest) =
      if inScope d level && s.matches e then
        (.leaf (leafWith (op n) e) (selectTree s d (fun i => onAttributes (op i)) level (n + 1)
          rest).1, (selectTree s d (fun i => onAttributes (op i)) level (n + 1) rest).2)
      else
        (.leaf e (selectTree s d (fun i => onAttributes (op i)) level n rest).1,
          (selectTree s d (fun i => onAttributes (op i)) level n rest).2) := by
  simp only [selectTree]
  split
  · next h =>
    rw [single_start (hs e (Bool.and_eq_true_iff.1 h).2), onAttributes_leaf]
    rfl
  · rfl

theorem selectTree_elem {s : Selector} (hs : OnlyStarts s) (d : Bool)
    (op : Nat → Attributes → Attributes) (t : Identifier) (as : Attributes) (children : Forest)
    (c : Identifier) (rest : Forest) (level n : Nat) :
    selectTree s d (fun i => onAttributes (op i)) level n (.elem t as children c rest) =
      if inScope d level && s.matches (.openingTag t as) then
        (.elem t (op n as) children c (selectTree s d (fun i => onAttributes (op i)) level (n + 1)
          rest).1, (selectTree s d (fun i => onAttributes (op i)) level (n + 1) rest).2)
      else
        let r := selectTree s d (fun i => onAttributes (op i)) (level + 1) n children
        (.elem t as r.1 c (selectTree s d (fun i => onAttributes (op i)) level r.2 rest).1,
          (selectTree s d (fun i => onAttributes (op i)) level r.2 rest).2) := by
  simp only [selectTree, onlyStarts_closing hs, Bool.and_false, Bool.false_eq_true, if_false]
  split <;> rfl

theorem selectTree_commute {s r : Selector} (hs : OnlyStarts s) (hr : OnlyStarts r) (d d' : Bool)
    (op op' : Nat → Attributes → Attributes) (h1 : ∀ i, Blind r (op i)) (h2 : ∀ i, Blind s (op' i))
    (h3 : ∀ i j e, s.matches e = true → r.matches e = true →
      withAttributes (op' j) (withAttributes (op i) e) =
        withAttributes (op i) (withAttributes (op' j) e))
    (f : Forest) (level n m : Nat) :
    (selectTree r d' (fun i => onAttributes (op' i)) level m
        (selectTree s d (fun i => onAttributes (op i)) level n f).1).1 =
      (selectTree s d (fun i => onAttributes (op i)) level n
        (selectTree r d' (fun i => onAttributes (op' i)) level m f).1).1 ∧
    (selectTree r d' (fun i => onAttributes (op' i)) level m
        (selectTree s d (fun i => onAttributes (op i)) level n f).1).2 =
      (selectTree r d' (fun i => onAttributes (op' i)) level m f).2 ∧
    (selectTree s d (fun i => onAttributes (op i)) level n
        (selectTree r d' (fun i => onAttributes (op' i)) level m f).1).2 =
      (selectTree s d (fun i => onAttributes (op i)) level n f).2 := by
  induction f generalizing level n m with
  | nil => exact ⟨rfl, rfl, rfl⟩
  | fail e => exact ⟨rfl, rfl, rfl⟩
  | leaf e rest ih =>
    rw [selectTree_leaf hs, selectTree_leaf hr]
    by_cases hA : (inScope d level && s.matches e) = true
    · by_cases hB : (inScope d' level && r.matches e) = true
      · obtain ⟨i1, i2, i3⟩ := ih level (n + 1) (m + 1)
        simp only [hA, hB, if_true, selectTree_leaf hs, selectTree_leaf hr, blind_leaf (h1 n),
          blind_leaf (h2 m), i1, i2, i3, and_self, and_true]
        congr 1
        rcases leafWith_cases (op' m) (op n) e with ⟨k1, k2, k3, k4⟩ | ⟨k1, k2⟩
        · rw [k3, k4]
          exact h3 n m e (Bool.and_eq_true_iff.1 hA).2 (Bool.and_eq_true_iff.1 hB).2
        · rw [k1, k2, k1]
      · obtain ⟨i1, i2, i3⟩ := ih level (n + 1) m
        simp only [hA, hB, if_true, if_false, selectTree_leaf hs, selectTree_leaf hr,
          blind_leaf (h1 n), i1, i2, i3, and_self, Bool.false_eq_true]
    · by_cases hB : (inScope d' level && r.matches e) = true
      · obtain ⟨i1, i2, i3⟩ := ih level n (m + 1)
        simp only [hA, hB, if_true, if_false, selectTree_leaf hs, selectTree_leaf hr,
          blind_leaf (h2 m), i1, i2, i3, and_self, Bool.false_eq_true]
      · obtain ⟨i1, i2, i3⟩ := ih level n m
        simp only [hA, hB, if_false, selectTree_leaf hs, selectTree_leaf hr,
          i1, i2, i3, and_self, Bool.false_eq_true]
  | elem t as children c rest ih1 ih2 =>
    have hb1 : ∀ i, r.matches (.openingTag t (op i as)) = r.matches (.openingTag t as) :=
      fun i => h1 i (.openingTag t as)
    have hb2 : ∀ i, s.matches (.openingTag t (op' i as)) = s.matches (.openingTag t as) :=
      fun i => h2 i (.openingTag t as)
    rw [selectTree_elem hs, selectTree_elem hr]
    by_cases hA : (inScope d level && s.matches (.openingTag t as)) = true
    · by_cases hB : (inScope d' level && r.matches (.openingTag t as)) = true
      · obtain ⟨i1, i2, i3⟩ := ih2 level (n + 1) (m + 1)
        simp only [hA, hB, if_true, selectTree_elem hs, selectTree_elem hr, hb1, hb2, i1, i2, i3,
          and_self, and_true]
        congr 1
        have := h3 n m (.openingTag t as) (Bool.and_eq_true_iff.1 hA).2
          (Bool.and_eq_true_iff.1 hB).2
        simp only [withAttributes] at this
        injection this
      · obtain ⟨i1, i2, i3⟩ := ih2 level (n + 1)
          (selectTree r d' (fun i => onAttributes (op' i)) (level + 1) m children).2
        simp only [hA, hB, if_true, if_false, selectTree_elem hs, selectTree_elem hr,
          hb1, i1, i2, i3, and_self, Bool.false_eq_true]
    · by_cases hB : (inScope d' level && r.matches (.openingTag t as)) = true
      · obtain ⟨i1, i2, i3⟩ := ih2 level
          (selectTree s d (fun i => onAttributes (op i)) (level + 1) n children).2 (m + 1)
        simp only [hA, hB, if_true, if_false, selectTree_elem hs, selectTree_elem hr,
          hb2, i1, i2, i3, and_self, Bool.false_eq_true]
      · obtain ⟨j1, j2, j3⟩ := ih1 (level + 1) n m
        obtain ⟨i1, i2, i3⟩ := ih2 level
          (selectTree s d (fun i => onAttributes (op i)) (level + 1) n children).2
          (selectTree r d' (fun i => onAttributes (op' i)) (level + 1) m children).2
        simp only [hA, hB, if_false, selectTree_elem hs, selectTree_elem hr,
          j1, j2, j3, i1, i2, i3, and_self, Bool.false_eq_true]

/-! ## Selectors and attributes of other names -/

theorem balanced_append {es fs : List Event} (h : Balanced es) (h' : Balanced fs) :
    Balanced (es ++ fs) := by
  obtain ⟨n, h⟩ := h
  obtain ⟨m, h'⟩ := h'
  have hmono : ∀ {n es}, Nests n es → ∀ m, n ≤ m → Nests m es := by
    intro n es h
    induction h with
    | nil => intros; exact .nil
    | leaf he _ ih => exact fun m hm => .leaf he (ih m hm)
    | element hc _ _ ih1 ih2 =>
      intro m hm
      obtain ⟨m, rfl⟩ : ∃ k, m = k + 1 := ⟨m - 1, by omega⟩
      exact .element hc (ih1 m (by omega)) (ih2 _ hm)
  refine ⟨max n m, ?_⟩
  have h1 := hmono h (max n m) (by omega)
  have h2 := hmono h' (max n m) (by omega)
  clear h h'
  generalize max n m = k at h1 h2
  induction h1 with
  | nil => exact h2
  | leaf he _ ih => exact .leaf he (ih h2)
  | element hc h1 _ _ ih2 =>
    simp only [List.cons_append, List.append_assoc]
    exact .element hc h1 (ih2 h2)

theorem notOfName_apply (op : AttrOp) (h : ValidCall op) (as : Attributes) :
    notOfName (aboutName op) (op.apply as) = notOfName (aboutName op) as := by
  cases op with
  | removeClass c => exact (C13_remove_class as c h).2.2.1
  | removeAttribute n =>
    simp only [aboutName]
    rw [removeAttribute_eq as h.ascii, notOfName_notOfName]
  | addAttribute n v =>
    simp only [aboutName]
    rw [(C11_add_attribute as n (.static []) (.static []) h).1 v, notOfName_append,
      notOfName_single (n := n.str) (a := ⟨n, v⟩) (SameName.refl _), List.append_nil]
  | replaceAttribute n v =>
    simp only [aboutName]
    by_cases he : ∃ a ∈ as, Named n.str a
    · rw [(C10_replace_if_exists as n v h).2 he]
      exact (C08_set_attribute as n v h).2.2.2.1
    · rw [(C10_replace_if_exists as n v h).1 (fun a ha hn => he ⟨a, ha, hn⟩)]
  | addToAttribute n v sep =>
    simp only [aboutName]
    obtain ⟨-, h1, h2⟩ := C11_add_attribute as n v sep h
    rcases named_split as n.str with he | ⟨pre, a, post, rfl, he1, he2⟩
    · rw [h1 he, notOfName_append,
        notOfName_single (n := n.str) (a := ⟨n, some v⟩) (SameName.refl _), List.append_nil]
    · obtain ⟨w, hw, -⟩ := h2 pre a post rfl he1 he2
      rw [hw, notOfName_append, notOfName_append, ← List.singleton_append, notOfName_append,
        notOfName_single (a := ⟨a.name, some w⟩) he2, ← List.singleton_append (l := post),
        notOfName_append, notOfName_single he2]
  | setAttribute n v => exact (C08_set_attribute as n v h).2.2.2.1

theorem any_notOfName {n : Str} {g : Attribute → Bool} (h : ∀ a, Named n a → g a = false)
    (as : Attributes) : as.any g = (notOfName n as).any g := by
  induction as with
  | nil => rfl
  | cons a as ih =>
    unfold notOfName at ih ⊢
    rw [List.any_cons, ih, List.filter_cons]
    by_cases ha : Named n a
    · simp [ha, h a ha]
    · simp [ha]

theorem hasId_other {n : Str} (hn : ¬ SameName n "id".toList) {as bs : Attributes}
    (h : notOfName n as = notOfName n bs) (x : Str) :
    Attributes.hasId as x = Attributes.hasId bs x := by
  have hany : ∀ {g : Attribute → Bool}, (∀ a, Named n a → g a = false) → as.any g = bs.any g :=
    fun hg => by rw [any_notOfName hg as, any_notOfName hg bs, h]
  unfold Attributes.hasId
  refine hany fun a ha => ?_
  have : a.name.isEq "id".toList = false := by
    rw [← Bool.not_eq_true]
    intro hq
    exact hn (ha.symm.trans ((identifierEq_right ascii_id).1 hq))
  rw [this, Bool.false_and]

theorem hasClass_other {n : Str} (hn : ¬ SameName n "class".toList) {as bs : Attributes}
    (h : notOfName n as = notOfName n bs) (x : Str) :
    Attributes.hasClass as x = Attributes.hasClass bs x := by
  unfold Attributes.hasClass
  have hg : ∀ a, Named n a → a.hasClass x = false := by
    intro a ha
    unfold Attribute.hasClass Attribute.classes
    rw [if_neg]
    intro hq
    exact hn (ha.symm.trans ((identifierEq_right ascii_class).1 hq))
  rw [any_notOfName hg as, any_notOfName hg bs, h]

theorem blind_other {s : Selector} (hs : ∀ f, s ≠ .custom f) {op : AttrOp} (h : ValidCall op)
    (hn : ∀ n ∈ looksAt s, ¬ SameName (aboutName op) n) : Blind s op.apply := by
  have hh := notOfName_apply op h
  have key : ∀ (w : Identifier → Attributes → Event)
      (_ : ∀ t as, (w t as).attributes = some as ∧ (w t as).elementTagStart = some t)
      (t : Identifier) (as : Attributes),
      s.matches (w t (op.apply as)) = s.matches (w t as) := by
    intro w hw t as
    cases s with
    | id i =>
      simp only [Selector.matches, (hw _ _).1]
      exact hasId_other (hn _ (by simp [looksAt])) (hh as) _
    | tag i => simp only [Selector.matches, (hw _ _).2]
    | «class» i =>
      simp only [Selector.matches, (hw _ _).1]
      exact hasClass_other (hn _ (by simp [looksAt])) (hh as) _
    | classes is =>
      simp only [Selector.matches, (hw _ _).1]
      congr 1
      funext i
      exact hasClass_other (hn _ (by simp [looksAt])) (hh as) _
    | static mt mi mc =>
      simp only [Selector.matches, (hw _ _).1, (hw _ _).2]
      congr 1
      · congr 1
        cases mi with
        | none => rfl
        | some i => exact hasId_other (hn _ (by simp [looksAt])) (hh as) _
      · cases mc with
        | none => rfl
        | some c =>
          simp only
          congr 1
          funext i
          exact hasClass_other (hn _ (by simp [looksAt])) (hh as) _
    | custom f => exact absurd rfl (hs f)
  intro e
  cases e with
  | openingTag t as => exact key .openingTag (fun _ _ => ⟨rfl, rfl⟩) t as
  | selfClosedTag t as => exact key .selfClosedTag (fun _ _ => ⟨rfl, rfl⟩) t as
  | voidTag t as => exact key .voidTag (fun _ _ => ⟨rfl, rfl⟩) t as
  | _ => rfl

/-! ## Other contents -/

theorem untilEnd_stopped (rs : List (Except StreamError (Option Event))) :
    untilEnd ((untilEnd rs).map fun r => r.map some) = untilEnd rs := by
  induction rs with
  | nil => rfl
  | cons r rs ih =>
    match r with
    | .ok none => rfl
    | .error e => rfl
    | .ok (some e) => exact congrArg (List.cons (.ok e)) ih

theorem stopped_results (c : Content) : results (stopped c) = results c := by
  induction c with
  | script rs => exact untilEnd_stopped rs
  | resultOk c ih => exact ih
  | _ => rfl

end Fuser
