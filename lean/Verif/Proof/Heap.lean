import Verif.Model.Heap
import Verif.Proof.Machine

/-!
# The heap machine simulates the machine with nested cells
-/

namespace Fuser

/-- `Sim H path own n hn`: the state `hn` on the heap `H` stands for `n`; `path` are the cells of the
enclosing streams, innermost first; `own` are the cells only reachable through `hn`. -/
inductive Sim (H : Heap) : List Nat → List Nat → Node → HNode → Prop
  | dead {path} : Sim H path [] .dead .dead
  | shared {a path} : Sim H (a :: path) [] .shared (.shared a)
  | tmpl {path es i} : Sim H path [] (.tmpl es i) (.tmpl es i)
  | once {path d} : Sim H path [] (.once d) (.once d)
  | script {path rs} : Sim H path [] (.script rs) (.script rs)
  | fallStart {path o s s'} : Sim H path o s s' → Sim H path o (.fallStart s) (.fallStart s')
  | fallError {path e} : Sim H path [] (.fallError e) (.fallError e)
  | fallEmit {path o s s'} : Sim H path o s s' → Sim H path o (.fallEmit s) (.fallEmit s')
  | expandStart {path o s s'} :
      Sim H path o s s' → Sim H path o (.expandStart s) (.expandStart s')
  | expandEmit {path o s s'} :
      Sim H path o s s' → Sim H path o (.expandEmit s) (.expandEmit s')
  | expandClose {path t} : Sim H path [] (.expandClose t) (.expandClose t)
  | peek {path o s s' b} : Sim H path o s s' → Sim H path o (.peek s b) (.peek s' b)
  | combFirst {path o₁ o₂ s s' t t'} : Sim H path o₁ s s' → Sim H path o₂ t t' →
      Sim H path (o₁ ++ o₂) (.combFirst s t) (.combFirst s' t')
  | combSecond {path o s s'} : Sim H path o s s' → Sim H path o (.combSecond s) (.combSecond s')
  | singleStart {path o e s s'} :
      Sim H path o s s' → Sim H path o (.singleStart e s) (.singleStart e s')
  | singleUntil {path o t s s' l} :
      Sim H path o s s' → Sim H path o (.singleUntil t s l) (.singleUntil t s' l)
  | selScan {path a c o src s d k b n l} : H[a]? = some (some c) → Sim H path o src c →
      Sim H path (a :: o) (.selScan src s d k b n l) (.selScan a s d k b n l)
  | selActive {path a c o o' src s d k b n l st st'} : H[a]? = some (some c) →
      Sim H path o src c → Sim H (a :: path) o' st st' →
      Sim H path (a :: (o ++ o')) (.selActive src s d k b n l st) (.selActive a s d k b n l st')
  | onceScan {path a c o src s d k b l} : H[a]? = some (some c) → Sim H path o src c →
      Sim H path (a :: o) (.onceScan src s d k b l) (.onceScan a s d k b l)
  | onceActive {path a c o o' src st st'} : H[a]? = some (some c) →
      Sim H path o src c → Sim H (a :: path) o' st st' →
      Sim H path (a :: (o ++ o')) (.onceActive src st) (.onceActive a st')
  | oncePass {path a c o src} : H[a]? = some (some c) → Sim H path o src c →
      Sim H path (a :: o) (.oncePass src) (.oncePass a)
  | contOpen {path o s s' k b} :
      Sim H path o s s' → Sim H path o (.contOpen s k b) (.contOpen s' k b)
  | contContent {path a c o o' src st st' t} : H[a]? = some (some c) →
      Sim H path o src c → Sim H (a :: path) o' st st' →
      Sim H path (a :: (o ++ o')) (.contContent src st t) (.contContent a st' t)
  | contClose {path a c o src t} : H[a]? = some (some c) → Sim H path o src c →
      Sim H path (a :: o) (.contClose src t) (.contClose a t)
  | curContent {a path t l} : Sim H (a :: path) [] (.curContent t l) (.curContent a t l)
  | attrStart {path o op s s'} :
      Sim H path o s s' → Sim H path o (.attrStart op s) (.attrStart op s')
  | attrEmit {path o s s'} : Sim H path o s s' → Sim H path o (.attrEmit s) (.attrEmit s')
  | remove {path o s s'} : Sim H path o s s' → Sim H path o (.remove s) (.remove s')
  | repCollect {path o s s' n k k' b} :
      Sim H path o s s' → Sim H path o (.repCollect s n k k' b) (.repCollect s' n k k' b)
  | repNext {path es i n k k' b} :
      Sim H path [] (.repNext es i n k k' b) (.repNext es i n k k' b)
  | repEmit {path o es i n k k' b s s'} :
      Sim H path o s s' → Sim H path o (.repEmit es i n k k' b s) (.repEmit es i n k k' b s')
  | orElseStart {path o s s' n k k₁ k₂} {rep : Prog k k₁} {fb : Prog k k₂} :
      Sim H path o s s' → Sim H path o (.orElseStart n (rep.build s) (fb.build s))
        (.orElseStart s' n k k₁ k₂ rep fb)
  | orElseRun {path o s s'} : Sim H path o s s' → Sim H path o (.orElseRun s) (.orElseRun s')
  | applyCollect {path o s s' f} :
      Sim H path o s s' → Sim H path o (.applyCollect s f) (.applyCollect s' f)
  | applyEmit {path o s s'} : Sim H path o s s' → Sim H path o (.applyEmit s) (.applyEmit s')

/-- A cell that stands for `n`. -/
inductive CellSim (H : Heap) (path : List Nat) (n : Node) (a : Nat) : List Nat → Prop
  | mk {c o} : H[a]? = some (some c) → Sim H path o n c → CellSim H path n a (a :: o)

/-- The cells of the enclosing streams stand for the nested cells; `os` are the cells only reachable
through them. -/
inductive EnvSim (H : Heap) : List Nat → List Nat → Env → Prop
  | nil : EnvSim H [] [] []
  | cons {a c path o os n env} : H[a]? = some (some c) → Sim H path o n c →
      EnvSim H path os env → EnvSim H (a :: path) (o ++ os) (n :: env)

theorem lt_of_cell {H : Heap} {a : Nat} {c : Option HNode} (h : H[a]? = some c) :
    a < H.length := (List.getElem?_eq_some_iff.1 h).1

theorem Sim.frame {H H' : Heap} {path own n hn} (h : Sim H path own n hn)
    (heq : ∀ x, 0 < own.count x → H'[x]? = H[x]?) : Sim H' path own n hn := by
  induction h with
  | combFirst _ _ ih₁ ih₂ =>
    exact .combFirst (ih₁ fun x hx => heq x (by rw [List.count_append]; omega))
      (ih₂ fun x hx => heq x (by rw [List.count_append]; omega))
  | selScan hc _ ih =>
    exact .selScan (by rw [heq _ (by simp), hc])
      (ih fun x hx => heq x (by rw [List.count_cons]; omega))
  | onceScan hc _ ih =>
    exact .onceScan (by rw [heq _ (by simp), hc])
      (ih fun x hx => heq x (by rw [List.count_cons]; omega))
  | oncePass hc _ ih =>
    exact .oncePass (by rw [heq _ (by simp), hc])
      (ih fun x hx => heq x (by rw [List.count_cons]; omega))
  | contClose hc _ ih =>
    exact .contClose (by rw [heq _ (by simp), hc])
      (ih fun x hx => heq x (by rw [List.count_cons]; omega))
  | selActive hc _ _ ih₁ ih₂ =>
    exact .selActive (by rw [heq _ (by simp), hc])
      (ih₁ fun x hx => heq x (by rw [List.count_cons, List.count_append]; omega))
      (ih₂ fun x hx => heq x (by rw [List.count_cons, List.count_append]; omega))
  | onceActive hc _ _ ih₁ ih₂ =>
    exact .onceActive (by rw [heq _ (by simp), hc])
      (ih₁ fun x hx => heq x (by rw [List.count_cons, List.count_append]; omega))
      (ih₂ fun x hx => heq x (by rw [List.count_cons, List.count_append]; omega))
  | contContent hc _ _ ih₁ ih₂ =>
    exact .contContent (by rw [heq _ (by simp), hc])
      (ih₁ fun x hx => heq x (by rw [List.count_cons, List.count_append]; omega))
      (ih₂ fun x hx => heq x (by rw [List.count_cons, List.count_append]; omega))
  | _ => first
    | (constructor; done)
    | (constructor; rename_i ih; exact ih heq)

theorem Sim.bound {H : Heap} {path own n hn} (h : Sim H path own n hn) :
    ∀ x, H.length ≤ x → own.count x = 0 := by
  have ne : ∀ {a x : Nat} {c : Option HNode}, H[a]? = some c → H.length ≤ x →
      (if (a == x) = true then 1 else 0) = 0 := by
    intro a x c hc hx
    have := lt_of_cell hc
    rw [if_neg]
    simp only [beq_iff_eq]
    omega
  induction h with
  | combFirst _ _ ih₁ ih₂ =>
    intro x hx
    rw [List.count_append, ih₁ x hx, ih₂ x hx]
  | selScan hc _ ih | onceScan hc _ ih | oncePass hc _ ih | contClose hc _ ih =>
    intro x hx
    rw [List.count_cons, ih x hx, ne hc hx]
  | selActive hc _ _ ih₁ ih₂ | onceActive hc _ _ ih₁ ih₂ | contContent hc _ _ ih₁ ih₂ =>
    intro x hx
    rw [List.count_cons, List.count_append, ih₁ x hx, ih₂ x hx, ne hc hx]
  | _ => first
    | (intro x _; exact List.count_nil)
    | assumption

theorem EnvSim.frame {H H' : Heap} {path os env} (h : EnvSim H path os env)
    (heq : ∀ x, 0 < path.count x + os.count x → H'[x]? = H[x]?) : EnvSim H' path os env := by
  induction h with
  | nil => exact .nil
  | cons hc hs _ ih =>
    exact .cons (by rw [heq _ (by rw [List.count_cons_self]; omega), hc])
      (hs.frame fun x hx => heq x (by rw [List.count_append]; omega))
      (ih fun x hx => heq x (by rw [List.count_cons, List.count_append]; omega))

theorem EnvSim.bound {H : Heap} {path os env} (h : EnvSim H path os env) :
    ∀ x, H.length ≤ x → path.count x + os.count x = 0 := by
  induction h with
  | nil => intro x _; rfl
  | cons hc hs _ ih =>
    intro x hx
    have := lt_of_cell hc
    have := ih x hx
    rw [List.count_cons, List.count_append, hs.bound x hx, if_neg]
    · omega
    · simp only [beq_iff_eq]; omega

/-- No cell is in two places. -/
def Apart (path os own : List Nat) : Prop :=
  ∀ x, path.count x + os.count x + own.count x ≤ 1

/-- What a step may do: cells are kept or made, and only cells in reach change. -/
structure Post (H : Heap) (path os own : List Nat) (H' : Heap) (os' own' : List Nat) : Prop where
  kept : ∀ x, x < H.length → os'.count x + own'.count x ≤ os.count x + own.count x
  made : ∀ x, H.length ≤ x → os'.count x + own'.count x ≤ 1
  len : H.length ≤ H'.length
  frame : ∀ x, x < H.length → path.count x + os.count x + own.count x = 0 → H'[x]? = H[x]?

theorem Post.refl {H path os own} (h : Apart path os own) : Post H path os own H os own where
  kept _ _ := Nat.le_refl _
  made x _ := by have := h x; omega
  len := Nat.le_refl _
  frame _ _ _ := rfl

theorem Post.drop {H path os own H' os' own'} (h : Post H path os own H' os' own') :
    Post H path os own H' os' [] where
  kept x hx := by have := h.kept x hx; rw [List.count_nil]; omega
  made x hx := by have := h.made x hx; rw [List.count_nil]; omega
  len := h.len
  frame := h.frame

theorem Post.trans {H path os own H₁ os₁ own₁ H₂ os₂ own₂}
    (h₁ : Post H path os own H₁ os₁ own₁) (h₂ : Post H₁ path os₁ own₁ H₂ os₂ own₂) :
    Post H path os own H₂ os₂ own₂ where
  kept x hx := by
    have := h₁.len
    have := h₁.kept x hx
    have := h₂.kept x (by omega)
    omega
  made x hx := by
    have := h₁.made x hx
    by_cases h : x < H₁.length
    · have := h₂.kept x h
      omega
    · exact h₂.made x (by omega)
  len := by have := h₁.len; have := h₂.len; omega
  frame x hx h := by
    have := h₁.len
    have := h₁.kept x hx
    rw [h₂.frame x (by omega) (by omega), h₁.frame x hx h]

theorem Post.apart {H path os own H' os' own' env} (h : Post H path os own H' os' own')
    (he : EnvSim H path os env) (ha : Apart path os own) : Apart path os' own' := by
  intro x
  by_cases hx : x < H.length
  · have := h.kept x hx
    have := ha x
    omega
  · have := h.made x (by omega)
    have := he.bound x (by omega)
    omega

/-- A pull of `n` by `run` gives `p`, on the heap. -/
def Steps (run : Heap → HNode → Option HPull) (env : Env) (n : Node) (p : Pull) : Prop :=
  ∀ H path os own hn, EnvSim H path os env → Sim H path own n hn → Apart path os own →
    ∃ hn' H' os' own', run H hn = some (p.1, hn', H') ∧ EnvSim H' path os' p.2.2 ∧
      Sim H' path own' p.2.1 hn' ∧ Post H path os own H' os' own'

/-- The same through a cell. -/
def CellSteps (run : Heap → HNode → Option HPull) (env : Env) (n : Node) (p : Pull) : Prop :=
  ∀ H path os own a, EnvSim H path os env → CellSim H path n a own → Apart path os own →
    ∃ H' os' own', run H (.shared a) = some (p.1, .shared a, H') ∧ EnvSim H' path os' p.2.2 ∧
      CellSim H' path p.2.1 a own' ∧ Post H path os own H' os' own'

/-- Collecting, on the heap. -/
def CollectSteps (env : Env) (n : Node) (p : Except StreamError (List Event) × Env) : Prop :=
  ∀ H path os own hn, EnvSim H path os env → Sim H path own n hn → Apart path os own →
    ∃ H' os', collectHeap H hn = some (p.1, H') ∧ EnvSim H' path os' p.2 ∧
      Post H path os own H' os' []

theorem set_ne {H : Heap} {a x : Nat} {c : Option HNode} (h : a ≠ x) :
    (H.set a c)[x]? = H[x]? := List.getElem?_set_ne h

theorem set_eq {H : Heap} {a : Nat} {c : Option HNode} (h : a < H.length) :
    (H.set a c)[a]? = some c := List.getElem?_set_self h

/-- Borrowing the cell, pulling the stream in it and giving it back. -/
theorem Steps.cell {env n p} (h : Steps nextHeap env n p) : CellSteps nextHeap env n p := by
  intro H path os own a henv hcell hapart
  cases hcell with
  | @mk c o hc hs =>
    have hlt := lt_of_cell hc
    have ha := hapart a
    rw [List.count_cons_self] at ha
    have hset : ∀ x, a ≠ x → (H.set a none)[x]? = H[x]? := fun x hx => set_ne hx
    have henv1 : EnvSim (H.set a none) path os env :=
      henv.frame fun x hx => hset x (by rintro rfl; omega)
    have hs1 : Sim (H.set a none) path o n c :=
      hs.frame fun x hx => hset x (by rintro rfl; omega)
    have hap1 : Apart path os o := fun x => by
      have := hapart x
      rw [List.count_cons] at this
      omega
    obtain ⟨c', H', os', o', hrun, henv', hs', hp⟩ := h _ _ _ _ _ henv1 hs1 hap1
    have hlen : (H.set a none).length = H.length := List.length_set
    have hpl := hp.len
    rw [hlen] at hpl
    have hka := hp.kept a (by rw [hlen]; exact hlt)
    refine ⟨H'.set a (some c'), os', a :: o', ?_, ?_, ?_, ?_⟩
    · rw [nextHeap]
      simp only [Heap.borrow, hc, bind, Option.bind_some, hrun, Heap.release]
    · exact henv'.frame fun x hx => set_ne (by rintro rfl; omega)
    · exact .mk (set_eq (by omega))
        (hs'.frame fun x hx => set_ne (by rintro rfl; omega))
    · constructor
      · intro x hx
        have := hp.kept x (by rw [hlen]; exact hx)
        rw [List.count_cons, List.count_cons]
        omega
      · intro x hx
        have := hp.made x (by rw [hlen]; exact hx)
        rw [List.count_cons, if_neg (by simp only [beq_iff_eq]; omega)]
        omega
      · rw [List.length_set]
        exact hpl
      · intro x hx h0
        rw [List.count_cons] at h0
        have hne : a ≠ x := by
          rintro rfl
          simp at h0
        rw [set_ne hne, hp.frame x (by rw [hlen]; exact hx) (by omega), hset x hne]


/-- Counting in concatenations. -/
macro "cnt" : tactic =>
  `(tactic| ((simp only [List.count_cons, List.count_append, List.count_nil] at *) <;> omega))

/-- Cells `e` that are not concerned, and cells that change roles. -/
theorem Post.move {H path os own H' os' own' path₂ os₂ own₂ os₂' own₂'} (e : List Nat)
    (hp : Post H path os own H' os' own')
    (hb : ∀ x, H.length ≤ x → path.count x + e.count x = 0)
    (h₁ : ∀ x, path₂.count x + os₂.count x + own₂.count x =
      path.count x + os.count x + own.count x + e.count x)
    (h₂ : ∀ x, path₂.count x + os₂'.count x + own₂'.count x ≤
      path.count x + os'.count x + own'.count x + e.count x) :
    Post H path₂ os₂ own₂ H' os₂' own₂' where
  kept x hx := by
    have := hp.kept x hx
    have := h₁ x
    have := h₂ x
    omega
  made x hx := by
    have := hp.made x hx
    have := hb x hx
    have := h₂ x
    omega
  len := hp.len
  frame x hx h := by
    have := h₁ x
    exact hp.frame x hx (by omega)

/-- What building a stream does: cells are only made. -/
structure Grow (H H' : Heap) (own own' : List Nat) : Prop where
  kept : ∀ x, x < H.length → own'.count x ≤ own.count x
  made : ∀ x, H.length ≤ x → own'.count x ≤ 1
  len : H.length ≤ H'.length
  same : ∀ x, x < H.length → H'[x]? = H[x]?

theorem Sim.grow {H H' : Heap} {path own n hn} (h : Sim H path own n hn)
    (heq : ∀ x, x < H.length → H'[x]? = H[x]?) : Sim H' path own n hn :=
  h.frame fun x hx => heq x (Nat.lt_of_not_le fun hle => by
    have := h.bound x hle
    omega)

theorem EnvSim.grow {H H' : Heap} {path os env} (h : EnvSim H path os env)
    (heq : ∀ x, x < H.length → H'[x]? = H[x]?) : EnvSim H' path os env :=
  h.frame fun x hx => heq x (Nat.lt_of_not_le fun hle => by
    have := h.bound x hle
    omega)

theorem Post.grow {H path os own H₁ os₁ own₁ H₂ own₂ i o} (e : List Nat)
    (hp : Post H path os own H₁ os₁ own₁) (hg : Grow H₁ H₂ i o)
    (hb : ∀ x, H₁.length ≤ x → os₁.count x + e.count x = 0)
    (h₁ : ∀ x, own₁.count x = i.count x + e.count x)
    (h₂ : ∀ x, own₂.count x ≤ o.count x + e.count x) : Post H path os own H₂ os₁ own₂ where
  kept x hx := by
    have := hp.kept x hx
    have := hp.len
    have := hg.kept x (by omega)
    have := h₁ x
    have := h₂ x
    omega
  made x hx := by
    have := hp.made x hx
    have := h₁ x
    have := h₂ x
    by_cases h : x < H₁.length
    · have := hg.kept x h
      omega
    · have := hg.made x (by omega)
      have := hb x (by omega)
      omega
  len := by have := hp.len; have := hg.len; omega
  frame x hx h := by
    have := hp.len
    rw [hg.same x (by omega), hp.frame x hx h]

theorem append_same {H : Heap} {c : Option HNode} :
    ∀ x, x < H.length → (H ++ [c])[x]? = H[x]? :=
  fun _ hx => List.getElem?_append_left hx

theorem append_self {H : Heap} {c : Option HNode} : (H ++ [c])[H.length]? = some c := by
  simp

theorem count_length {l : List Nat} {m x : Nat} (h : ∀ x, m ≤ x → l.count x = 0) (hx : m ≤ x) :
    (m :: l).count x ≤ 1 := by
  rw [List.count_cons, h x hx]
  split <;> omega

theorem count_length_lt {l : List Nat} {m x : Nat} (hx : x < m) :
    (m :: l).count x = l.count x := by
  rw [List.count_cons, if_neg (by simp only [beq_iff_eq]; omega)]
  rfl

theorem count_length_lt' {l : List Nat} {m x : Nat} (hx : m + 1 ≤ x) :
    (m :: l).count x = l.count x := by
  rw [List.count_cons, if_neg (by simp only [beq_iff_eq]; omega)]
  rfl

theorem Grow.alloc {H H' : Heap} {own own' : List Nat} {c : Option HNode} (h : Grow H H' own own')
    (hb : ∀ x, H'.length ≤ x → own'.count x = 0) :
    Grow H (H' ++ [c]) own (H'.length :: own') where
  kept x hx := by
    have := h.len
    rw [count_length_lt (by omega)]
    exact h.kept x hx
  made x hx := by
    by_cases hlt : x < H'.length
    · rw [count_length_lt hlt]
      exact h.made x hx
    · exact count_length hb (by omega)
  len := by have := h.len; rw [List.length_append]; omega
  same x hx := by
    have := h.len
    rw [append_same x (by omega), h.same x hx]

theorem Sim.content {H : Heap} {path : List Nat} (c : Content) :
    Sim H path [] c.intoStream c.intoHeapStream := by
  induction c with
  | data _ => exact .once
  | template _ => exact .tmpl
  | script _ => exact .script
  | resultOk _ ih => exact .fallStart ih
  | resultErr _ => exact .fallError

theorem Sim.build {a k : Kind} (p : Prog a k) {H : Heap} {path own n hn}
    (h : Sim H path own n hn) (hap : ∀ x, own.count x ≤ 1) :
    ∃ own', Sim (p.buildHeap hn H).2 path own' (p.build n) (p.buildHeap hn H).1 ∧
      Grow H (p.buildHeap hn H).2 own own' := by
  have one {own own' : List Nat} {H H' : Heap} (hg : Grow H H' own own')
      (hap : ∀ x, own.count x ≤ 1) : ∀ x, own'.count x ≤ 1 := by
    intro x
    by_cases hx : x < H.length
    · have := hg.kept x hx
      have := hap x
      omega
    · exact hg.made x (by omega)
  induction p generalizing H own n hn with
  | src => exact ⟨own, h, fun _ _ => Nat.le_refl _, fun x _ => hap x, Nat.le_refl _, fun _ _ => rfl⟩
  | forget p ih => exact ih h hap
  | apply p q ihp ihq =>
    obtain ⟨o₁, h₁, g₁⟩ := ihp h hap
    obtain ⟨o₂, h₂, g₂⟩ := ihq h₁ (one g₁ hap)
    refine ⟨o₂, h₂, ?_, ?_, ?_, ?_⟩
    · intro x hx
      have := g₁.len
      exact Nat.le_trans (g₂.kept x (by omega)) (g₁.kept x hx)
    · intro x _
      exact one g₂ (one g₁ hap) x
    · have := g₁.len
      have := g₂.len
      exact Nat.le_trans g₁.len g₂.len
    · intro x hx
      have := g₁.len
      exact (g₂.same x (by omega)).trans (g₁.same x hx)
  | fallOk p ih =>
    obtain ⟨o, h, g⟩ := ih h hap
    exact ⟨o, .fallStart h, g⟩
  | fallErr e =>
    exact ⟨[], .fallError, fun _ _ => Nat.zero_le _, fun _ _ => Nat.zero_le _, Nat.le_refl _,
      fun _ _ => rfl⟩
  | selectRaw p s d b ih =>
    obtain ⟨o, h, g⟩ := ih h hap
    exact ⟨_, .selScan append_self (h.grow append_same), g.alloc h.bound⟩
  | selectOnceRaw p s d b ih =>
    obtain ⟨o, h, g⟩ := ih h hap
    exact ⟨_, .onceScan append_self (h.grow append_same), g.alloc h.bound⟩
  | remove p ih =>
    obtain ⟨o, h, g⟩ := ih h hap
    exact ⟨o, .remove h, g⟩
  | prepend p c ih =>
    obtain ⟨o, h, g⟩ := ih h hap
    exact ⟨_, .combFirst (.content c) h, g⟩
  | append p c ih =>
    obtain ⟨o, h, g⟩ := ih h hap
    exact ⟨_, .combFirst h (.content c), by rw [List.append_nil]; exact g⟩
  | «repeat» p m b ih =>
    obtain ⟨o, h, g⟩ := ih h hap
    exact ⟨o, .repCollect h, g⟩
  | orElse p m r f ih =>
    obtain ⟨o, h, g⟩ := ih h hap
    exact ⟨o, .orElseStart h, g⟩
  | applyTemplate p f ih =>
    obtain ⟨o, h, g⟩ := ih h hap
    exact ⟨o, .applyCollect h, g⟩
  | contents p b ih =>
    obtain ⟨o, h, g⟩ := ih h hap
    exact ⟨o, .contOpen (.expandStart h), g⟩
  | attr p op ih =>
    obtain ⟨o, h, g⟩ := ih h hap
    exact ⟨o, .attrStart h, g⟩


theorem EnvSim.path_bound {H : Heap} {path os env} (h : EnvSim H path os env) :
    ∀ x, H.length ≤ x → path.count x = 0 := fun x hx => by
  have := h.bound x hx
  omega

theorem bind_run {α : Type} {x : Option α} {f : α → Option HPull} {r : Res}
    {R : HNode → Heap → List Nat → List Nat → Prop} (a : α) (hx : x = some a)
    (h : ∃ hn' H' os' own', f a = some (r, hn', H') ∧ R hn' H' os' own') :
    ∃ hn' H' os' own', x >>= f = some (r, hn', H') ∧ R hn' H' os' own' := by
  subst hx
  exact h

theorem machine_heap :
    (∀ env n p, next env n = some p → Steps nextHeap env n p ∧ CellSteps nextHeap env n p) ∧
    (∀ env n p, collect env n = some p → CollectSteps env n p) ∧
    (∀ env n p, nextSkipNoop env n = some p →
      Steps nextSkipNoopHeap env n p ∧ CellSteps nextSkipNoopHeap env n p) ∧
    (∀ env n p, drain env n = some p → Steps drainHeap env n p) := by
  refine next.mutual_partial_correctness
    (fun env n p => Steps nextHeap env n p ∧ CellSteps nextHeap env n p) CollectSteps
    (fun env n p => Steps nextSkipNoopHeap env n p ∧ CellSteps nextSkipNoopHeap env n p)
    (Steps drainHeap) ?_ ?_ ?_ ?_
  · intro next collect skip drain h1 h2 h3 h4 env n p h
    suffices hs : Steps nextHeap env n p from ⟨hs, hs.cell⟩
    intro H path os own hn henv hsim hap
    cases n
    case dead =>
      cases hsim
      cases h
      exact ⟨_, _, _, _, by rw [nextHeap.eq_def], henv, .dead, .refl hap⟩
    case tmpl es i =>
      cases hsim
      rw [nextHeap.eq_def]
      cases hi : es[i]? <;> simp only [hi] at h ⊢ <;> cases h <;>
        exact ⟨_, _, _, _, rfl, henv, .tmpl, .refl hap⟩
    case once d =>
      cases hsim
      rw [nextHeap.eq_def]
      cases d <;> cases h <;> exact ⟨_, _, _, _, rfl, henv, .once, .refl hap⟩
    case script rs =>
      cases hsim
      rw [nextHeap.eq_def]
      rcases rs with _ | ⟨_ | _ | _, _⟩ <;> cases h <;>
        exact ⟨_, _, _, _, rfl, henv, .script, .refl hap⟩
    case fallStart s =>
      cases hsim with
      | fallStart hs =>
        cases h
        exact ⟨_, _, _, _, by rw [nextHeap.eq_def], henv, .fallEmit hs, .refl hap⟩
    case fallError e =>
      cases hsim
      cases h
      exact ⟨_, _, _, _, by rw [nextHeap.eq_def], henv, .dead, .refl hap⟩
    case expandClose t =>
      cases hsim
      cases h
      exact ⟨_, _, _, _, by rw [nextHeap.eq_def], henv, .dead, .refl hap⟩
    case singleStart e s =>
      cases hsim with
      | singleStart hs =>
        rw [nextHeap.eq_def]
        cases e <;> cases h <;> first
          | exact ⟨_, _, _, _, rfl, henv, .singleUntil hs, .refl hap⟩
          | exact ⟨_, _, _, _, rfl, henv, .dead, (Post.refl hap).drop⟩
    case shared =>
      cases hsim with
      | @shared a path =>
        cases henv with
        | @cons _ c _ o os n env hc hs he =>
          simp only [bind, Option.bind_eq_some_iff] at h
          obtain ⟨⟨r, cell, rest⟩, hx, h⟩ := h
          cases h
          obtain ⟨H', os', own', hrun, he', hcell, hp⟩ :=
            (h1 _ _ _ hx).2 H path os (a :: o) a he (.mk hc hs) (fun x => by
              have := hap x
              cnt)
          cases hcell with
          | mk hc' hs' =>
            exact ⟨_, _, _, _, hrun, .cons hc' hs' he', .shared,
              hp.move [] (fun x hx => by rw [he.path_bound x hx]; rfl) (fun x => by cnt)
                (fun x => by cnt)⟩
    case fallEmit s =>
      cases hsim with
      | fallEmit hs =>
        simp only [bind, Option.bind_eq_some_iff] at h
        obtain ⟨⟨r, s₁, env₁⟩, hx, h⟩ := h
        obtain ⟨hn', H', os', own', hrun, he, hs', hp⟩ := (h1 _ _ _ hx).1 H path os own _ henv hs hap
        rw [nextHeap.eq_def]
        simp only [bind, hrun, Option.bind_some]
        cases r <;> cases h
        · exact ⟨_, _, _, _, rfl, he, .fallEmit hs', hp⟩
        all_goals exact ⟨_, _, _, _, rfl, he, .dead, hp.drop⟩
    case expandEmit s =>
      cases hsim with
      | expandEmit hs =>
        simp only [bind, Option.bind_eq_some_iff] at h
        obtain ⟨⟨r, s₁, env₁⟩, hx, h⟩ := h
        obtain ⟨hn', H', os', own', hrun, he, hs', hp⟩ := (h1 _ _ _ hx).1 H path os own _ henv hs hap
        rw [nextHeap.eq_def]
        simp only [bind, hrun, Option.bind_some]
        cases r <;> cases h
        · exact ⟨_, _, _, _, rfl, he, .expandEmit hs', hp⟩
        all_goals exact ⟨_, _, _, _, rfl, he, .dead, hp.drop⟩
    case attrEmit s =>
      cases hsim with
      | attrEmit hs =>
        simp only [bind, Option.bind_eq_some_iff] at h
        obtain ⟨⟨r, s₁, env₁⟩, hx, h⟩ := h
        obtain ⟨hn', H', os', own', hrun, he, hs', hp⟩ := (h1 _ _ _ hx).1 H path os own _ henv hs hap
        rw [nextHeap.eq_def]
        simp only [bind, hrun, Option.bind_some]
        cases r <;> cases h
        · exact ⟨_, _, _, _, rfl, he, .attrEmit hs', hp⟩
        all_goals exact ⟨_, _, _, _, rfl, he, .dead, hp.drop⟩
    case orElseRun s =>
      cases hsim with
      | orElseRun hs =>
        simp only [bind, Option.bind_eq_some_iff] at h
        obtain ⟨⟨r, s₁, env₁⟩, hx, h⟩ := h
        obtain ⟨hn', H', os', own', hrun, he, hs', hp⟩ := (h1 _ _ _ hx).1 H path os own _ henv hs hap
        rw [nextHeap.eq_def]
        simp only [bind, hrun, Option.bind_some]
        cases r <;> cases h
        · exact ⟨_, _, _, _, rfl, he, .orElseRun hs', hp⟩
        all_goals exact ⟨_, _, _, _, rfl, he, .dead, hp.drop⟩
    case applyEmit s =>
      cases hsim with
      | applyEmit hs =>
        simp only [bind, Option.bind_eq_some_iff] at h
        obtain ⟨⟨r, s₁, env₁⟩, hx, h⟩ := h
        obtain ⟨hn', H', os', own', hrun, he, hs', hp⟩ := (h1 _ _ _ hx).1 H path os own _ henv hs hap
        rw [nextHeap.eq_def]
        simp only [bind, hrun, Option.bind_some]
        cases r <;> cases h
        · exact ⟨_, _, _, _, rfl, he, .applyEmit hs', hp⟩
        all_goals exact ⟨_, _, _, _, rfl, he, .dead, hp.drop⟩
    case singleUntil tag s level =>
      cases hsim with
      | singleUntil hs =>
        simp only [bind, Option.bind_eq_some_iff] at h
        obtain ⟨⟨r, s₁, env₁⟩, hx, h⟩ := h
        obtain ⟨hn', H', os', own', hrun, he, hs', hp⟩ := (h1 _ _ _ hx).1 H path os own _ henv hs hap
        rw [nextHeap.eq_def]
        simp only [bind, hrun, Option.bind_some]
        cases r with
        | ev e =>
          cases h
          simp only [singleUntilStep, singleUntilStepHeap]
          repeat' split
          all_goals first
            | exact ⟨_, _, _, _, rfl, he, .singleUntil hs', hp⟩
            | exact ⟨_, _, _, _, rfl, he, .dead, hp.drop⟩
        | done => cases h; exact ⟨_, _, _, _, rfl, he, .dead, hp.drop⟩
        | err e => cases h; exact ⟨_, _, _, _, rfl, he, .dead, hp.drop⟩
    case repEmit events i n k k' b s =>
      cases hsim with
      | repEmit hs =>
        simp only [bind, Option.bind_eq_some_iff] at h
        obtain ⟨⟨r, s₁, env₁⟩, hx, h⟩ := h
        obtain ⟨hn', H', os', own', hrun, he, hs', hp⟩ := (h1 _ _ _ hx).1 H path os own _ henv hs hap
        rw [nextHeap.eq_def]
        simp only [bind, hrun, Option.bind_some]
        cases r <;> cases h
        · exact ⟨_, _, _, _, rfl, he, .repEmit hs', hp⟩
        · exact ⟨_, _, _, _, rfl, he, .repNext, hp.drop⟩
        · exact ⟨_, _, _, _, rfl, he, .dead, hp.drop⟩
    case expandStart s =>
      cases hsim with
      | expandStart hs =>
        simp only [bind, Option.bind_eq_some_iff] at h
        obtain ⟨⟨r, s₁, env₁⟩, hx, h⟩ := h
        obtain ⟨hn', H', os', own', hrun, he, hs', hp⟩ := (h3 _ _ _ hx).1 H path os own _ henv hs hap
        rw [nextHeap.eq_def]
        simp only [bind, hrun, Option.bind_some]
        rcases r with e | _ | _
        · cases e <;> cases h <;> first
            | exact ⟨_, _, _, _, rfl, he, .expandEmit hs', hp⟩
            | exact ⟨_, _, _, _, rfl, he, .expandClose, hp.drop⟩
            | exact ⟨_, _, _, _, rfl, he, .dead, hp.drop⟩
        all_goals cases h; exact ⟨_, _, _, _, rfl, he, .dead, hp.drop⟩
    case attrStart op s =>
      cases hsim with
      | attrStart hs =>
        simp only [bind, Option.bind_eq_some_iff] at h
        obtain ⟨⟨r, s₁, env₁⟩, hx, h⟩ := h
        obtain ⟨hn', H', os', own', hrun, he, hs', hp⟩ := (h3 _ _ _ hx).1 H path os own _ henv hs hap
        rw [nextHeap.eq_def]
        simp only [bind, hrun, Option.bind_some]
        rcases r with e | _ | _
        · cases e <;> cases h <;> first
            | exact ⟨_, _, _, _, rfl, he, .attrEmit hs', hp⟩
            | exact ⟨_, _, _, _, rfl, he, .dead, hp.drop⟩
        all_goals cases h; exact ⟨_, _, _, _, rfl, he, .dead, hp.drop⟩
    case peek s buffered =>
      cases hsim with
      | peek hs =>
        rw [nextHeap.eq_def]
        cases buffered with
        | some e => cases h; exact ⟨_, _, _, _, rfl, henv, .peek hs, .refl hap⟩
        | none =>
          simp only [bind, Option.bind_eq_some_iff] at h
          obtain ⟨⟨r, s₁, env₁⟩, hx, h⟩ := h
          obtain ⟨hn', H', os', own', hrun, he, hs', hp⟩ :=
            (h3 _ _ _ hx).1 H path os own _ henv hs hap
          simp only [bind, hrun, Option.bind_some]
          cases h
          exact ⟨_, _, _, _, rfl, he, .peek hs', hp⟩
    case combSecond s =>
      cases hsim with
      | combSecond hs =>
        simp only [bind, Option.bind_eq_some_iff] at h
        obtain ⟨⟨r, s₁, env₁⟩, hx, h⟩ := h
        obtain ⟨hn', H', os', own', hrun, he, hs', hp⟩ := (h3 _ _ _ hx).1 H path os own _ henv hs hap
        rw [nextHeap.eq_def]
        simp only [bind, hrun, Option.bind_some]
        cases r <;> cases h
        · exact ⟨_, _, _, _, rfl, he, .combSecond hs', hp⟩
        all_goals exact ⟨_, _, _, _, rfl, he, .dead, hp.drop⟩
    case combFirst s t =>
      cases hsim with
      | @combFirst _ o₁ o₂ _ s' _ t' hs ht =>
        simp only [bind, Option.bind_eq_some_iff] at h
        obtain ⟨⟨r, s₁, env₁⟩, hx, h⟩ := h
        obtain ⟨hn', H', os', own', hrun, he, hs', hp⟩ :=
          (h3 _ _ _ hx).1 H path os o₁ _ henv hs (fun x => by have := hap x; cnt)
        have ht' : Sim H' path o₂ t t' := ht.frame fun x hx =>
          hp.frame x (Nat.lt_of_not_le fun hle => by have := ht.bound x hle; omega)
            (by have := hap x; cnt)
        have hp' : Post H path os (o₁ ++ o₂) H' os' (own' ++ o₂) :=
          hp.move o₂ (fun x hx => by rw [henv.path_bound x hx, ht.bound x hx])
            (fun x => by cnt) (fun x => by cnt)
        rw [nextHeap.eq_def]
        simp only [bind, hrun, Option.bind_some]
        cases r <;> cases h
        · exact ⟨_, _, _, _, rfl, he, .combFirst hs' ht', hp'⟩
        · exact ⟨_, _, _, _, rfl, he, .combSecond ht',
            hp.move o₂ (fun x hx => by rw [henv.path_bound x hx, ht.bound x hx])
              (fun x => by cnt) (fun x => by cnt)⟩
        · exact ⟨_, _, _, _, rfl, he, .dead, hp'.drop⟩
    case remove s =>
      cases hsim with
      | remove hs =>
        simp only [bind, Option.bind_eq_some_iff] at h
        obtain ⟨⟨r, s₁, env₁⟩, hx, h⟩ := h
        obtain ⟨hn', H', os', own', hrun, he, hs', hp⟩ := h4 _ _ _ hx H path os own _ henv hs hap
        rw [nextHeap.eq_def]
        simp only [bind, hrun, Option.bind_some]
        cases h
        exact ⟨_, _, _, _, rfl, he, .remove hs', hp⟩
    case repCollect s n k k' b =>
      cases hsim with
      | repCollect hs =>
        simp only [bind, Option.bind_eq_some_iff] at h
        obtain ⟨⟨r, env₁⟩, hx, h⟩ := h
        obtain ⟨H', os', hrun, he, hp⟩ := h2 _ _ _ hx H path os own _ henv hs hap
        rw [nextHeap.eq_def]
        simp only [bind, hrun, Option.bind_some]
        cases r <;> cases h
        · exact ⟨_, _, _, _, rfl, he, .dead, hp⟩
        · exact ⟨_, _, _, _, rfl, he, .repNext, hp⟩
    case applyCollect s f =>
      cases hsim with
      | applyCollect hs =>
        simp only [bind, Option.bind_eq_some_iff] at h
        obtain ⟨⟨r, env₁⟩, hx, h⟩ := h
        obtain ⟨H', os', hrun, he, hp⟩ := h2 _ _ _ hx H path os own _ henv hs hap
        rw [nextHeap.eq_def]
        simp only [bind, hrun, Option.bind_some]
        cases r with
        | error e => cases h; exact ⟨_, _, _, _, rfl, he, .dead, hp⟩
        | ok es =>
          cases hf : f ⟨es⟩ <;> simp only [hf] at h ⊢ <;> cases h
          · exact ⟨_, _, _, _, rfl, he, .dead, hp⟩
          · exact ⟨_, _, _, _, rfl, he, .applyEmit .tmpl, hp⟩
    case repNext es i n k k' b =>
      cases hsim
      rw [nextHeap.eq_def]
      simp only at h ⊢
      split at h
      next hlt =>
        cases h
        obtain ⟨o, hs', hg⟩ := Sim.build (b i) (H := H) (path := path)
          (.tmpl (es := es) (i := 0)) (fun _ => Nat.zero_le _)
        rw [if_pos hlt]
        exact ⟨_, _, _, _, rfl, henv.grow hg.same, .repEmit hs',
          (Post.refl hap).grow [] hg (fun x hx => by have := henv.bound x hx; cnt)
            (fun x => by cnt) (fun x => by cnt)⟩
      next hlt =>
        cases h
        rw [if_neg hlt]
        exact ⟨_, _, _, _, rfl, henv, .dead, (Post.refl hap).drop⟩
    case orElseStart n rep fb =>
      cases hsim with
      | @orElseStart _ _ s s' _ k k₁ k₂ rep fb hs =>
        rw [nextHeap.eq_def]
        simp only at h ⊢
        split at h
        next hlt =>
          cases h
          obtain ⟨o, hs', hg⟩ := Sim.build rep hs (fun x => by have := hap x; omega)
          rw [if_pos hlt]
          exact ⟨_, _, _, _, rfl, henv.grow hg.same, .orElseRun hs',
            (Post.refl hap).grow [] hg (fun x hx => by have := henv.bound x hx; cnt)
              (fun x => by cnt) (fun x => by cnt)⟩
        next hlt =>
          cases h
          obtain ⟨o, hs', hg⟩ := Sim.build fb hs (fun x => by have := hap x; omega)
          rw [if_neg hlt]
          exact ⟨_, _, _, _, rfl, henv.grow hg.same, .orElseRun hs',
            (Post.refl hap).grow [] hg (fun x hx => by have := henv.bound x hx; cnt)
              (fun x => by cnt) (fun x => by cnt)⟩
    case selScan src s direct k b count level =>
      cases hsim with
      | @selScan _ a c o _ _ _ _ _ _ _ hc hs =>
        simp only [bind, Option.bind_eq_some_iff] at h
        obtain ⟨⟨r, src₁, env₁⟩, hx, h⟩ := h
        obtain ⟨H', os', own', hrun, he, hcell, hp⟩ :=
          (h3 _ _ _ hx).2 H path os (a :: o) a henv (.mk hc hs) hap
        cases hcell with
        | @mk c' o' hc' hs' =>
          rw [nextHeap.eq_def]
          simp only [bind, hrun, Option.bind_some]
          cases r with
          | ev e =>
            simp only at h ⊢
            split at h
            next hm =>
              cases h
              obtain ⟨o₂, hb, hg⟩ := Sim.build (b count) (H := H') (path := a :: path)
                (.singleStart (e := e) .shared) (fun _ => Nat.zero_le _)
              rw [if_pos hm]
              have hlt := lt_of_cell hc'
              refine ⟨_, _, _, _, rfl, he.grow hg.same,
                .selActive ((hg.same a hlt).trans hc') (hs'.grow hg.same) hb,
                hp.grow (a :: o') hg (fun x hx => ?_) (fun x => ?_) (fun x => ?_)⟩
              · have := he.bound x hx
                have := hs'.bound x hx
                rw [List.count_cons, if_neg (by simp only [beq_iff_eq]; omega)]
                omega
              · cnt
              · cnt
            next hm =>
              rw [if_neg hm]
              cases hl : levelAdjust level e <;> simp only [hl] at h ⊢ <;> cases h
              · exact ⟨_, _, _, _, rfl, he, .dead, hp.drop⟩
              · exact ⟨_, _, _, _, rfl, he, .selScan hc' hs', hp⟩
          | done => cases h; exact ⟨_, _, _, _, rfl, he, .dead, hp.drop⟩
          | err e => cases h; exact ⟨_, _, _, _, rfl, he, .dead, hp.drop⟩
    case onceScan src s direct k b level =>
      cases hsim with
      | @onceScan _ a c o _ _ _ _ _ _ hc hs =>
        simp only [bind, Option.bind_eq_some_iff] at h
        obtain ⟨⟨r, src₁, env₁⟩, hx, h⟩ := h
        obtain ⟨H', os', own', hrun, he, hcell, hp⟩ :=
          (h3 _ _ _ hx).2 H path os (a :: o) a henv (.mk hc hs) hap
        cases hcell with
        | @mk c' o' hc' hs' =>
          rw [nextHeap.eq_def]
          simp only [bind, hrun, Option.bind_some]
          cases r with
          | ev e =>
            simp only at h ⊢
            split at h
            next hm =>
              cases h
              obtain ⟨o₂, hb, hg⟩ := Sim.build b (H := H') (path := a :: path)
                (.singleStart (e := e) .shared) (fun _ => Nat.zero_le _)
              rw [if_pos hm]
              have hlt := lt_of_cell hc'
              refine ⟨_, _, _, _, rfl, he.grow hg.same,
                .onceActive ((hg.same a hlt).trans hc') (hs'.grow hg.same) hb,
                hp.grow (a :: o') hg (fun x hx => ?_) (fun x => ?_) (fun x => ?_)⟩
              · have := he.bound x hx
                have := hs'.bound x hx
                rw [List.count_cons, if_neg (by simp only [beq_iff_eq]; omega)]
                omega
              · cnt
              · cnt
            next hm =>
              rw [if_neg hm]
              cases hl : levelAdjust level e <;> simp only [hl] at h ⊢ <;> cases h
              · exact ⟨_, _, _, _, rfl, he, .dead, hp.drop⟩
              · exact ⟨_, _, _, _, rfl, he, .onceScan hc' hs', hp⟩
          | done => cases h; exact ⟨_, _, _, _, rfl, he, .dead, hp.drop⟩
          | err e => cases h; exact ⟨_, _, _, _, rfl, he, .dead, hp.drop⟩
    case selActive src s direct k b count level st =>
      cases hsim with
      | @selActive _ a c o o₂ _ _ _ _ _ _ _ _ _ hc hs hst =>
        simp only [bind, Option.bind_eq_some_iff] at h
        obtain ⟨⟨r, st₁, cells⟩, hx, h⟩ := h
        obtain ⟨hn', H', os', own', hrun, he, hst', hp⟩ :=
          (h1 _ _ _ hx).1 H (a :: path) (o ++ os) o₂ _ (.cons hc hs henv) hst
            (fun x => by have := hap x; cnt)
        rw [nextHeap.eq_def]
        simp only [bind, hrun, Option.bind_some]
        cases he with
        | @cons _ c' _ o' os' src' env' hc' hs' he =>
          have hb : ∀ x, H.length ≤ x → (a :: path).count x + ([] : List Nat).count x = 0 := by
            intro x hx
            have := henv.path_bound x hx
            have := lt_of_cell hc
            rw [List.count_cons, if_neg (by simp only [beq_iff_eq]; omega), List.count_nil]
            omega
          cases r <;> cases h
          · exact ⟨_, _, _, _, rfl, he, .selActive hc' hs' hst',
              hp.move [] hb (fun x => by cnt) (fun x => by cnt)⟩
          · exact ⟨_, _, _, _, rfl, he, .selScan hc' hs',
              hp.move [] hb (fun x => by cnt) (fun x => by cnt)⟩
          · exact ⟨_, _, _, _, rfl, he, .dead,
              hp.move [] hb (fun x => by cnt) (fun x => by cnt)⟩
    case onceActive src st =>
      cases hsim with
      | @onceActive _ a c o o₂ _ _ _ hc hs hst =>
        simp only [bind, Option.bind_eq_some_iff] at h
        obtain ⟨⟨r, st₁, cells⟩, hx, h⟩ := h
        obtain ⟨hn', H', os', own', hrun, he, hst', hp⟩ :=
          (h1 _ _ _ hx).1 H (a :: path) (o ++ os) o₂ _ (.cons hc hs henv) hst
            (fun x => by have := hap x; cnt)
        rw [nextHeap.eq_def]
        simp only [bind, hrun, Option.bind_some]
        cases he with
        | @cons _ c' _ o' os' src' env' hc' hs' he =>
          have hb : ∀ x, H.length ≤ x → (a :: path).count x + ([] : List Nat).count x = 0 := by
            intro x hx
            have := henv.path_bound x hx
            have := lt_of_cell hc
            rw [List.count_cons, if_neg (by simp only [beq_iff_eq]; omega), List.count_nil]
            omega
          cases r <;> cases h
          · exact ⟨_, _, _, _, rfl, he, .onceActive hc' hs' hst',
              hp.move [] hb (fun x => by cnt) (fun x => by cnt)⟩
          · exact ⟨_, _, _, _, rfl, he, .oncePass hc' hs',
              hp.move [] hb (fun x => by cnt) (fun x => by cnt)⟩
          · exact ⟨_, _, _, _, rfl, he, .dead,
              hp.move [] hb (fun x => by cnt) (fun x => by cnt)⟩
    case contContent src st tag =>
      cases hsim with
      | @contContent _ a c o o₂ _ _ _ _ hc hs hst =>
        simp only [bind, Option.bind_eq_some_iff] at h
        obtain ⟨⟨r, st₁, cells⟩, hx, h⟩ := h
        obtain ⟨hn', H', os', own', hrun, he, hst', hp⟩ :=
          (h1 _ _ _ hx).1 H (a :: path) (o ++ os) o₂ _ (.cons hc hs henv) hst
            (fun x => by have := hap x; cnt)
        rw [nextHeap.eq_def]
        simp only [bind, hrun, Option.bind_some]
        cases he with
        | @cons _ c' _ o' os' src' env' hc' hs' he =>
          have hb : ∀ x, H.length ≤ x → (a :: path).count x + ([] : List Nat).count x = 0 := by
            intro x hx
            have := henv.path_bound x hx
            have := lt_of_cell hc
            rw [List.count_cons, if_neg (by simp only [beq_iff_eq]; omega), List.count_nil]
            omega
          cases r <;> cases h
          · exact ⟨_, _, _, _, rfl, he, .contContent hc' hs' hst',
              hp.move [] hb (fun x => by cnt) (fun x => by cnt)⟩
          · exact ⟨_, _, _, _, rfl, he, .contClose hc' hs',
              hp.move [] hb (fun x => by cnt) (fun x => by cnt)⟩
          · exact ⟨_, _, _, _, rfl, he, .dead,
              hp.move [] hb (fun x => by cnt) (fun x => by cnt)⟩
    case oncePass src =>
      cases hsim with
      | @oncePass _ a c o _ hc hs =>
        simp only [bind, Option.bind_eq_some_iff] at h
        obtain ⟨⟨r, src₁, env₁⟩, hx, h⟩ := h
        obtain ⟨H', os', own', hrun, he, hcell, hp⟩ :=
          (h1 _ _ _ hx).2 H path os (a :: o) a henv (.mk hc hs) hap
        cases hcell with
        | @mk c' o' hc' hs' =>
          rw [nextHeap.eq_def]
          simp only [bind, hrun, Option.bind_some]
          cases r <;> cases h
          · exact ⟨_, _, _, _, rfl, he, .oncePass hc' hs', hp⟩
          all_goals exact ⟨_, _, _, _, rfl, he, .dead, hp.drop⟩
    case contClose src tag =>
      cases hsim with
      | @contClose _ a c o _ _ hc hs =>
        simp only [bind, Option.bind_eq_some_iff] at h
        obtain ⟨⟨r, src₁, env₁⟩, hx, h⟩ := h
        obtain ⟨H', os', own', hrun, he, hcell, hp⟩ :=
          (h3 _ _ _ hx).2 H path os (a :: o) a henv (.mk hc hs) hap
        rw [nextHeap.eq_def]
        simp only [bind, hrun, Option.bind_some]
        rcases r with e | _ | _
        · cases e
          case closingTag t =>
            simp only at h ⊢
            split at h <;> cases h <;> simp only [*] <;>
              exact ⟨_, _, _, _, rfl, he, .dead, hp.drop⟩
          all_goals cases h; exact ⟨_, _, _, _, rfl, he, .dead, hp.drop⟩
        all_goals cases h; exact ⟨_, _, _, _, rfl, he, .dead, hp.drop⟩
    case contOpen s k b =>
      cases hsim with
      | contOpen hs =>
        simp only [bind, Option.bind_eq_some_iff] at h
        obtain ⟨⟨r, s₁, env₁⟩, hx, h⟩ := h
        obtain ⟨hn', H', os', own', hrun, he, hs', hp⟩ := (h3 _ _ _ hx).1 H path os own _ henv hs hap
        rw [nextHeap.eq_def]
        simp only [bind, hrun, Option.bind_some]
        rcases r with e | _ | _
        · cases e
          case openingTag tag as =>
            cases h
            have hs₂ : Sim (H' ++ [some (.peek hn' none)]) path own' (.peek s₁ none)
                (.peek hn' none) := .peek (hs'.grow append_same)
            have hg₁ : Grow H' (H' ++ [some (.peek hn' none)]) own' (H'.length :: own') :=
              Grow.alloc ⟨fun _ _ => Nat.le_refl _, fun x hx => by rw [hs'.bound x hx]; omega,
                Nat.le_refl _, fun _ _ => rfl⟩ hs'.bound
            obtain ⟨o₂, hb, hg⟩ := Sim.build b (H := H' ++ [some (.peek hn' none)])
              (path := H'.length :: path) (.curContent (t := tag) (l := 0))
              (fun _ => Nat.zero_le _)
            have he₁ := he.grow (append_same (c := some (.peek hn' none)))
            have hp₁ : Post H path os own (H' ++ [some (.peek hn' none)]) os'
                (H'.length :: own') :=
              hp.grow [] hg₁ (fun x hx => by have := he.bound x hx; cnt) (fun x => by cnt)
                (fun x => by cnt)
            refine ⟨_, _, _, H'.length :: (own' ++ o₂), rfl, he₁.grow hg.same,
              .contContent ((hg.same H'.length (by simp)).trans append_self) (hs₂.grow hg.same) hb,
              hp₁.grow (H'.length :: own') hg (fun x hx => ?_) (fun x => ?_) (fun x => ?_)⟩
            · have := he₁.bound x hx
              have := hs₂.bound x hx
              rw [List.length_append] at hx
              rw [count_length_lt' hx]
              omega
            · cnt
            · cnt
          all_goals cases h; exact ⟨_, _, _, _, rfl, he, .dead, hp.drop⟩
        all_goals cases h; exact ⟨_, _, _, _, rfl, he, .dead, hp.drop⟩
    case curContent tag level =>
      cases hsim with
      | @curContent a path =>
        cases henv with
        | @cons _ c _ o os cell env hc hs he =>
          cases cell
          case peek s buffered =>
            simp only [bind] at h
            cases hs with
            | @peek _ _ _ s' _ hs =>
              rw [Option.bind_eq_some_iff] at h
              obtain ⟨⟨r, s₁, b₁, env₁⟩, hx, h⟩ := h
              have hap' : Apart path os (a :: o) := fun x => by have := hap x; cnt
              have hlt := lt_of_cell hc
              have phase : ∃ H₁ os₁ o₁ s₁',
                  (if level = 0 then do
                    let (cell, h) ← H.borrow a
                    match cell with
                    | .peek s buffered =>
                      match buffered with
                      | some e => some (Res.ev e, h.release a (.peek s (some e)))
                      | none => do
                        let (r, s, h) ← nextSkipNoopHeap h s
                        match r with
                        | .ev e => some (Res.ev e, h.release a (.peek s (some e)))
                        | r => some (r, h.release a (.peek s none))
                    | _ => none
                  else some (Res.ev .noop, H)) = some (r, H₁) ∧
                  H₁[a]? = some (some (.peek s₁' b₁)) ∧ Sim H₁ path o₁ s₁ s₁' ∧
                  EnvSim H₁ path os₁ env₁ ∧ Post H path os (a :: o) H₁ os₁ (a :: o₁) := by
                by_cases hl : level = 0
                · rw [if_pos hl] at hx ⊢
                  simp only [Heap.borrow, hc, bind, Option.bind_some]
                  have ha := hap' a
                  rw [List.count_cons_self] at ha
                  have hset : ∀ x, a ≠ x → (H.set a none)[x]? = H[x]? := fun x hx => set_ne hx
                  have henv1 : EnvSim (H.set a none) path os env :=
                    he.frame fun x hx => hset x (by rintro rfl; omega)
                  have hs1 : Sim (H.set a none) path o s s' :=
                    hs.frame fun x hx => hset x (by rintro rfl; omega)
                  cases buffered with
                  | some e =>
                    cases hx
                    refine ⟨_, os, o, s', rfl, set_eq (by rw [List.length_set]; exact hlt),
                      hs1.frame fun x hx => set_ne (by rintro rfl; omega),
                      henv1.frame fun x hx => set_ne (by rintro rfl; omega), ?_, ?_, ?_, ?_⟩
                    · intro x hx
                      exact Nat.le_refl _
                    · intro x _
                      have := hap' x
                      omega
                    · simp [Heap.release]
                    · intro x hx h0
                      rw [List.count_cons] at h0
                      have hne : a ≠ x := by
                        rintro rfl
                        simp at h0
                      rw [Heap.release, set_ne hne, hset x hne]
                  | none =>
                    simp only [bind, Option.bind_eq_some_iff] at hx
                    obtain ⟨⟨r', s₂, env₂⟩, hy, hx⟩ := hx
                    obtain ⟨s₂', H', os', o', hrun, henv', hs', hp⟩ :=
                      (h3 _ _ _ hy).1 _ _ _ _ _ henv1 hs1
                        (fun x => by have := hap' x; cnt)
                    simp only [bind, hrun, Option.bind_some]
                    have hlen : (H.set a none).length = H.length := List.length_set
                    have hpl := hp.len
                    rw [hlen] at hpl
                    have hka := hp.kept a (by rw [hlen]; exact hlt)
                    have hpost : ∀ c, Post H path os (a :: o) (H'.set a c) os' (a :: o') := by
                      intro c
                      constructor
                      · intro x hx
                        have := hp.kept x (by rw [hlen]; exact hx)
                        rw [List.count_cons, List.count_cons]
                        omega
                      · intro x hx
                        have := hp.made x (by rw [hlen]; exact hx)
                        rw [List.count_cons, if_neg (by simp only [beq_iff_eq]; omega)]
                        omega
                      · rw [List.length_set]
                        exact hpl
                      · intro x hx h0
                        rw [List.count_cons] at h0
                        have hne : a ≠ x := by
                          rintro rfl
                          simp at h0
                        rw [set_ne hne, hp.frame x (by rw [hlen]; exact hx) (by omega),
                          hset x hne]
                    have hs'' : ∀ c, Sim (H'.set a c) path o' s₂ s₂' := fun c =>
                      hs'.frame fun x hx => set_ne (by rintro rfl; omega)
                    have he'' : ∀ c, EnvSim (H'.set a c) path os' env₂ := fun c =>
                      henv'.frame fun x hx => set_ne (by rintro rfl; omega)
                    cases r' <;> cases hx <;>
                      exact ⟨_, os', o', s₂', rfl, set_eq (by omega), hs'' _, he'' _, hpost _⟩
                · rw [if_neg hl] at hx ⊢
                  cases hx
                  exact ⟨H, os, o, s', rfl, hc, hs, he, .refl hap'⟩
              obtain ⟨H₁, os₁, o₁, s₁', hrun₁, hc₁, hs₁, he₁, hp₁⟩ := phase
              rw [nextHeap.eq_def]
              refine bind_run (r, H₁) hrun₁ ?_
              simp only at h ⊢
              have hb : ∀ x, H.length ≤ x → path.count x + ([] : List Nat).count x = 0 := by
                intro x hx
                rw [he.path_bound x hx]
                rfl
              have hpost₁ : Post H (a :: path) (o ++ os) [] H₁ (o₁ ++ os₁) [] :=
                hp₁.move [] hb (fun x => by cnt) (fun x => by cnt)
              cases r with
              | done => cases h; exact ⟨_, _, _, _, rfl, .cons hc₁ (.peek hs₁) he₁, .dead, hpost₁⟩
              | err e => cases h; exact ⟨_, _, _, _, rfl, .cons hc₁ (.peek hs₁) he₁, .dead, hpost₁⟩
              | ev peeked =>
                simp only at h ⊢
                split at h
                next hm =>
                  cases h
                  rw [if_pos hm]
                  exact ⟨_, _, _, _, rfl, .cons hc₁ (.peek hs₁) he₁, .dead, hpost₁⟩
                next hm =>
                  rw [if_neg hm]
                  rw [Option.bind_eq_some_iff] at h
                  obtain ⟨⟨r, cell, env₂⟩, hy, h⟩ := h
                  obtain ⟨H₂, os₂, own₂, hrun₂, he₂, hcell, hp₂⟩ :=
                    (h1 _ _ _ hy).2 H₁ path os₁ (a :: o₁) a he₁ (.mk hc₁ (.peek hs₁))
                      (hp₁.apart he hap')
                  simp only [bind, hrun₂, Option.bind_some]
                  cases hcell with
                  | @mk c₂ o₂ hc₂ hs₂ =>
                    have hpost₂ : Post H (a :: path) (o ++ os) [] H₂ (o₂ ++ os₂) [] :=
                      (hp₁.trans hp₂).move [] hb (fun x => by cnt) (fun x => by cnt)
                    cases r with
                    | done => cases h; exact ⟨_, _, _, _, rfl, .cons hc₂ hs₂ he₂, .dead, hpost₂⟩
                    | err e => cases h; exact ⟨_, _, _, _, rfl, .cons hc₂ hs₂ he₂, .dead, hpost₂⟩
                    | ev e =>
                      cases hl : levelAdjust level e <;> simp only [hl] at h ⊢ <;> cases h
                      · exact ⟨_, _, _, _, rfl, .cons hc₂ hs₂ he₂, .dead, hpost₂⟩
                      · exact ⟨_, _, _, _, rfl, .cons hc₂ hs₂ he₂, .curContent, hpost₂⟩
          all_goals cases h
  · intro collect skip h2 h3 env n p h H path os own hn henv hs hap
    simp only [bind, Option.bind_eq_some_iff] at h
    obtain ⟨⟨r, s₁, env₁⟩, hx, h⟩ := h
    obtain ⟨hn', H', os', own', hrun, he, hs', hp⟩ := (h3 _ _ _ hx).1 H path os own _ henv hs hap
    rw [collectHeap]
    simp only [bind, hrun, Option.bind_some]
    cases r with
    | done => cases h; exact ⟨_, _, rfl, he, hp.drop⟩
    | err e => cases h; exact ⟨_, _, rfl, he, hp.drop⟩
    | ev e =>
      simp only [Option.bind_eq_some_iff] at h
      obtain ⟨⟨r, env₂⟩, hy, h⟩ := h
      obtain ⟨H₂, os₂, hrun₂, he₂, hp₂⟩ :=
        h2 _ _ _ hy H' path os' own' hn' he hs' (hp.apart henv hap)
      simp only [hrun₂, Option.bind_some]
      cases r <;> cases h <;> exact ⟨_, _, rfl, he₂, hp.trans hp₂⟩
  · intro next skip h1 h3 env n p h
    simp only [bind, Option.bind_eq_some_iff] at h
    obtain ⟨⟨r, s₁, env₁⟩, hx, h⟩ := h
    constructor
    · intro H path os own hn henv hs hap
      obtain ⟨hn', H', os', own', hrun, he, hs', hp⟩ :=
        (h1 _ _ _ hx).1 H path os own _ henv hs hap
      rw [nextSkipNoopHeap]
      simp only [bind, hrun, Option.bind_some]
      rcases r with e | _ | _
      · cases e
        case noop =>
          obtain ⟨hn₂, H₂, os₂, own₂, hrun₂, he₂, hs₂, hp₂⟩ :=
            (h3 _ _ _ h).1 H' path os' own' hn' he hs' (hp.apart henv hap)
          exact ⟨_, _, _, _, hrun₂, he₂, hs₂, hp.trans hp₂⟩
        all_goals cases h; exact ⟨_, _, _, _, rfl, he, hs', hp⟩
      all_goals cases h; exact ⟨_, _, _, _, rfl, he, hs', hp⟩
    · intro H path os own a henv hs hap
      obtain ⟨H', os', own', hrun, he, hs', hp⟩ :=
        (h1 _ _ _ hx).2 H path os own _ henv hs hap
      rw [nextSkipNoopHeap]
      simp only [bind, hrun, Option.bind_some]
      rcases r with e | _ | _
      · cases e
        case noop =>
          obtain ⟨H₂, os₂, own₂, hrun₂, he₂, hs₂, hp₂⟩ :=
            (h3 _ _ _ h).2 H' path os' own' a he hs' (hp.apart henv hap)
          exact ⟨_, _, _, hrun₂, he₂, hs₂, hp.trans hp₂⟩
        all_goals cases h; exact ⟨_, _, _, rfl, he, hs', hp⟩
      all_goals cases h; exact ⟨_, _, _, rfl, he, hs', hp⟩
  · intro next drain h1 h4 env n p h H path os own hn henv hs hap
    simp only [bind, Option.bind_eq_some_iff] at h
    obtain ⟨⟨r, s₁, env₁⟩, hx, h⟩ := h
    obtain ⟨hn', H', os', own', hrun, he, hs', hp⟩ := (h1 _ _ _ hx).1 H path os own _ henv hs hap
    rw [drainHeap]
    simp only [bind, hrun, Option.bind_some]
    cases r with
    | done => cases h; exact ⟨_, _, _, _, rfl, he, hs', hp⟩
    | err e => cases h; exact ⟨_, _, _, _, rfl, he, hs', hp⟩
    | ev e =>
      obtain ⟨hn₂, H₂, os₂, own₂, hrun₂, he₂, hs₂, hp₂⟩ :=
        h4 _ _ _ h H' path os' own' hn' he hs' (hp.apart henv hap)
      exact ⟨_, _, _, _, hrun₂, he₂, hs₂, hp.trans hp₂⟩

theorem transform_heap {k : Kind} (t : Template) (p : Prog .gen k)
    {r : Except StreamError Template} (h : t.transform p = some r) :
    t.transformHeap p = some r := by
  simp only [Template.transform, bind, Option.bind_eq_some_iff] at h
  obtain ⟨⟨es, env⟩, hc, h⟩ := h
  obtain ⟨own, hs, hg⟩ := Sim.build p (H := []) (path := [])
    (.tmpl (es := t.events) (i := 0)) (fun _ => Nat.zero_le _)
  obtain ⟨H', os', hrun, -, -⟩ := machine_heap.2.1 _ _ _ hc _ [] [] own _ .nil hs (fun x => by
    have := hg.made x (Nat.zero_le _)
    cnt)
  rw [Template.transformHeap]
  simp only [bind, hrun, Option.bind_some]
  exact h

end Fuser
