import Verif.Spec.Resolve
import Verif.Proof.Machine
import Mathlib.Logic.Function.Iterate

/-!
# User code that does not use the state

The streams of `stateless σ p` go in step with those of `p`.
-/

namespace Fuser

open Spec

variable {σ : Type}

/-- A state of a stream beside the same state with user code that does not use the state `σ`. -/
inductive Beside : Node → UNode σ → Prop
  | dead : Beside .dead .dead
  | shared : Beside .shared .shared
  | tmpl {es i} : Beside (.tmpl es i) (.tmpl es i)
  | once {d} : Beside (.once d) (.once d)
  | script {rs j} {full : List (Except StreamError (Option Event))} : rs = full.drop j →
      Beside (.script rs) (.stream j (fun i _ => (full[i]?).getD (.ok none)) id)
  | fallError {e} : Beside (.fallError e) (.fallError e)
  | expandClose {t} : Beside (.expandClose t) (.expandClose t)
  | curContent {t l} : Beside (.curContent t l) (.curContent t l)
  | fallStart {s s'} : Beside s s' → Beside (.fallStart s) (.fallStart s')
  | fallEmit {s s'} : Beside s s' → Beside (.fallEmit s) (.fallEmit s')
  | expandStart {s s'} : Beside s s' → Beside (.expandStart s) (.expandStart s')
  | expandEmit {s s'} : Beside s s' → Beside (.expandEmit s) (.expandEmit s')
  | combSecond {s s'} : Beside s s' → Beside (.combSecond s) (.combSecond s')
  | oncePass {s s'} : Beside s s' → Beside (.oncePass s) (.oncePass s')
  | attrEmit {s s'} : Beside s s' → Beside (.attrEmit s) (.attrEmit s')
  | remove {s s'} : Beside s s' → Beside (.remove s) (.remove s')
  | orElseRun {s s'} : Beside s s' → Beside (.orElseRun s) (.orElseRun s')
  | applyEmit {s s'} : Beside s s' → Beside (.applyEmit s) (.applyEmit s')
  | peek {s s' b} : Beside s s' → Beside (.peek s b) (.peek s' b)
  | combFirst {s s' t t'} : Beside s s' → Beside t t' → Beside (.combFirst s t) (.combFirst s' t')
  | singleStart {e s s'} : Beside s s' → Beside (.singleStart e s) (.singleStart e s')
  | singleUntil {t s s' l} : Beside s s' → Beside (.singleUntil t s l) (.singleUntil t s' l)
  | selScan {src src' s d k b n l} : Beside src src' →
      Beside (.selScan src s d k b n l)
        (.selScan src' s d k (fun i _ => stateless σ (b i)) id n l)
  | selActive {src src' s d k b n l st st'} : Beside src src' → Beside st st' →
      Beside (.selActive src s d k b n l st)
        (.selActive src' s d k (fun i _ => stateless σ (b i)) id n l st')
  | onceScan {src src' s d k b l} : Beside src src' →
      Beside (.onceScan src s d k b l) (.onceScan src' s d k (fun _ => stateless σ b) id l)
  | onceActive {src src' st st'} : Beside src src' → Beside st st' →
      Beside (.onceActive src st) (.onceActive src' st')
  | contOpen {s s' k b} : Beside s s' →
      Beside (.contOpen s k b) (.contOpen s' k (fun _ => stateless σ b) id)
  | contContent {src src' st st' t} : Beside src src' → Beside st st' →
      Beside (.contContent src st t) (.contContent src' st' t)
  | contClose {s s' t} : Beside s s' → Beside (.contClose s t) (.contClose s' t)
  | attrStart {op s s'} : Beside s s' → Beside (.attrStart op s) (.attrStart op s')
  | repCollect {s s' n k k' b} : Beside s s' →
      Beside (.repCollect s n k k' b)
        (.repCollect s' k k' (fun i _ => decide (i < n)) (fun i _ => stateless σ (b i)) id)
  | repNext {es i n k k' b} :
      Beside (.repNext es i n k k' b)
        (.repNext es i k k' (fun i _ => decide (i < n)) (fun i _ => stateless σ (b i)) id)
  | repEmit {es i n k k' b s s'} : Beside s s' →
      Beside (.repEmit es i n k k' b s)
        (.repEmit es i k k' (fun i _ => decide (i < n)) (fun i _ => stateless σ (b i)) id s')
  | orElseStart {s' n k k₁ k₂ x y} {r : Prog k k₁} {f : Prog k k₂} :
      Beside x ((stateless σ r).build s') → Beside y ((stateless σ f).build s') →
      Beside (.orElseStart n x y)
        (.orElseStart s' k k₁ k₂ (fun _ => decide (0 < n)) (fun _ => stateless σ r)
          (fun _ => stateless σ f) id)
  | applyCollect {s s' f} : Beside s s' →
      Beside (.applyCollect s f) (.applyCollect s' (fun _ => f) fun u _ => u)

theorem beside_intoStream (c : Content) :
    Beside c.intoStream (statelessContent σ c).intoStream := by
  induction c with
  | data | template | resultErr => constructor
  | script rs => exact .script rfl
  | resultOk c ih => exact .fallStart ih

theorem Beside.build {a k : Kind} (p : Prog a k) :
    ∀ {n : Node} {m : UNode σ}, Beside n m → Beside (p.build n) ((stateless σ p).build m) := by
  induction p with
  | src => exact id
  | forget _ ih => exact ih
  | apply _ _ ih ih' => exact fun h => ih' (ih h)
  | fallOk _ ih => exact fun h => .fallStart (ih h)
  | fallErr => exact fun _ => .fallError
  | selectRaw _ _ _ _ ih _ => exact fun h => .selScan (ih h)
  | selectOnceRaw _ _ _ _ ih _ => exact fun h => .onceScan (ih h)
  | remove _ ih => exact fun h => .remove (ih h)
  | prepend _ c ih => exact fun h => .combFirst (beside_intoStream c) (ih h)
  | append _ c ih => exact fun h => .combFirst (ih h) (beside_intoStream c)
  | «repeat» _ _ _ ih _ => exact fun h => .repCollect (ih h)
  | orElse _ _ _ _ ih ih' ih'' => exact fun h => .orElseStart (ih' (ih h)) (ih'' (ih h))
  | applyTemplate _ _ ih => exact fun h => .applyCollect (ih h)
  | contents _ _ ih _ => exact fun h => .contOpen (.expandStart (ih h))
  | attr _ _ ih => exact fun h => .attrStart (ih h)

/-- A pull of `n` that gives `p` is matched by one of any state beside it, in any state of the user
code, which it does not change. -/
def InStep (run : σ → UEnv σ → UNode σ → Option (UPull σ)) (env : Env) (n : Node)
    (p : Pull) : Prop :=
  ∀ u cells m, List.Forall₂ Beside env cells → Beside n m →
    ∃ m' cells', run u cells m = some (p.1, m', cells', u) ∧ List.Forall₂ Beside p.2.2 cells' ∧
      Beside p.2.1 m'

/-- The same for collecting. -/
def InStepCollect (σ : Type) (env : Env) (n : Node)
    (p : Except StreamError (List Event) × Env) : Prop :=
  ∀ (u : σ) cells m, List.Forall₂ Beside env cells → Beside n m →
    ∃ cells', collectUser u cells m = some (p.1, cells', u) ∧ List.Forall₂ Beside p.2 cells'

/-- A stream beside one whose user code goes on from state to state: `i` times from `u₀`. -/
inductive GoesOn (g : σ → σ) (u₀ : σ) : Nat → Node → UNode σ → Prop
  | dead {i} : GoesOn g u₀ i .dead .dead
  | script {rs : List (Except StreamError (Option Event))} {pull : σ → _} {i c} :
      (∀ j ≤ rs.length, (rs[j]?).getD (.ok none) = pull (g^[i + j] u₀)) →
      GoesOn g u₀ i (.script rs) (.stream c (fun _ => pull) g)
  | selScan {src src' s d k l i c} {b : σ → Prog .elem k} : Beside src src' →
      GoesOn g u₀ i (.selScan src s d k (fun i => b (g^[i] u₀)) i l)
        (.selScan src' s d k (fun _ v => stateless σ (b v)) g c l)
  | selActive {src src' s d k l i c st st'} {b : σ → Prog .elem k} : Beside src src' →
      Beside st st' →
      GoesOn g u₀ i (.selActive src s d k (fun i => b (g^[i] u₀)) i l st)
        (.selActive src' s d k (fun _ v => stateless σ (b v)) g c l st')
  | repCollect {s s' n k k'} {m : σ → Bool} {b : σ → Prog k k'} : Beside s s' →
      (∀ j ≤ n, m (g^[j] u₀) = decide (j < n)) →
      GoesOn g u₀ 0 (.repCollect s n k k' fun i => b (g^[i] u₀))
        (.repCollect s' k k' (fun _ => m) (fun _ v => stateless σ (b v)) g)
  | repNext {es i n k k' c} {m : σ → Bool} {b : σ → Prog k k'} : i ≤ n →
      (∀ j ≤ n, m (g^[j] u₀) = decide (j < n)) →
      GoesOn g u₀ i (.repNext es i n k k' fun i => b (g^[i] u₀))
        (.repNext es c k k' (fun _ => m) (fun _ v => stateless σ (b v)) g)
  | repEmit {es i n k k' c s s'} {m : σ → Bool} {b : σ → Prog k k'} : i ≤ n →
      (∀ j ≤ n, m (g^[j] u₀) = decide (j < n)) → Beside s s' →
      GoesOn g u₀ i (.repEmit es i n k k' (fun i => b (g^[i] u₀)) s)
        (.repEmit es c k k' (fun _ => m) (fun _ v => stateless σ (b v)) g s')
  | prepended {i c c' s s'} : GoesOn g u₀ i c c' → Beside s s' →
      GoesOn g u₀ i (.combFirst c s) (.combFirst c' s')
  | appended {i s s' c c'} : Beside s s' → GoesOn g u₀ i c c' →
      GoesOn g u₀ i (.combFirst s c) (.combFirst s' c')
  | second {i s s'} : Beside s s' → GoesOn g u₀ i (.combSecond s) (.combSecond s')
  | appendedNow {i c c'} : GoesOn g u₀ i c c' → GoesOn g u₀ i (.combSecond c) (.combSecond c')

/-- A pull of `n` that gives `p` is matched by one of any state beside which it goes on, unless it
was the last one. -/
def GoesOnInStep (run : σ → UEnv σ → UNode σ → Option (UPull σ)) (env : Env) (n : Node)
    (p : Pull) : Prop :=
  ∀ g u₀ i cells m, List.Forall₂ Beside env cells → GoesOn g u₀ i n m →
    ∃ i' m' cells', run (g^[i] u₀) cells m = some (p.1, m', cells', g^[i'] u₀) ∧
      List.Forall₂ Beside p.2.2 cells' ∧ ∀ e, p.1 = .ev e → GoesOn g u₀ i' p.2.1 m'

/-- The same for collecting. -/
def GoesOnCollect (σ : Type) (env : Env) (n : Node)
    (p : Except StreamError (List Event) × Env) : Prop :=
  ∀ g (u₀ : σ) i cells m, List.Forall₂ Beside env cells → GoesOn g u₀ i n m →
    ∃ i' cells', collectUser (g^[i] u₀) cells m = some (p.1, cells', g^[i'] u₀) ∧
      List.Forall₂ Beside p.2 cells'

theorem some_of {α β : Type} {x : Option α} {g : α → Option β} {P : Option β → Prop}
    (a : α) (h : x = some a) (hp : P (g a)) : P (x.bind g) := by
  rw [h]
  exact hp

set_option maxHeartbeats 2000000 in
theorem machine_beside (σ : Type) :
    (∀ env n p, next env n = some p →
      InStep (σ := σ) nextUser env n p ∧ GoesOnInStep (σ := σ) nextUser env n p) ∧
    (∀ env n p, collect env n = some p → InStepCollect σ env n p ∧ GoesOnCollect σ env n p) ∧
    (∀ env n p, nextSkipNoop env n = some p →
      InStep (σ := σ) nextSkipNoopUser env n p ∧
        GoesOnInStep (σ := σ) nextSkipNoopUser env n p) ∧
    (∀ env n p, drain env n = some p → InStep (σ := σ) drainUser env n p) := by
  refine next.mutual_partial_correctness
    (fun env n p => InStep (σ := σ) nextUser env n p ∧ GoesOnInStep (σ := σ) nextUser env n p)
    (fun env n p => InStepCollect σ env n p ∧ GoesOnCollect σ env n p)
    (fun env n p => InStep (σ := σ) nextSkipNoopUser env n p ∧
      GoesOnInStep (σ := σ) nextSkipNoopUser env n p)
    (InStep drainUser) ?_ ?_ ?_ ?_
  · intro next' collect skip drain h1 h2 h3 h4 env n p h
    constructor
    · intro u cells m henv hal
      cases hal
      case dead => cases h; exact ⟨_, _, by rw [nextUser], henv, .dead⟩
      case tmpl es i =>
        rw [nextUser.eq_def]
        cases hi : es[i]? <;> simp only [hi] at h ⊢ <;> cases h <;> exact ⟨_, _, rfl, henv, .tmpl⟩
      case once d =>
        rw [nextUser.eq_def]
        cases d <;> cases h <;> exact ⟨_, _, rfl, henv, .once⟩
      case script rs j full hrs =>
        rw [nextUser.eq_def]
        cases rs with
        | nil =>
          have hj : full.length ≤ j := by simpa using hrs.symm
          have hget : full[j]? = none := List.getElem?_eq_none hj
          simp only [hget, Option.getD_none]
          cases h
          refine ⟨_, _, rfl, henv, .script ?_⟩
          rw [List.drop_eq_nil_of_le (by omega)]
        | cons r rs =>
          have hget : full[j]? = some r := by
            have := congrArg (fun l => l[0]?) hrs
            simpa using this.symm
          have hrest : rs = full.drop (j + 1) := by
            have := congrArg List.tail hrs
            simpa using this
          simp only [hget, Option.getD_some]
          rcases r with e | _ | e <;> cases h <;> exact ⟨_, _, rfl, henv, .script hrest⟩
      case fallStart hs => cases h; exact ⟨_, _, by rw [nextUser], henv, .fallEmit hs⟩
      case fallError => cases h; exact ⟨_, _, by rw [nextUser], henv, .dead⟩
      case expandClose => cases h; exact ⟨_, _, by rw [nextUser], henv, .dead⟩
      case singleStart e s s' hs =>
        rw [nextUser.eq_def]
        cases e <;> cases h <;> first
          | exact ⟨_, _, rfl, henv, .dead⟩
          | exact ⟨_, _, rfl, henv, .singleUntil hs⟩
      case shared =>
        cases henv with
        | nil => cases h
        | cons hcell henv =>
          simp only [bind, Option.bind_eq_some_iff] at h
          obtain ⟨⟨r, cell, rest⟩, hx, h⟩ := h
          cases h
          obtain ⟨m, cells, hrun, he, hm⟩ := (h1 _ _ _ hx).1 u _ _ henv hcell
          rw [nextUser.eq_def]
          simp only [bind, hrun, Option.bind_some]
          exact ⟨_, _, rfl, .cons hm he, .shared⟩
      case fallEmit hs =>
        simp only [bind, Option.bind_eq_some_iff] at h
        obtain ⟨⟨r, s₁, env₁⟩, hx, h⟩ := h
        obtain ⟨m, cells, hrun, he, hm⟩ := (h1 _ _ _ hx).1 u _ _ henv hs
        rw [nextUser.eq_def]
        simp only [bind, hrun, Option.bind_some]
        cases r <;> cases h
        · exact ⟨_, _, rfl, he, .fallEmit hm⟩
        all_goals exact ⟨_, _, rfl, he, .dead⟩
      case expandEmit hs =>
        simp only [bind, Option.bind_eq_some_iff] at h
        obtain ⟨⟨r, s₁, env₁⟩, hx, h⟩ := h
        obtain ⟨m, cells, hrun, he, hm⟩ := (h1 _ _ _ hx).1 u _ _ henv hs
        rw [nextUser.eq_def]
        simp only [bind, hrun, Option.bind_some]
        cases r <;> cases h
        · exact ⟨_, _, rfl, he, .expandEmit hm⟩
        all_goals exact ⟨_, _, rfl, he, .dead⟩
      case attrEmit hs =>
        simp only [bind, Option.bind_eq_some_iff] at h
        obtain ⟨⟨r, s₁, env₁⟩, hx, h⟩ := h
        obtain ⟨m, cells, hrun, he, hm⟩ := (h1 _ _ _ hx).1 u _ _ henv hs
        rw [nextUser.eq_def]
        simp only [bind, hrun, Option.bind_some]
        cases r <;> cases h
        · exact ⟨_, _, rfl, he, .attrEmit hm⟩
        all_goals exact ⟨_, _, rfl, he, .dead⟩
      case orElseRun hs =>
        simp only [bind, Option.bind_eq_some_iff] at h
        obtain ⟨⟨r, s₁, env₁⟩, hx, h⟩ := h
        obtain ⟨m, cells, hrun, he, hm⟩ := (h1 _ _ _ hx).1 u _ _ henv hs
        rw [nextUser.eq_def]
        simp only [bind, hrun, Option.bind_some]
        cases r <;> cases h
        · exact ⟨_, _, rfl, he, .orElseRun hm⟩
        all_goals exact ⟨_, _, rfl, he, .dead⟩
      case applyEmit hs =>
        simp only [bind, Option.bind_eq_some_iff] at h
        obtain ⟨⟨r, s₁, env₁⟩, hx, h⟩ := h
        obtain ⟨m, cells, hrun, he, hm⟩ := (h1 _ _ _ hx).1 u _ _ henv hs
        rw [nextUser.eq_def]
        simp only [bind, hrun, Option.bind_some]
        cases r <;> cases h
        · exact ⟨_, _, rfl, he, .applyEmit hm⟩
        all_goals exact ⟨_, _, rfl, he, .dead⟩
      case oncePass hs =>
        simp only [bind, Option.bind_eq_some_iff] at h
        obtain ⟨⟨r, s₁, env₁⟩, hx, h⟩ := h
        obtain ⟨m, cells, hrun, he, hm⟩ := (h1 _ _ _ hx).1 u _ _ henv hs
        rw [nextUser.eq_def]
        simp only [bind, hrun, Option.bind_some]
        cases r <;> cases h
        · exact ⟨_, _, rfl, he, .oncePass hm⟩
        all_goals exact ⟨_, _, rfl, he, .dead⟩
      case singleUntil t s s' l hs =>
        simp only [bind, Option.bind_eq_some_iff] at h
        obtain ⟨⟨r, s₁, env₁⟩, hx, h⟩ := h
        obtain ⟨m, cells, hrun, he, hm⟩ := (h1 _ _ _ hx).1 u _ _ henv hs
        rw [nextUser.eq_def]
        simp only [bind, hrun, Option.bind_some]
        cases r <;> cases h
        · refine ⟨_, _, rfl, he, ?_⟩
          simp only [singleUntilStep, singleUntilStepUser]
          repeat' split
          all_goals first
            | exact .singleUntil hm
            | exact .dead
        all_goals exact ⟨_, _, rfl, he, .dead⟩
      case repEmit hs =>
        simp only [bind, Option.bind_eq_some_iff] at h
        obtain ⟨⟨r, s₁, env₁⟩, hx, h⟩ := h
        obtain ⟨m, cells, hrun, he, hm⟩ := (h1 _ _ _ hx).1 u _ _ henv hs
        rw [nextUser.eq_def]
        simp only [bind, hrun, Option.bind_some]
        cases r <;> cases h
        · exact ⟨_, _, rfl, he, .repEmit hm⟩
        · exact ⟨_, _, rfl, he, .repNext⟩
        · exact ⟨_, _, rfl, he, .dead⟩
      case expandStart hs =>
        simp only [bind, Option.bind_eq_some_iff] at h
        obtain ⟨⟨r, s₁, env₁⟩, hx, h⟩ := h
        obtain ⟨m, cells, hrun, he, hm⟩ := (h3 _ _ _ hx).1 u _ _ henv hs
        rw [nextUser.eq_def]
        simp only [bind, hrun, Option.bind_some]
        rcases r with e | _ | _
        · cases e <;> cases h <;> first
            | exact ⟨_, _, rfl, he, .dead⟩
            | exact ⟨_, _, rfl, he, .expandEmit hm⟩
            | exact ⟨_, _, rfl, he, .expandClose⟩
        all_goals cases h; exact ⟨_, _, rfl, he, .dead⟩
      case attrStart hs =>
        simp only [bind, Option.bind_eq_some_iff] at h
        obtain ⟨⟨r, s₁, env₁⟩, hx, h⟩ := h
        obtain ⟨m, cells, hrun, he, hm⟩ := (h3 _ _ _ hx).1 u _ _ henv hs
        rw [nextUser.eq_def]
        simp only [bind, hrun, Option.bind_some]
        rcases r with e | _ | _
        · cases e <;> cases h <;> first
            | exact ⟨_, _, rfl, he, .dead⟩
            | exact ⟨_, _, rfl, he, .attrEmit hm⟩
        all_goals cases h; exact ⟨_, _, rfl, he, .dead⟩
      case peek s s' b hs =>
        cases b with
        | some e => rw [nextUser.eq_def]; cases h; exact ⟨_, _, rfl, henv, .peek hs⟩
        | none =>
          simp only [bind, Option.bind_eq_some_iff] at h
          obtain ⟨⟨r, s₁, env₁⟩, hx, h⟩ := h
          obtain ⟨m, cells, hrun, he, hm⟩ := (h3 _ _ _ hx).1 u _ _ henv hs
          rw [nextUser.eq_def]
          simp only [bind, hrun, Option.bind_some]
          cases h
          exact ⟨_, _, rfl, he, .peek hm⟩
      case combFirst hs ht =>
        simp only [bind, Option.bind_eq_some_iff] at h
        obtain ⟨⟨r, s₁, env₁⟩, hx, h⟩ := h
        obtain ⟨m, cells, hrun, he, hm⟩ := (h3 _ _ _ hx).1 u _ _ henv hs
        rw [nextUser.eq_def]
        simp only [bind, hrun, Option.bind_some]
        cases r <;> cases h
        · exact ⟨_, _, rfl, he, .combFirst hm ht⟩
        · exact ⟨_, _, rfl, he, .combSecond ht⟩
        · exact ⟨_, _, rfl, he, .dead⟩
      case combSecond hs =>
        simp only [bind, Option.bind_eq_some_iff] at h
        obtain ⟨⟨r, s₁, env₁⟩, hx, h⟩ := h
        obtain ⟨m, cells, hrun, he, hm⟩ := (h3 _ _ _ hx).1 u _ _ henv hs
        rw [nextUser.eq_def]
        simp only [bind, hrun, Option.bind_some]
        cases r <;> cases h
        · exact ⟨_, _, rfl, he, .combSecond hm⟩
        all_goals exact ⟨_, _, rfl, he, .dead⟩
      case remove hs =>
        simp only [bind, Option.bind_eq_some_iff] at h
        obtain ⟨⟨r, s₁, env₁⟩, hx, h⟩ := h
        obtain ⟨m, cells, hrun, he, hm⟩ := h4 _ _ _ hx u _ _ henv hs
        rw [nextUser.eq_def]
        simp only [bind, hrun, Option.bind_some]
        cases h
        exact ⟨_, _, rfl, he, .remove hm⟩
      case repCollect hs =>
        simp only [bind, Option.bind_eq_some_iff] at h
        obtain ⟨⟨r, env₁⟩, hx, h⟩ := h
        obtain ⟨cells, hrun, he⟩ := (h2 _ _ _ hx).1 u _ _ henv hs
        rw [nextUser.eq_def]
        simp only [bind, hrun, Option.bind_some]
        cases r <;> cases h
        · exact ⟨_, _, rfl, he, .dead⟩
        · exact ⟨_, _, rfl, he, .repNext⟩
      case applyCollect s s' f hs =>
        simp only [bind, Option.bind_eq_some_iff] at h
        obtain ⟨⟨r, env₁⟩, hx, h⟩ := h
        obtain ⟨cells, hrun, he⟩ := (h2 _ _ _ hx).1 u _ _ henv hs
        rw [nextUser.eq_def]
        simp only [bind, hrun, Option.bind_some]
        cases r with
        | error => cases h; exact ⟨_, _, rfl, he, .dead⟩
        | ok es =>
          simp only at h ⊢
          cases hf : f ⟨es⟩ <;> rw [hf] at h <;> cases h
          · exact ⟨_, _, rfl, he, .dead⟩
          · exact ⟨_, _, rfl, he, .applyEmit .tmpl⟩
      case repNext es i n k k' b =>
        rw [nextUser.eq_def]
        simp only [decide_eq_true_eq] at h ⊢
        split at h
        next hlt =>
          cases h
          rw [if_pos hlt]
          exact ⟨_, _, rfl, henv, .repEmit (.build _ .tmpl)⟩
        next hlt =>
          cases h
          rw [if_neg hlt]
          exact ⟨_, _, rfl, henv, .dead⟩
      case orElseStart n k k₁ k₂ x y r f hr hf =>
        rw [nextUser.eq_def]
        simp only [decide_eq_true_eq] at h ⊢
        split at h
        next hlt => cases h; rw [if_pos hlt]; exact ⟨_, _, rfl, henv, .orElseRun hr⟩
        next hlt => cases h; rw [if_neg hlt]; exact ⟨_, _, rfl, henv, .orElseRun hf⟩
      case selScan src src' s direct k b count level hs =>
        simp only [bind, Option.bind_eq_some_iff] at h
        obtain ⟨⟨r, s₁, env₁⟩, hx, h⟩ := h
        obtain ⟨m, cells, hrun, he, hm⟩ := (h3 _ _ _ hx).1 u _ _ henv hs
        rw [nextUser.eq_def]
        simp only [bind, hrun, Option.bind_some]
        rcases r with e | _ | _
        · simp only at h ⊢
          split at h
          next hi =>
            cases h
            rw [if_pos hi]
            exact ⟨_, _, rfl, he, .selActive hm (.build _ (.singleStart .shared))⟩
          next hi =>
            rw [if_neg hi]
            cases hl : levelAdjust level e <;> rw [hl] at h <;> cases h
            · exact ⟨_, _, rfl, he, .dead⟩
            · exact ⟨_, _, rfl, he, .selScan hm⟩
        all_goals cases h; exact ⟨_, _, rfl, he, .dead⟩
      case onceScan src src' s direct k b level hs =>
        simp only [bind, Option.bind_eq_some_iff] at h
        obtain ⟨⟨r, s₁, env₁⟩, hx, h⟩ := h
        obtain ⟨m, cells, hrun, he, hm⟩ := (h3 _ _ _ hx).1 u _ _ henv hs
        rw [nextUser.eq_def]
        simp only [bind, hrun, Option.bind_some]
        rcases r with e | _ | _
        · simp only at h ⊢
          split at h
          next hi =>
            cases h
            rw [if_pos hi]
            exact ⟨_, _, rfl, he, .onceActive hm (.build _ (.singleStart .shared))⟩
          next hi =>
            rw [if_neg hi]
            cases hl : levelAdjust level e <;> rw [hl] at h <;> cases h
            · exact ⟨_, _, rfl, he, .dead⟩
            · exact ⟨_, _, rfl, he, .onceScan hm⟩
        all_goals cases h; exact ⟨_, _, rfl, he, .dead⟩
      case selActive hs hst =>
        simp only [bind, Option.bind_eq_some_iff] at h
        obtain ⟨⟨r, s₁, env₁⟩, hx, h⟩ := h
        obtain ⟨m, cells, hrun, he, hm⟩ := (h1 _ _ _ hx).1 u _ _ (.cons hs henv) hst
        rw [nextUser.eq_def]
        simp only [bind, hrun, Option.bind_some]
        cases he with
        | nil => cases h
        | cons hc he =>
          cases r <;> cases h
          · exact ⟨_, _, rfl, he, .selActive hc hm⟩
          · exact ⟨_, _, rfl, he, .selScan hc⟩
          · exact ⟨_, _, rfl, he, .dead⟩
      case onceActive hs hst =>
        simp only [bind, Option.bind_eq_some_iff] at h
        obtain ⟨⟨r, s₁, env₁⟩, hx, h⟩ := h
        obtain ⟨m, cells, hrun, he, hm⟩ := (h1 _ _ _ hx).1 u _ _ (.cons hs henv) hst
        rw [nextUser.eq_def]
        simp only [bind, hrun, Option.bind_some]
        cases he with
        | nil => cases h
        | cons hc he =>
          cases r <;> cases h
          · exact ⟨_, _, rfl, he, .onceActive hc hm⟩
          · exact ⟨_, _, rfl, he, .oncePass hc⟩
          · exact ⟨_, _, rfl, he, .dead⟩
      case contContent hs hst =>
        simp only [bind, Option.bind_eq_some_iff] at h
        obtain ⟨⟨r, s₁, env₁⟩, hx, h⟩ := h
        obtain ⟨m, cells, hrun, he, hm⟩ := (h1 _ _ _ hx).1 u _ _ (.cons hs henv) hst
        rw [nextUser.eq_def]
        simp only [bind, hrun, Option.bind_some]
        cases he with
        | nil => cases h
        | cons hc he =>
          cases r <;> cases h
          · exact ⟨_, _, rfl, he, .contContent hc hm⟩
          · exact ⟨_, _, rfl, he, .contClose hc⟩
          · exact ⟨_, _, rfl, he, .dead⟩
      case contClose t hs =>
        simp only [bind, Option.bind_eq_some_iff] at h
        obtain ⟨⟨r, s₁, env₁⟩, hx, h⟩ := h
        obtain ⟨m, cells, hrun, he, hm⟩ := (h3 _ _ _ hx).1 u _ _ henv hs
        rw [nextUser.eq_def]
        simp only [bind, hrun, Option.bind_some]
        rcases r with e | _ | _
        · cases e with
          | closingTag c =>
            simp only at h ⊢
            split at h
            next hi => cases h; rw [if_pos hi]; exact ⟨_, _, rfl, he, .dead⟩
            next hi => cases h; rw [if_neg hi]; exact ⟨_, _, rfl, he, .dead⟩
          | _ => cases h; exact ⟨_, _, rfl, he, .dead⟩
        all_goals cases h; exact ⟨_, _, rfl, he, .dead⟩
      case contOpen hs =>
        simp only [bind, Option.bind_eq_some_iff] at h
        obtain ⟨⟨r, s₁, env₁⟩, hx, h⟩ := h
        obtain ⟨m, cells, hrun, he, hm⟩ := (h3 _ _ _ hx).1 u _ _ henv hs
        rw [nextUser.eq_def]
        simp only [bind, hrun, Option.bind_some]
        rcases r with e | _ | _
        · cases e <;> cases h <;> first
            | exact ⟨_, _, rfl, he, .dead⟩
            | exact ⟨_, _, rfl, he, .contContent (.peek hm) (.build _ .curContent)⟩
        all_goals cases h; exact ⟨_, _, rfl, he, .dead⟩
      case curContent tag level =>
        cases henv with
        | nil => cases h
        | cons hcell henv =>
          cases hcell
          case peek s s' b hs =>
            simp only [bind] at h
            rw [Option.bind_eq_some_iff] at h
            obtain ⟨⟨r, s₁, b₁, env₁⟩, hx, h⟩ := h
            rename_i env env'
            have phase : ∃ s₁' cells, (if level = 0 then
                  match b with
                  | some e => some (Res.ev e, s', some e, env', u)
                  | none => (nextSkipNoopUser u env' s').bind fun (r, s, env, u) =>
                    match r with
                    | .ev e => some (Res.ev e, s, some e, env, u)
                    | r => some (r, s, none, env, u)
                else some (Res.ev .noop, s', b, env', u)) = some (r, s₁', b₁, cells, u) ∧
                Beside s₁ s₁' ∧ List.Forall₂ Beside env₁ cells := by
              by_cases hl : level = 0
              · rw [if_pos hl] at hx ⊢
                cases b with
                | some e => cases hx; exact ⟨_, _, rfl, hs, henv⟩
                | none =>
                  simp only [Option.bind_eq_some_iff] at hx
                  obtain ⟨⟨r', s₂, env₂⟩, hy, hx⟩ := hx
                  obtain ⟨m, cells, hrun, he, hm⟩ := (h3 _ _ _ hy).1 u _ _ henv hs
                  simp only [hrun, Option.bind_some]
                  cases r' <;> cases hx <;> exact ⟨_, _, rfl, hm, he⟩
              · rw [if_neg hl] at hx ⊢
                cases hx
                exact ⟨_, _, rfl, hs, henv⟩
            obtain ⟨s₁', cells, hrun, hs₁, he₁⟩ := phase
            rw [nextUser.eq_def]
            simp only [bind]
            refine some_of (P := fun x => ∃ m cells, x = some (p.1, m, cells, u) ∧
              List.Forall₂ Beside p.2.2 cells ∧ Beside p.2.1 m) _ hrun ?_
            simp only at h ⊢
            rcases r with e | _ | _
            · simp only at h ⊢
              split at h
              next hi => cases h; rw [if_pos hi]; exact ⟨_, _, rfl, .cons (.peek hs₁) he₁, .dead⟩
              next hi =>
                rw [if_neg hi]
                rw [Option.bind_eq_some_iff] at h
                obtain ⟨⟨r, cell, env₂⟩, hy, h⟩ := h
                obtain ⟨m, cells₂, hrun₂, he₂, hm⟩ := (h1 _ _ _ hy).1 u _ _ he₁ (.peek hs₁)
                simp only [hrun₂, Option.bind_some]
                rcases r with e | _ | _
                · simp only at h ⊢
                  cases hl : levelAdjust level e <;> rw [hl] at h <;> cases h
                  · exact ⟨_, _, rfl, .cons hm he₂, .dead⟩
                  · exact ⟨_, _, rfl, .cons hm he₂, .curContent⟩
                all_goals cases h; exact ⟨_, _, rfl, .cons hm he₂, .dead⟩
            all_goals cases h; exact ⟨_, _, rfl, .cons (.peek hs₁) he₁, .dead⟩
          all_goals cases h
    · intro g u₀ i cells m henv hal
      cases hal
      case dead => cases h; exact ⟨i, _, _, by rw [nextUser], henv, fun _ he => nomatch he⟩
      case script rs pull c hrs =>
        rw [nextUser.eq_def]
        have h₀ := hrs 0 (Nat.zero_le _)
        rw [Nat.add_zero] at h₀
        simp only [← h₀]
        cases rs with
        | nil =>
          cases h
          exact ⟨i + 1, _, _, by rw [Function.iterate_succ_apply']; rfl, henv, fun _ he => nomatch he⟩
        | cons r rs =>
          have hrest : ∀ j ≤ rs.length, (rs[j]?).getD (.ok none) = pull (g^[i + 1 + j] u₀) := by
            intro j hj
            have := hrs (j + 1) (by simpa using hj)
            simpa [Nat.add_assoc, Nat.add_comm 1 j] using this
          rcases r with e | _ | e <;> cases h <;>
            exact ⟨i + 1, _, _, by rw [Function.iterate_succ_apply']; rfl, henv,
              fun _ _ => .script hrest⟩
      case prepended ht hs =>
        simp only [bind, Option.bind_eq_some_iff] at h
        obtain ⟨⟨r, s₁, env₁⟩, hx, h⟩ := h
        obtain ⟨j, m, cells, hrun, he, hm⟩ := (h3 _ _ _ hx).2 _ _ _ _ _ henv hs
        rw [nextUser.eq_def]
        simp only [bind, hrun, Option.bind_some]
        cases r <;> cases h
        · exact ⟨j, _, _, rfl, he, fun _ _ => .prepended (hm _ rfl) ht⟩
        · exact ⟨j, _, _, rfl, he, fun _ _ => .second ht⟩
        · exact ⟨j, _, _, rfl, he, fun _ he => nomatch he⟩
      case appendedNow hs =>
        simp only [bind, Option.bind_eq_some_iff] at h
        obtain ⟨⟨r, s₁, env₁⟩, hx, h⟩ := h
        obtain ⟨j, m, cells, hrun, he, hm⟩ := (h3 _ _ _ hx).2 _ _ _ _ _ henv hs
        rw [nextUser.eq_def]
        simp only [bind, hrun, Option.bind_some]
        cases r <;> cases h
        · exact ⟨j, _, _, rfl, he, fun _ _ => .appendedNow (hm _ rfl)⟩
        all_goals exact ⟨j, _, _, rfl, he, fun _ he => nomatch he⟩
      case appended hs hc =>
        simp only [bind, Option.bind_eq_some_iff] at h
        obtain ⟨⟨r, s₁, env₁⟩, hx, h⟩ := h
        obtain ⟨m, cells, hrun, he, hm⟩ := (h3 _ _ _ hx).1 (g^[i] u₀) _ _ henv hs
        rw [nextUser.eq_def]
        simp only [bind, hrun, Option.bind_some]
        cases r <;> cases h
        · exact ⟨i, _, _, rfl, he, fun _ _ => .appended hm hc⟩
        · exact ⟨i, _, _, rfl, he, fun _ _ => .appendedNow hc⟩
        · exact ⟨i, _, _, rfl, he, fun _ he => nomatch he⟩
      case second hs =>
        simp only [bind, Option.bind_eq_some_iff] at h
        obtain ⟨⟨r, s₁, env₁⟩, hx, h⟩ := h
        obtain ⟨m, cells, hrun, he, hm⟩ := (h3 _ _ _ hx).1 (g^[i] u₀) _ _ henv hs
        rw [nextUser.eq_def]
        simp only [bind, hrun, Option.bind_some]
        cases r <;> cases h
        · exact ⟨i, _, _, rfl, he, fun _ _ => .second hm⟩
        all_goals exact ⟨i, _, _, rfl, he, fun _ he => nomatch he⟩
      case selScan src src' s direct k level c b hs =>
        simp only [bind, Option.bind_eq_some_iff] at h
        obtain ⟨⟨r, s₁, env₁⟩, hx, h⟩ := h
        obtain ⟨m, cells, hrun, he, hm⟩ := (h3 _ _ _ hx).1 (g^[i] u₀) _ _ henv hs
        rw [nextUser.eq_def]
        simp only [bind, hrun, Option.bind_some]
        rcases r with e | _ | _
        · simp only at h ⊢
          split at h
          next hi =>
            cases h
            rw [if_pos hi, ← Function.iterate_succ_apply' g]
            exact ⟨i + 1, _, _, rfl, he,
              fun _ _ => .selActive hm (.build _ (.singleStart .shared))⟩
          next hi =>
            rw [if_neg hi]
            cases hl : levelAdjust level e <;> rw [hl] at h <;> cases h
            · exact ⟨i, _, _, rfl, he, fun _ he => nomatch he⟩
            · exact ⟨i, _, _, rfl, he, fun _ _ => .selScan hm⟩
        all_goals cases h; exact ⟨i, _, _, rfl, he, fun _ he => nomatch he⟩
      case selActive hs hst =>
        simp only [bind, Option.bind_eq_some_iff] at h
        obtain ⟨⟨r, s₁, env₁⟩, hx, h⟩ := h
        obtain ⟨m, cells, hrun, he, hm⟩ := (h1 _ _ _ hx).1 (g^[i] u₀) _ _ (.cons hs henv) hst
        rw [nextUser.eq_def]
        simp only [bind, hrun, Option.bind_some]
        cases he with
        | nil => cases h
        | cons hc he =>
          cases r <;> cases h
          · exact ⟨i, _, _, rfl, he, fun _ _ => .selActive hc hm⟩
          · exact ⟨i, _, _, rfl, he, fun _ _ => .selScan hc⟩
          · exact ⟨i, _, _, rfl, he, fun _ he => nomatch he⟩
      case repCollect hs hmore =>
        simp only [bind, Option.bind_eq_some_iff] at h
        obtain ⟨⟨r, env₁⟩, hx, h⟩ := h
        obtain ⟨cells, hrun, he⟩ := (h2 _ _ _ hx).1 (g^[0] u₀) _ _ henv hs
        rw [nextUser.eq_def]
        simp only [bind, hrun, Option.bind_some]
        cases r <;> cases h
        · exact ⟨0, _, _, rfl, he, fun _ he => nomatch he⟩
        · exact ⟨0, _, _, rfl, he, fun _ _ => .repNext (Nat.zero_le _) hmore⟩
      case repEmit hmore hs hle =>
        simp only [bind, Option.bind_eq_some_iff] at h
        obtain ⟨⟨r, s₁, env₁⟩, hx, h⟩ := h
        obtain ⟨m, cells, hrun, he, hm⟩ := (h1 _ _ _ hx).1 (g^[i] u₀) _ _ henv hs
        rw [nextUser.eq_def]
        simp only [bind, hrun, Option.bind_some]
        cases r <;> cases h
        · exact ⟨i, _, _, rfl, he, fun _ _ => .repEmit hle hmore hm⟩
        · exact ⟨i, _, _, rfl, he, fun _ _ => .repNext hle hmore⟩
        · exact ⟨i, _, _, rfl, he, fun _ he => nomatch he⟩
      case repNext es n k k' c m b hmore hle =>
        rw [nextUser.eq_def]
        simp only [hmore i hle, decide_eq_true_eq, ← Function.iterate_succ_apply' g] at h ⊢
        split at h
        next hlt =>
          cases h
          rw [if_pos hlt]
          exact ⟨i + 1, _, _, rfl, henv, fun _ _ => .repEmit hlt hmore (.build _ .tmpl)⟩
        next hlt =>
          cases h
          rw [if_neg hlt]
          exact ⟨i + 1, _, _, rfl, henv, fun _ he => nomatch he⟩
  · intro collect' skip h2 h3 env n p h
    constructor
    · intro u cells m henv hal
      simp only [bind, Option.bind_eq_some_iff] at h
      obtain ⟨⟨r, s₁, env₁⟩, hx, h⟩ := h
      obtain ⟨m, cells, hrun, he, hm⟩ := (h3 _ _ _ hx).1 u _ _ henv hal
      rw [collectUser]
      simp only [bind, hrun, Option.bind_some]
      rcases r with e | _ | _
      · simp only [Option.bind_eq_some_iff] at h
        obtain ⟨⟨r, env₂⟩, hy, h⟩ := h
        obtain ⟨cells₂, hrun₂, he₂⟩ := (h2 _ _ _ hy).1 u _ _ he hm
        simp only [hrun₂, Option.bind_some]
        cases r <;> cases h <;> exact ⟨_, rfl, he₂⟩
      all_goals cases h; exact ⟨_, rfl, he⟩
    · intro g u₀ i cells m henv hal
      simp only [bind, Option.bind_eq_some_iff] at h
      obtain ⟨⟨r, s₁, env₁⟩, hx, h⟩ := h
      obtain ⟨j, m, cells, hrun, he, hm⟩ := (h3 _ _ _ hx).2 _ _ _ _ _ henv hal
      rw [collectUser]
      simp only [bind, hrun, Option.bind_some]
      rcases r with e | _ | _
      · simp only [Option.bind_eq_some_iff] at h
        obtain ⟨⟨r, env₂⟩, hy, h⟩ := h
        obtain ⟨l, cells₂, hrun₂, he₂⟩ := (h2 _ _ _ hy).2 _ _ _ _ _ he (hm _ rfl)
        simp only [hrun₂, Option.bind_some]
        cases r <;> cases h <;> exact ⟨l, _, rfl, he₂⟩
      all_goals cases h; exact ⟨j, _, rfl, he⟩
  · intro next' skip h1 h3 env n p h
    constructor
    · intro u cells m henv hal
      simp only [bind, Option.bind_eq_some_iff] at h
      obtain ⟨⟨r, s₁, env₁⟩, hx, h⟩ := h
      obtain ⟨m, cells, hrun, he, hm⟩ := (h1 _ _ _ hx).1 u _ _ henv hal
      rw [nextSkipNoopUser]
      simp only [bind, hrun, Option.bind_some]
      rcases r with e | _ | _
      · cases e with
        | noop => exact (h3 _ _ _ h).1 u _ _ he hm
        | _ => cases h; exact ⟨_, _, rfl, he, hm⟩
      all_goals cases h; exact ⟨_, _, rfl, he, hm⟩
    · intro g u₀ i cells m henv hal
      simp only [bind, Option.bind_eq_some_iff] at h
      obtain ⟨⟨r, s₁, env₁⟩, hx, h⟩ := h
      obtain ⟨j, m, cells, hrun, he, hm⟩ := (h1 _ _ _ hx).2 _ _ _ _ _ henv hal
      rw [nextSkipNoopUser]
      simp only [bind, hrun, Option.bind_some]
      rcases r with e | _ | _
      · cases e with
        | noop => exact (h3 _ _ _ h).2 _ _ _ _ _ he (hm _ rfl)
        | _ => cases h; exact ⟨j, _, _, rfl, he, fun _ _ => hm _ rfl⟩
      all_goals cases h; exact ⟨j, _, _, rfl, he, fun _ he => nomatch he⟩
  · intro next' drain' h1 h4 env n p h u cells m henv hal
    simp only [bind, Option.bind_eq_some_iff] at h
    obtain ⟨⟨r, s₁, env₁⟩, hx, h⟩ := h
    obtain ⟨m, cells, hrun, he, hm⟩ := (h1 _ _ _ hx).1 u _ _ henv hal
    rw [drainUser]
    simp only [bind, hrun, Option.bind_some]
    rcases r with e | _ | _
    · exact h4 _ _ _ h u _ _ he hm
    all_goals cases h; exact ⟨_, _, rfl, he, hm⟩

theorem transform_stateless {k : Kind} (t : Template) (p : Prog .gen k) (u : σ)
    {r : Except StreamError Template} (h : t.transform p = some r) :
    t.transformUser (stateless σ p) u = some (r, u) := by
  simp only [Template.transform, bind, Option.bind_eq_some_iff] at h
  obtain ⟨⟨es, env⟩, hc, h⟩ := h
  obtain ⟨cells, hrun, -⟩ := ((machine_beside σ).2.1 _ _ _ hc).1 u [] _ .nil
    (Beside.build p (n := t.toStream) (m := .tmpl t.events 0) .tmpl)
  rw [Template.transformUser]
  simp only [bind, hrun, Option.bind_some]
  cases es <;> cases h <;> rfl

/-- The same for user code that goes on from state to state. -/
theorem transform_goesOn {k : Kind} {t : Template} {p : Prog .gen k} {q : UProg σ .gen k}
    {g : σ → σ} {u : σ} (hg : GoesOn g u 0 (p.build t.toStream) (q.build (.tmpl t.events 0)))
    {r : Except StreamError Template} (h : t.transform p = some r) :
    ∃ n, t.transformUser q u = some (r, g^[n] u) := by
  simp only [Template.transform, bind, Option.bind_eq_some_iff] at h
  obtain ⟨⟨es, env⟩, hc, h⟩ := h
  obtain ⟨n, cells, hrun, -⟩ := ((machine_beside σ).2.1 _ _ _ hc).2 g u 0 [] _ .nil hg
  rw [Function.iterate_zero_apply] at hrun
  rw [Template.transformUser]
  simp only [bind, hrun, Option.bind_some]
  cases es <;> cases h <;> exact ⟨n, rfl⟩

end Fuser
