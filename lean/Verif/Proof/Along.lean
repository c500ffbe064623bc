import Verif.Spec.Along
import Mathlib.Data.List.Forall2
import Mathlib.Logic.Function.Iterate

/-!
# User code over states that correspond: the streams go in step
-/

namespace Fuser

open Spec

variable {σ τ : Type} {R : σ → τ → Prop}

/-- `Along` for the states of streams. -/
inductive AlongNode (R : σ → τ → Prop) : UNode σ → UNode τ → Prop
  | dead : AlongNode R .dead .dead
  | shared : AlongNode R .shared .shared
  | tmpl {es i} : AlongNode R (.tmpl es i) (.tmpl es i)
  | once {d} : AlongNode R (.once d) (.once d)
  | stream {j pull after pull' after'} : (∀ i u v, R u v → pull i u = pull' i v) →
      (∀ u v, R u v → R (after u) (after' v)) →
      AlongNode R (.stream j pull after) (.stream j pull' after')
  | fallError {e} : AlongNode R (.fallError e) (.fallError e)
  | expandClose {t} : AlongNode R (.expandClose t) (.expandClose t)
  | curContent {t l} : AlongNode R (.curContent t l) (.curContent t l)
  | fallStart {s s'} : AlongNode R s s' → AlongNode R (.fallStart s) (.fallStart s')
  | fallEmit {s s'} : AlongNode R s s' → AlongNode R (.fallEmit s) (.fallEmit s')
  | expandStart {s s'} : AlongNode R s s' → AlongNode R (.expandStart s) (.expandStart s')
  | expandEmit {s s'} : AlongNode R s s' → AlongNode R (.expandEmit s) (.expandEmit s')
  | combSecond {s s'} : AlongNode R s s' → AlongNode R (.combSecond s) (.combSecond s')
  | oncePass {s s'} : AlongNode R s s' → AlongNode R (.oncePass s) (.oncePass s')
  | attrEmit {s s'} : AlongNode R s s' → AlongNode R (.attrEmit s) (.attrEmit s')
  | remove {s s'} : AlongNode R s s' → AlongNode R (.remove s) (.remove s')
  | orElseRun {s s'} : AlongNode R s s' → AlongNode R (.orElseRun s) (.orElseRun s')
  | applyEmit {s s'} : AlongNode R s s' → AlongNode R (.applyEmit s) (.applyEmit s')
  | peek {s s' b} : AlongNode R s s' → AlongNode R (.peek s b) (.peek s' b)
  | combFirst {s s' t t'} : AlongNode R s s' → AlongNode R t t' →
      AlongNode R (.combFirst s t) (.combFirst s' t')
  | singleStart {e s s'} : AlongNode R s s' → AlongNode R (.singleStart e s) (.singleStart e s')
  | singleUntil {t s s' l} :
      AlongNode R s s' → AlongNode R (.singleUntil t s l) (.singleUntil t s' l)
  | selScan {src src' s d k b g c h n l} : AlongNode R src src' →
      (∀ i u v, R u v → Along R (b i u) (c i v)) → (∀ u v, R u v → R (g u) (h v)) →
      AlongNode R (.selScan src s d k b g n l) (.selScan src' s d k c h n l)
  | selActive {src src' s d k b g c h n l st st'} : AlongNode R src src' → AlongNode R st st' →
      (∀ i u v, R u v → Along R (b i u) (c i v)) → (∀ u v, R u v → R (g u) (h v)) →
      AlongNode R (.selActive src s d k b g n l st) (.selActive src' s d k c h n l st')
  | onceScan {src src' s d k b g c h l} : AlongNode R src src' →
      (∀ u v, R u v → Along R (b u) (c v)) → (∀ u v, R u v → R (g u) (h v)) →
      AlongNode R (.onceScan src s d k b g l) (.onceScan src' s d k c h l)
  | onceActive {src src' st st'} : AlongNode R src src' → AlongNode R st st' →
      AlongNode R (.onceActive src st) (.onceActive src' st')
  | contOpen {s s' k b g c h} : AlongNode R s s' →
      (∀ u v, R u v → Along R (b u) (c v)) → (∀ u v, R u v → R (g u) (h v)) →
      AlongNode R (.contOpen s k b g) (.contOpen s' k c h)
  | contContent {src src' st st' t} : AlongNode R src src' → AlongNode R st st' →
      AlongNode R (.contContent src st t) (.contContent src' st' t)
  | contClose {s s' t} : AlongNode R s s' → AlongNode R (.contClose s t) (.contClose s' t)
  | attrStart {op s s'} : AlongNode R s s' → AlongNode R (.attrStart op s) (.attrStart op s')
  | repCollect {s s' k k' m m' b g c h} : AlongNode R s s' →
      (∀ i u v, R u v → m i u = m' i v) → (∀ i u v, R u v → Along R (b i u) (c i v)) →
      (∀ u v, R u v → R (g u) (h v)) →
      AlongNode R (.repCollect s k k' m b g) (.repCollect s' k k' m' c h)
  | repNext {es i k k' m m' b g c h} :
      (∀ i u v, R u v → m i u = m' i v) → (∀ i u v, R u v → Along R (b i u) (c i v)) →
      (∀ u v, R u v → R (g u) (h v)) →
      AlongNode R (.repNext es i k k' m b g) (.repNext es i k k' m' c h)
  | repEmit {es i k k' m m' b g c h s s'} : AlongNode R s s' →
      (∀ i u v, R u v → m i u = m' i v) → (∀ i u v, R u v → Along R (b i u) (c i v)) →
      (∀ u v, R u v → R (g u) (h v)) →
      AlongNode R (.repEmit es i k k' m b g s) (.repEmit es i k k' m' c h s')
  | orElseStart {s s' k k₁ k₂ m m' r r' f f' g h} : AlongNode R s s' →
      (∀ u v, R u v → m u = m' v) → (∀ u v, R u v → Along R (r u) (r' v)) →
      (∀ u v, R u v → Along R (f u) (f' v)) → (∀ u v, R u v → R (g u) (h v)) →
      AlongNode R (.orElseStart s k k₁ k₂ m r f g) (.orElseStart s' k k₁ k₂ m' r' f' h)
  | applyCollect {s s' f g f' h} : AlongNode R s s' → (∀ u v t, R u v → f u t = f' v t) →
      (∀ u v t, R u v → R (g u t) (h v t)) →
      AlongNode R (.applyCollect s f g) (.applyCollect s' f' h)

theorem along_intoStream {c : UContent σ} {d : UContent τ} (h : AlongContent R c d) :
    AlongNode R c.intoStream d.intoStream := by
  induction h with
  | data | template | resultErr => constructor
  | stream h₁ h₂ => exact .stream h₁ h₂
  | resultOk _ ih => exact .fallStart ih

theorem AlongNode.build {a k : Kind} {p : UProg σ a k} {q : UProg τ a k} (h : Along R p q) :
    ∀ {n m}, AlongNode R n m → AlongNode R (p.build n) (q.build m) := by
  induction h with
  | src => exact id
  | forget _ ih => exact ih
  | apply _ _ ih ih' => exact fun h => ih' (ih h)
  | fallOk _ ih => exact fun h => .fallStart (ih h)
  | fallErr => exact fun _ => .fallError
  | selectRaw _ hb hg ih _ => exact fun h => .selScan (ih h) hb hg
  | selectOnceRaw _ hb hg ih _ => exact fun h => .onceScan (ih h) hb hg
  | remove _ ih => exact fun h => .remove (ih h)
  | prepend _ hc ih => exact fun h => .combFirst (along_intoStream hc) (ih h)
  | append _ hc ih => exact fun h => .combFirst (ih h) (along_intoStream hc)
  | «repeat» _ hm hb hg ih _ => exact fun h => .repCollect (ih h) hm hb hg
  | orElse _ hm hr hf hg ih _ _ => exact fun h => .orElseStart (ih h) hm hr hf hg
  | applyTemplate _ hf hg ih => exact fun h => .applyCollect (ih h) hf hg
  | contents _ hb hg ih _ => exact fun h => .contOpen (.expandStart (ih h)) hb hg
  | attr _ ih => exact fun h => .attrStart (ih h)

/-- A pull of `n` that gives `p` is matched by one of any state along it, and the states of the user
code correspond afterwards. -/
def GoesAlong (R : σ → τ → Prop) (run : τ → UEnv τ → UNode τ → Option (UPull τ)) (u : σ)
    (env : UEnv σ) (n : UNode σ) (p : UPull σ) : Prop :=
  ∀ v cells m, R u v → List.Forall₂ (AlongNode R) env cells → AlongNode R n m →
    ∃ m' cells' v', run v cells m = some (p.1, m', cells', v') ∧
      List.Forall₂ (AlongNode R) p.2.2.1 cells' ∧ AlongNode R p.2.1 m' ∧ R p.2.2.2 v'

/-- The same for collecting. -/
def GoesAlongCollect (R : σ → τ → Prop) (u : σ) (env : UEnv σ) (n : UNode σ)
    (p : Except StreamError (List Event) × UEnv σ × σ) : Prop :=
  ∀ v cells m, R u v → List.Forall₂ (AlongNode R) env cells → AlongNode R n m →
    ∃ cells' v', collectUser v cells m = some (p.1, cells', v') ∧
      List.Forall₂ (AlongNode R) p.2.1 cells' ∧ R p.2.2 v'

theorem found_of {α β : Type} {x : Option α} {g : α → Option β} {P : Option β → Prop}
    (a : α) (h : x = some a) (hp : P (g a)) : P (x.bind g) := by
  rw [h]
  exact hp

set_option maxHeartbeats 2000000 in
theorem machine_along (R : σ → τ → Prop) :
    (∀ u env n p, nextUser u env n = some p → GoesAlong R nextUser u env n p) ∧
    (∀ u env n p, collectUser u env n = some p → GoesAlongCollect R u env n p) ∧
    (∀ u env n p, nextSkipNoopUser u env n = some p → GoesAlong R nextSkipNoopUser u env n p) ∧
    (∀ u env n p, drainUser u env n = some p → GoesAlong R drainUser u env n p) := by
  refine nextUser.mutual_partial_correctness (GoesAlong R nextUser) (GoesAlongCollect R)
    (GoesAlong R nextSkipNoopUser) (GoesAlong R drainUser) ?_ ?_ ?_ ?_
  · intro next' collect skip drain h1 h2 h3 h4 u env n p h v cells m hR henv hal
    cases hal
    case dead => cases h; exact ⟨_, _, _, by rw [nextUser], henv, .dead, hR⟩
    case tmpl es i =>
      rw [nextUser.eq_def]
      cases hi : es[i]? <;> simp only [hi] at h ⊢ <;> cases h <;> exact ⟨_, _, _, rfl, henv, .tmpl, hR⟩
    case once d =>
      rw [nextUser.eq_def]
      cases d <;> cases h <;> exact ⟨_, _, _, rfl, henv, .once, hR⟩
    case stream j pull after pull' after' hp hg =>
      rw [nextUser.eq_def]
      simp only [← hp j u v hR]
      cases hr : pull j u with
      | error e => simp only [hr] at h; cases h; exact ⟨_, _, _, rfl, henv, .stream hp hg, hg _ _ hR⟩
      | ok o =>
        cases o <;> simp only [hr] at h <;> cases h <;>
          exact ⟨_, _, _, rfl, henv, .stream hp hg, hg _ _ hR⟩
    case fallStart hs => cases h; exact ⟨_, _, _, by rw [nextUser], henv, .fallEmit hs, hR⟩
    case fallError => cases h; exact ⟨_, _, _, by rw [nextUser], henv, .dead, hR⟩
    case expandClose => cases h; exact ⟨_, _, _, by rw [nextUser], henv, .dead, hR⟩
    case singleStart e s s' hs =>
      rw [nextUser.eq_def]
      cases e <;> cases h <;> first
        | exact ⟨_, _, _, rfl, henv, .dead, hR⟩
        | exact ⟨_, _, _, rfl, henv, .singleUntil hs, hR⟩
    case shared =>
      cases henv with
      | nil => cases h
      | cons hcell henv =>
        simp only [bind, Option.bind_eq_some_iff] at h
        obtain ⟨⟨r, cell, rest, u₁⟩, hx, h⟩ := h
        cases h
        obtain ⟨m, cells, v₁, hrun, he, hm, hR₁⟩ := h1 _ _ _ _ hx v _ _ hR henv hcell
        rw [nextUser.eq_def]
        simp only [bind, hrun, Option.bind_some]
        exact ⟨_, _, _, rfl, .cons hm he, .shared, hR₁⟩
    case fallEmit hs =>
      simp only [bind, Option.bind_eq_some_iff] at h
      obtain ⟨⟨r, s₁, env₁, u₁⟩, hx, h⟩ := h
      obtain ⟨m, cells, v₁, hrun, he, hm, hR₁⟩ := h1 _ _ _ _ hx v _ _ hR henv hs
      rw [nextUser.eq_def]
      simp only [bind, hrun, Option.bind_some]
      cases r <;> cases h
      · exact ⟨_, _, _, rfl, he, .fallEmit hm, hR₁⟩
      all_goals exact ⟨_, _, _, rfl, he, .dead, hR₁⟩
    case expandEmit hs =>
      simp only [bind, Option.bind_eq_some_iff] at h
      obtain ⟨⟨r, s₁, env₁, u₁⟩, hx, h⟩ := h
      obtain ⟨m, cells, v₁, hrun, he, hm, hR₁⟩ := h1 _ _ _ _ hx v _ _ hR henv hs
      rw [nextUser.eq_def]
      simp only [bind, hrun, Option.bind_some]
      cases r <;> cases h
      · exact ⟨_, _, _, rfl, he, .expandEmit hm, hR₁⟩
      all_goals exact ⟨_, _, _, rfl, he, .dead, hR₁⟩
    case attrEmit hs =>
      simp only [bind, Option.bind_eq_some_iff] at h
      obtain ⟨⟨r, s₁, env₁, u₁⟩, hx, h⟩ := h
      obtain ⟨m, cells, v₁, hrun, he, hm, hR₁⟩ := h1 _ _ _ _ hx v _ _ hR henv hs
      rw [nextUser.eq_def]
      simp only [bind, hrun, Option.bind_some]
      cases r <;> cases h
      · exact ⟨_, _, _, rfl, he, .attrEmit hm, hR₁⟩
      all_goals exact ⟨_, _, _, rfl, he, .dead, hR₁⟩
    case orElseRun hs =>
      simp only [bind, Option.bind_eq_some_iff] at h
      obtain ⟨⟨r, s₁, env₁, u₁⟩, hx, h⟩ := h
      obtain ⟨m, cells, v₁, hrun, he, hm, hR₁⟩ := h1 _ _ _ _ hx v _ _ hR henv hs
      rw [nextUser.eq_def]
      simp only [bind, hrun, Option.bind_some]
      cases r <;> cases h
      · exact ⟨_, _, _, rfl, he, .orElseRun hm, hR₁⟩
      all_goals exact ⟨_, _, _, rfl, he, .dead, hR₁⟩
    case applyEmit hs =>
      simp only [bind, Option.bind_eq_some_iff] at h
      obtain ⟨⟨r, s₁, env₁, u₁⟩, hx, h⟩ := h
      obtain ⟨m, cells, v₁, hrun, he, hm, hR₁⟩ := h1 _ _ _ _ hx v _ _ hR henv hs
      rw [nextUser.eq_def]
      simp only [bind, hrun, Option.bind_some]
      cases r <;> cases h
      · exact ⟨_, _, _, rfl, he, .applyEmit hm, hR₁⟩
      all_goals exact ⟨_, _, _, rfl, he, .dead, hR₁⟩
    case oncePass hs =>
      simp only [bind, Option.bind_eq_some_iff] at h
      obtain ⟨⟨r, s₁, env₁, u₁⟩, hx, h⟩ := h
      obtain ⟨m, cells, v₁, hrun, he, hm, hR₁⟩ := h1 _ _ _ _ hx v _ _ hR henv hs
      rw [nextUser.eq_def]
      simp only [bind, hrun, Option.bind_some]
      cases r <;> cases h
      · exact ⟨_, _, _, rfl, he, .oncePass hm, hR₁⟩
      all_goals exact ⟨_, _, _, rfl, he, .dead, hR₁⟩
    case singleUntil t s s' l hs =>
      simp only [bind, Option.bind_eq_some_iff] at h
      obtain ⟨⟨r, s₁, env₁, u₁⟩, hx, h⟩ := h
      obtain ⟨m, cells, v₁, hrun, he, hm, hR₁⟩ := h1 _ _ _ _ hx v _ _ hR henv hs
      rw [nextUser.eq_def]
      simp only [bind, hrun, Option.bind_some]
      cases r <;> cases h
      · refine ⟨_, _, _, rfl, he, ?_, hR₁⟩
        simp only [singleUntilStepUser]
        repeat' split
        all_goals first
          | exact .singleUntil hm
          | exact .dead
      all_goals exact ⟨_, _, _, rfl, he, .dead, hR₁⟩
    case repEmit hs hmo hb hg =>
      simp only [bind, Option.bind_eq_some_iff] at h
      obtain ⟨⟨r, s₁, env₁, u₁⟩, hx, h⟩ := h
      obtain ⟨m, cells, v₁, hrun, he, hm, hR₁⟩ := h1 _ _ _ _ hx v _ _ hR henv hs
      rw [nextUser.eq_def]
      simp only [bind, hrun, Option.bind_some]
      cases r <;> cases h
      · exact ⟨_, _, _, rfl, he, .repEmit hm hmo hb hg, hR₁⟩
      · exact ⟨_, _, _, rfl, he, .repNext hmo hb hg, hR₁⟩
      · exact ⟨_, _, _, rfl, he, .dead, hR₁⟩
    case expandStart hs =>
      simp only [bind, Option.bind_eq_some_iff] at h
      obtain ⟨⟨r, s₁, env₁, u₁⟩, hx, h⟩ := h
      obtain ⟨m, cells, v₁, hrun, he, hm, hR₁⟩ := h3 _ _ _ _ hx v _ _ hR henv hs
      rw [nextUser.eq_def]
      simp only [bind, hrun, Option.bind_some]
      rcases r with e | _ | _
      · cases e <;> cases h <;> first
          | exact ⟨_, _, _, rfl, he, .dead, hR₁⟩
          | exact ⟨_, _, _, rfl, he, .expandEmit hm, hR₁⟩
          | exact ⟨_, _, _, rfl, he, .expandClose, hR₁⟩
      all_goals cases h; exact ⟨_, _, _, rfl, he, .dead, hR₁⟩
    case attrStart hs =>
      simp only [bind, Option.bind_eq_some_iff] at h
      obtain ⟨⟨r, s₁, env₁, u₁⟩, hx, h⟩ := h
      obtain ⟨m, cells, v₁, hrun, he, hm, hR₁⟩ := h3 _ _ _ _ hx v _ _ hR henv hs
      rw [nextUser.eq_def]
      simp only [bind, hrun, Option.bind_some]
      rcases r with e | _ | _
      · cases e <;> cases h <;> first
          | exact ⟨_, _, _, rfl, he, .dead, hR₁⟩
          | exact ⟨_, _, _, rfl, he, .attrEmit hm, hR₁⟩
      all_goals cases h; exact ⟨_, _, _, rfl, he, .dead, hR₁⟩
    case peek s s' b hs =>
      cases b with
      | some e => rw [nextUser.eq_def]; cases h; exact ⟨_, _, _, rfl, henv, .peek hs, hR⟩
      | none =>
        simp only [bind, Option.bind_eq_some_iff] at h
        obtain ⟨⟨r, s₁, env₁, u₁⟩, hx, h⟩ := h
        obtain ⟨m, cells, v₁, hrun, he, hm, hR₁⟩ := h3 _ _ _ _ hx v _ _ hR henv hs
        rw [nextUser.eq_def]
        simp only [bind, hrun, Option.bind_some]
        cases h
        exact ⟨_, _, _, rfl, he, .peek hm, hR₁⟩
    case combFirst hs ht =>
      simp only [bind, Option.bind_eq_some_iff] at h
      obtain ⟨⟨r, s₁, env₁, u₁⟩, hx, h⟩ := h
      obtain ⟨m, cells, v₁, hrun, he, hm, hR₁⟩ := h3 _ _ _ _ hx v _ _ hR henv hs
      rw [nextUser.eq_def]
      simp only [bind, hrun, Option.bind_some]
      cases r <;> cases h
      · exact ⟨_, _, _, rfl, he, .combFirst hm ht, hR₁⟩
      · exact ⟨_, _, _, rfl, he, .combSecond ht, hR₁⟩
      · exact ⟨_, _, _, rfl, he, .dead, hR₁⟩
    case combSecond hs =>
      simp only [bind, Option.bind_eq_some_iff] at h
      obtain ⟨⟨r, s₁, env₁, u₁⟩, hx, h⟩ := h
      obtain ⟨m, cells, v₁, hrun, he, hm, hR₁⟩ := h3 _ _ _ _ hx v _ _ hR henv hs
      rw [nextUser.eq_def]
      simp only [bind, hrun, Option.bind_some]
      cases r <;> cases h
      · exact ⟨_, _, _, rfl, he, .combSecond hm, hR₁⟩
      all_goals exact ⟨_, _, _, rfl, he, .dead, hR₁⟩
    case remove hs =>
      simp only [bind, Option.bind_eq_some_iff] at h
      obtain ⟨⟨r, s₁, env₁, u₁⟩, hx, h⟩ := h
      obtain ⟨m, cells, v₁, hrun, he, hm, hR₁⟩ := h4 _ _ _ _ hx v _ _ hR henv hs
      rw [nextUser.eq_def]
      simp only [bind, hrun, Option.bind_some]
      cases h
      exact ⟨_, _, _, rfl, he, .remove hm, hR₁⟩
    case repCollect hs hmo hb hg =>
      simp only [bind, Option.bind_eq_some_iff] at h
      obtain ⟨⟨r, env₁, u₁⟩, hx, h⟩ := h
      obtain ⟨cells, v₁, hrun, he, hR₁⟩ := h2 _ _ _ _ hx v _ _ hR henv hs
      rw [nextUser.eq_def]
      simp only [bind, hrun, Option.bind_some]
      cases r <;> cases h
      · exact ⟨_, _, _, rfl, he, .dead, hR₁⟩
      · exact ⟨_, _, _, rfl, he, .repNext hmo hb hg, hR₁⟩
    case applyCollect s s' f g f' g' hs hf hg =>
      simp only [bind, Option.bind_eq_some_iff] at h
      obtain ⟨⟨r, env₁, u₁⟩, hx, h⟩ := h
      obtain ⟨cells, v₁, hrun, he, hR₁⟩ := h2 _ _ _ _ hx v _ _ hR henv hs
      rw [nextUser.eq_def]
      simp only [bind, hrun, Option.bind_some]
      cases r with
      | error => cases h; exact ⟨_, _, _, rfl, he, .dead, hR₁⟩
      | ok es =>
        simp only [← hf u₁ v₁ ⟨es⟩ hR₁]
        simp only at h
        cases hr : f u₁ ⟨es⟩ <;> rw [hr] at h <;> cases h
        · exact ⟨_, _, _, rfl, he, .dead, hg _ _ _ hR₁⟩
        · exact ⟨_, _, _, rfl, he, .applyEmit .tmpl, hg _ _ _ hR₁⟩
    case repNext es i k k' mo mo' b g c g' hmo hb hg =>
      rw [nextUser.eq_def]
      simp only [← hmo i u v hR]
      simp only at h
      split at h
      next hlt =>
        cases h
        rw [if_pos hlt]
        exact ⟨_, _, _, rfl, henv, .repEmit (.build (hb _ _ _ hR) .tmpl) hmo hb hg, hg _ _ hR⟩
      next hlt =>
        cases h
        rw [if_neg hlt]
        exact ⟨_, _, _, rfl, henv, .dead, hg _ _ hR⟩
    case orElseStart s s' k k₁ k₂ mo mo' r r' f f' g g' hs hmo hr hf hg =>
      rw [nextUser.eq_def]
      simp only [← hmo u v hR]
      simp only at h
      split at h
      next hlt =>
        cases h
        rw [if_pos hlt]
        exact ⟨_, _, _, rfl, henv, .orElseRun (.build (hr _ _ hR) hs), hg _ _ hR⟩
      next hlt =>
        cases h
        rw [if_neg hlt]
        exact ⟨_, _, _, rfl, henv, .orElseRun (.build (hf _ _ hR) hs), hg _ _ hR⟩
    case selScan src src' s direct k b g c g' count level hs hb hg =>
      simp only [bind, Option.bind_eq_some_iff] at h
      obtain ⟨⟨r, s₁, env₁, u₁⟩, hx, h⟩ := h
      obtain ⟨m, cells, v₁, hrun, he, hm, hR₁⟩ := h3 _ _ _ _ hx v _ _ hR henv hs
      rw [nextUser.eq_def]
      simp only [bind, hrun, Option.bind_some]
      rcases r with e | _ | _
      · simp only at h ⊢
        split at h
        next hi =>
          cases h
          rw [if_pos hi]
          exact ⟨_, _, _, rfl, he,
            .selActive hm (.build (hb _ _ _ hR₁) (.singleStart .shared)) hb hg, hg _ _ hR₁⟩
        next hi =>
          rw [if_neg hi]
          cases hl : levelAdjust level e <;> rw [hl] at h <;> cases h
          · exact ⟨_, _, _, rfl, he, .dead, hR₁⟩
          · exact ⟨_, _, _, rfl, he, .selScan hm hb hg, hR₁⟩
      all_goals cases h; exact ⟨_, _, _, rfl, he, .dead, hR₁⟩
    case onceScan src src' s direct k b g c g' level hs hb hg =>
      simp only [bind, Option.bind_eq_some_iff] at h
      obtain ⟨⟨r, s₁, env₁, u₁⟩, hx, h⟩ := h
      obtain ⟨m, cells, v₁, hrun, he, hm, hR₁⟩ := h3 _ _ _ _ hx v _ _ hR henv hs
      rw [nextUser.eq_def]
      simp only [bind, hrun, Option.bind_some]
      rcases r with e | _ | _
      · simp only at h ⊢
        split at h
        next hi =>
          cases h
          rw [if_pos hi]
          exact ⟨_, _, _, rfl, he, .onceActive hm (.build (hb _ _ hR₁) (.singleStart .shared)),
            hg _ _ hR₁⟩
        next hi =>
          rw [if_neg hi]
          cases hl : levelAdjust level e <;> rw [hl] at h <;> cases h
          · exact ⟨_, _, _, rfl, he, .dead, hR₁⟩
          · exact ⟨_, _, _, rfl, he, .onceScan hm hb hg, hR₁⟩
      all_goals cases h; exact ⟨_, _, _, rfl, he, .dead, hR₁⟩
    case selActive hs hst hb hg =>
      simp only [bind, Option.bind_eq_some_iff] at h
      obtain ⟨⟨r, s₁, env₁, u₁⟩, hx, h⟩ := h
      obtain ⟨m, cells, v₁, hrun, he, hm, hR₁⟩ := h1 _ _ _ _ hx v _ _ hR (.cons hs henv) hst
      rw [nextUser.eq_def]
      simp only [bind, hrun, Option.bind_some]
      cases he with
      | nil => cases h
      | cons hc he =>
        cases r <;> cases h
        · exact ⟨_, _, _, rfl, he, .selActive hc hm hb hg, hR₁⟩
        · exact ⟨_, _, _, rfl, he, .selScan hc hb hg, hR₁⟩
        · exact ⟨_, _, _, rfl, he, .dead, hR₁⟩
    case onceActive hs hst =>
      simp only [bind, Option.bind_eq_some_iff] at h
      obtain ⟨⟨r, s₁, env₁, u₁⟩, hx, h⟩ := h
      obtain ⟨m, cells, v₁, hrun, he, hm, hR₁⟩ := h1 _ _ _ _ hx v _ _ hR (.cons hs henv) hst
      rw [nextUser.eq_def]
      simp only [bind, hrun, Option.bind_some]
      cases he with
      | nil => cases h
      | cons hc he =>
        cases r <;> cases h
        · exact ⟨_, _, _, rfl, he, .onceActive hc hm, hR₁⟩
        · exact ⟨_, _, _, rfl, he, .oncePass hc, hR₁⟩
        · exact ⟨_, _, _, rfl, he, .dead, hR₁⟩
    case contContent hs hst =>
      simp only [bind, Option.bind_eq_some_iff] at h
      obtain ⟨⟨r, s₁, env₁, u₁⟩, hx, h⟩ := h
      obtain ⟨m, cells, v₁, hrun, he, hm, hR₁⟩ := h1 _ _ _ _ hx v _ _ hR (.cons hs henv) hst
      rw [nextUser.eq_def]
      simp only [bind, hrun, Option.bind_some]
      cases he with
      | nil => cases h
      | cons hc he =>
        cases r <;> cases h
        · exact ⟨_, _, _, rfl, he, .contContent hc hm, hR₁⟩
        · exact ⟨_, _, _, rfl, he, .contClose hc, hR₁⟩
        · exact ⟨_, _, _, rfl, he, .dead, hR₁⟩
    case contClose t hs =>
      simp only [bind, Option.bind_eq_some_iff] at h
      obtain ⟨⟨r, s₁, env₁, u₁⟩, hx, h⟩ := h
      obtain ⟨m, cells, v₁, hrun, he, hm, hR₁⟩ := h3 _ _ _ _ hx v _ _ hR henv hs
      rw [nextUser.eq_def]
      simp only [bind, hrun, Option.bind_some]
      rcases r with e | _ | _
      · cases e with
        | closingTag c =>
          simp only at h ⊢
          split at h
          next hi => cases h; rw [if_pos hi]; exact ⟨_, _, _, rfl, he, .dead, hR₁⟩
          next hi => cases h; rw [if_neg hi]; exact ⟨_, _, _, rfl, he, .dead, hR₁⟩
        | _ => cases h; exact ⟨_, _, _, rfl, he, .dead, hR₁⟩
      all_goals cases h; exact ⟨_, _, _, rfl, he, .dead, hR₁⟩
    case contOpen hs hb hg =>
      simp only [bind, Option.bind_eq_some_iff] at h
      obtain ⟨⟨r, s₁, env₁, u₁⟩, hx, h⟩ := h
      obtain ⟨m, cells, v₁, hrun, he, hm, hR₁⟩ := h3 _ _ _ _ hx v _ _ hR henv hs
      rw [nextUser.eq_def]
      simp only [bind, hrun, Option.bind_some]
      rcases r with e | _ | _
      · cases e <;> cases h <;> first
          | exact ⟨_, _, _, rfl, he, .dead, hR₁⟩
          | exact ⟨_, _, _, rfl, he, .contContent (.peek hm) (.build (hb _ _ hR₁) .curContent),
              hg _ _ hR₁⟩
      all_goals cases h; exact ⟨_, _, _, rfl, he, .dead, hR₁⟩
    case curContent tag level =>
      cases henv with
      | nil => cases h
      | cons hcell henv =>
        cases hcell
        case peek s s' b hs =>
          simp only [bind] at h
          rw [Option.bind_eq_some_iff] at h
          obtain ⟨⟨r, s₁, b₁, env₁, u₁⟩, hx, h⟩ := h
          rename_i env env'
          have phase : ∃ s₁' cells v₁, (if level = 0 then
                match b with
                | some e => some (Res.ev e, s', some e, env', v)
                | none => (nextSkipNoopUser v env' s').bind fun (r, s, env, v) =>
                  match r with
                  | .ev e => some (Res.ev e, s, some e, env, v)
                  | r => some (r, s, none, env, v)
              else some (Res.ev .noop, s', b, env', v)) = some (r, s₁', b₁, cells, v₁) ∧
              AlongNode R s₁ s₁' ∧ List.Forall₂ (AlongNode R) env₁ cells ∧ R u₁ v₁ := by
            by_cases hl : level = 0
            · rw [if_pos hl] at hx ⊢
              cases b with
              | some e => cases hx; exact ⟨_, _, _, rfl, hs, henv, hR⟩
              | none =>
                simp only [Option.bind_eq_some_iff] at hx
                obtain ⟨⟨r', s₂, env₂, u₂⟩, hy, hx⟩ := hx
                obtain ⟨m, cells, v₁, hrun, he, hm, hR₁⟩ := h3 _ _ _ _ hy v _ _ hR henv hs
                simp only [hrun, Option.bind_some]
                cases r' <;> cases hx <;> exact ⟨_, _, _, rfl, hm, he, hR₁⟩
            · rw [if_neg hl] at hx ⊢
              cases hx
              exact ⟨_, _, _, rfl, hs, henv, hR⟩
          obtain ⟨s₁', cells, v₁, hrun, hs₁, he₁, hR₁⟩ := phase
          rw [nextUser.eq_def]
          simp only [bind]
          refine found_of (P := fun x => ∃ m cells v, x = some (p.1, m, cells, v) ∧
            List.Forall₂ (AlongNode R) p.2.2.1 cells ∧ AlongNode R p.2.1 m ∧ R p.2.2.2 v) _ hrun ?_
          simp only at h ⊢
          rcases r with e | _ | _
          · simp only at h ⊢
            split at h
            next hi => cases h; rw [if_pos hi]; exact ⟨_, _, _, rfl, .cons (.peek hs₁) he₁, .dead, hR₁⟩
            next hi =>
              rw [if_neg hi]
              rw [Option.bind_eq_some_iff] at h
              obtain ⟨⟨r, cell, env₂, u₂⟩, hy, h⟩ := h
              obtain ⟨m, cells₂, v₂, hrun₂, he₂, hm, hR₂⟩ := h1 _ _ _ _ hy _ _ _ hR₁ he₁ (.peek hs₁)
              simp only [hrun₂, Option.bind_some]
              rcases r with e | _ | _
              · simp only at h ⊢
                cases hl : levelAdjust level e <;> rw [hl] at h <;> cases h
                · exact ⟨_, _, _, rfl, .cons hm he₂, .dead, hR₂⟩
                · exact ⟨_, _, _, rfl, .cons hm he₂, .curContent, hR₂⟩
              all_goals cases h; exact ⟨_, _, _, rfl, .cons hm he₂, .dead, hR₂⟩
          all_goals cases h; exact ⟨_, _, _, rfl, .cons (.peek hs₁) he₁, .dead, hR₁⟩
        all_goals cases h
  · intro collect' skip h2 h3 u env n p h v cells m hR henv hal
    simp only [bind, Option.bind_eq_some_iff] at h
    obtain ⟨⟨r, s₁, env₁, u₁⟩, hx, h⟩ := h
    obtain ⟨m, cells, v₁, hrun, he, hm, hR₁⟩ := h3 _ _ _ _ hx v _ _ hR henv hal
    rw [collectUser]
    simp only [bind, hrun, Option.bind_some]
    rcases r with e | _ | _
    · simp only [Option.bind_eq_some_iff] at h
      obtain ⟨⟨r, env₂, u₂⟩, hy, h⟩ := h
      obtain ⟨cells₂, v₂, hrun₂, he₂, hR₂⟩ := h2 _ _ _ _ hy _ _ _ hR₁ he hm
      simp only [hrun₂, Option.bind_some]
      cases r <;> cases h <;> exact ⟨_, _, rfl, he₂, hR₂⟩
    all_goals cases h; exact ⟨_, _, rfl, he, hR₁⟩
  · intro next' skip h1 h3 u env n p h v cells m hR henv hal
    simp only [bind, Option.bind_eq_some_iff] at h
    obtain ⟨⟨r, s₁, env₁, u₁⟩, hx, h⟩ := h
    obtain ⟨m, cells, v₁, hrun, he, hm, hR₁⟩ := h1 _ _ _ _ hx v _ _ hR henv hal
    rw [nextSkipNoopUser]
    simp only [bind, hrun, Option.bind_some]
    rcases r with e | _ | _
    · cases e with
      | noop => exact h3 _ _ _ _ h _ _ _ hR₁ he hm
      | _ => cases h; exact ⟨_, _, _, rfl, he, hm, hR₁⟩
    all_goals cases h; exact ⟨_, _, _, rfl, he, hm, hR₁⟩
  · intro next' drain' h1 h4 u env n p h v cells m hR henv hal
    simp only [bind, Option.bind_eq_some_iff] at h
    obtain ⟨⟨r, s₁, env₁, u₁⟩, hx, h⟩ := h
    obtain ⟨m, cells, v₁, hrun, he, hm, hR₁⟩ := h1 _ _ _ _ hx v _ _ hR henv hal
    rw [drainUser]
    simp only [bind, hrun, Option.bind_some]
    rcases r with e | _ | _
    · exact h4 _ _ _ _ h _ _ _ hR₁ he hm
    all_goals cases h; exact ⟨_, _, _, rfl, he, hm, hR₁⟩

theorem alongContent_flip {c : UContent σ} {d : UContent τ} (h : AlongContent R c d) :
    AlongContent (flip R) d c := by
  induction h with
  | data => exact .data
  | template => exact .template
  | stream h₁ h₂ => exact .stream (fun i v u h => (h₁ i u v h).symm) fun v u h => h₂ u v h
  | resultOk _ ih => exact .resultOk ih
  | resultErr => exact .resultErr

theorem along_flip {a k : Kind} {p : UProg σ a k} {q : UProg τ a k} (h : Along R p q) :
    Along (flip R) q p := by
  induction h with
  | src => exact .src
  | forget _ ih => exact .forget ih
  | apply _ _ ih ih' => exact .apply ih ih'
  | fallOk _ ih => exact .fallOk ih
  | fallErr => exact .fallErr
  | selectRaw _ _ hg ih ihb =>
    exact .selectRaw ih (fun i v u h => ihb i u v h) fun v u h => hg u v h
  | selectOnceRaw _ _ hg ih ihb =>
    exact .selectOnceRaw ih (fun v u h => ihb u v h) fun v u h => hg u v h
  | remove _ ih => exact .remove ih
  | prepend _ hc ih => exact .prepend ih (alongContent_flip hc)
  | append _ hc ih => exact .append ih (alongContent_flip hc)
  | «repeat» _ hm _ hg ih ihb =>
    exact .repeat ih (fun i v u h => (hm i u v h).symm) (fun i v u h => ihb i u v h)
      fun v u h => hg u v h
  | orElse _ hm _ _ hg ih ihr ihf =>
    exact .orElse ih (fun v u h => (hm u v h).symm) (fun v u h => ihr u v h)
      (fun v u h => ihf u v h) fun v u h => hg u v h
  | applyTemplate _ hf hg ih =>
    exact .applyTemplate ih (fun v u t h => (hf u v t h).symm) fun v u t h => hg u v t h
  | contents _ _ hg ih ihb =>
    exact .contents ih (fun v u h => ihb u v h) fun v u h => hg u v h
  | attr _ ih => exact .attr ih

theorem withinContent_along (P : σ → Prop) (c : UContent σ) (h : KeepsContent P c) :
    AlongContent (fun u (v : {u // P u}) => u = v.1) c (withinContent P c h) := by
  induction c with
  | data => exact .data
  | template => exact .template
  | stream pull after => exact .stream (fun _ _ _ h => by rw [h]) fun _ _ h => by rw [h]
  | resultOk c ih => exact .resultOk (ih h)
  | resultErr => exact .resultErr

theorem within_along (P : σ → Prop) {a k : Kind} (p : UProg σ a k) (h : KeepsState P p) :
    Along (fun u (v : {u // P u}) => u = v.1) p (within P p h) := by
  induction p with
  | src => exact .src
  | forget _ ih => exact .forget (ih h)
  | apply _ _ ih ih' => exact .apply (ih h.1) (ih' h.2)
  | fallOk _ ih => exact .fallOk (ih h)
  | fallErr => exact .fallErr
  | selectRaw _ _ _ _ _ ih ihb =>
    refine .selectRaw (ih h.1) (fun i u v hv => ?_) fun _ _ hv => by rw [hv]
    subst hv
    exact ihb i _ _
  | selectOnceRaw _ _ _ _ _ ih ihb =>
    refine .selectOnceRaw (ih h.1) (fun u v hv => ?_) fun _ _ hv => by rw [hv]
    subst hv
    exact ihb _ _
  | remove _ ih => exact .remove (ih h)
  | prepend _ c ih => exact .prepend (ih h.1) (withinContent_along P c h.2)
  | append _ c ih => exact .append (ih h.1) (withinContent_along P c h.2)
  | «repeat» _ _ _ _ ih ihb =>
    refine .repeat (ih h.1) (fun _ _ _ hv => by rw [hv]) (fun i u v hv => ?_)
      fun _ _ hv => by rw [hv]
    subst hv
    exact ihb i _ _
  | orElse _ _ _ _ _ ih ihr ihf =>
    refine .orElse (ih h.1) (fun _ _ hv => by rw [hv]) (fun u v hv => ?_) (fun u v hv => ?_)
      fun _ _ hv => by rw [hv]
    · subst hv
      exact ihr _ _
    · subst hv
      exact ihf _ _
  | applyTemplate _ _ _ ih =>
    exact .applyTemplate (ih h.1) (fun _ _ _ hv => by rw [hv]) fun _ _ _ hv => by rw [hv]
  | contents _ _ _ ih ihb =>
    refine .contents (ih h.1) (fun u v hv => ?_) fun _ _ hv => by rw [hv]
    subst hv
    exact ihb _ _
  | attr _ _ ih => exact .attr (ih h)

theorem transform_along {k : Kind} {p : UProg σ .gen k} {q : UProg τ .gen k} (hp : Along R p q)
    (t : Template) {u u' : σ} {v : τ} (hR : R u v) {r : Except StreamError Template}
    (h : t.transformUser p u = some (r, u')) :
    ∃ v', t.transformUser q v = some (r, v') ∧ R u' v' := by
  simp only [Template.transformUser, bind, Option.bind_eq_some_iff] at h
  obtain ⟨⟨es, env, u₁⟩, hc, h⟩ := h
  obtain ⟨cells, v', hrun, -, hR'⟩ := (machine_along R).2.1 _ _ _ _ hc v [] _ hR .nil
    (AlongNode.build hp (n := .tmpl t.events 0) (m := .tmpl t.events 0) .tmpl)
  rw [Template.transformUser]
  simp only [bind, hrun, Option.bind_some]
  cases es <;> cases h <;> exact ⟨_, rfl, hR'⟩

end Fuser
