import Verif.Spec.Ended
import Verif.Proof.Chain

/-!
# Streams that have ended
-/

namespace Fuser

open Spec

/-- The stream has ended for good. -/
def Node.Over : Node → Prop
  | .dead => True
  | .tmpl es i => es.length ≤ i
  | .once d => d = none
  | .remove n => n.Over
  | _ => False

/-- Streams that end for good: all that belong to the crate and own their source. -/
def Node.Owned : Node → Prop
  | .shared => False
  | .script _ => False
  | .peek _ _ => False
  | .remove n => n.Owned
  | _ => True

theorem over_next {n : Node} (h : n.Over) (env : Env) : next env n = some (.done, n, env) := by
  induction n with
  | dead => rw [next]
  | tmpl es i => rw [next, List.getElem?_eq_none h]
  | once d => cases h; rw [next]
  | remove n ih =>
    rw [next, drain, ih h]
    rfl
  | _ => cases h

theorem passthrough_over {C : Node → Node} (hC : ∀ n, (C n).Owned) (p : Pull) :
    (passthrough C p).2.1.Owned ∧ (¬ IsEvent (passthrough C p).1 → (passthrough C p).2.1.Over) := by
  obtain ⟨r, n, env⟩ := p
  cases r with
  | ev e => exact ⟨hC n, fun h => absurd ⟨e, rfl⟩ h⟩
  | done => exact ⟨trivial, fun _ => trivial⟩
  | err e => exact ⟨trivial, fun _ => trivial⟩

theorem isEvent_ev (e : Event) : IsEvent (.ev e) := ⟨e, rfl⟩

theorem not_isEvent {r : Res} (h : ∀ e, r ≠ .ev e) : ¬ IsEvent r := fun ⟨e, he⟩ => h e he

theorem singleUntilStep_owned (tag : Identifier) (level : Nat) (e : Event) (n : Node) :
    (singleUntilStep tag level e n).Owned := by
  unfold singleUntilStep
  repeat' split
  all_goals trivial

theorem owned_next (env : Env) (n : Node) (p : Pull) (h : next env n = some p) (hn : n.Owned) :
    p.2.1.Owned ∧ (¬ IsEvent p.1 → p.2.1.Over) := by
  refine (next.mutual_partial_correctness
    (fun _ n p => n.Owned → p.2.1.Owned ∧ (¬ IsEvent p.1 → p.2.1.Over))
    (fun _ _ _ => True) (fun _ _ _ => True)
    (fun _ n p => n.Owned → ¬ IsEvent p.1 ∧ p.2.1.Owned ∧ p.2.1.Over) ?_ ?_ ?_ ?_).1 env n p h hn
  · intro next collect skip drain h1 h2 h3 h4 env n p h hn
    cases n
    all_goals simp only [bind, Option.bind] at h
    all_goals repeat' (first | split at h | (dsimp only at h; split at h))
    all_goals first
      | contradiction
      | (cases h; first
          | exact ⟨trivial, fun _ => trivial⟩
          | exact ⟨trivial, fun h => absurd (isEvent_ev _) h⟩
          | exact ⟨singleUntilStep_owned _ _ _ _, fun h => absurd (isEvent_ev _) h⟩
          | (refine passthrough_over ?_ _; intro _; trivial)
          | exact ⟨trivial, fun _ => List.getElem?_eq_none_iff.1 ‹_›⟩
          | exact ⟨trivial, fun _ => rfl⟩)
      | (rename_i heq; have h5 := h4 _ _ _ heq hn; dsimp only at h; cases h; exact ⟨h5.2.1, fun _ => h5.2.2⟩)
  · intros; trivial
  · intros; trivial
  · intro next drain h1 h2 env n p h hn
    simp only [bind, Option.bind] at h
    split at h
    · cases h
    case h_2 x hx =>
      obtain ⟨r, n', env'⟩ := x
      have := h1 _ _ _ hx hn
      cases r with
      | ev e => exact h2 _ _ _ h this.1
      | done => cases h; exact ⟨not_isEvent nofun, this.1, this.2 (not_isEvent nofun)⟩
      | err e => cases h; exact ⟨not_isEvent nofun, this.1, this.2 (not_isEvent nofun)⟩

theorem build_owned {a k : Kind} (p : Prog a k) : ∀ {n : Node}, n.Owned → (p.build n).Owned := by
  induction p with
  | src => exact id
  | forget p ih => exact ih
  | apply p q ih1 ih2 => exact fun h => ih2 (ih1 h)
  | remove p ih => exact fun h => ih h
  | _ => exact fun _ => trivial

theorem pulls_over {n : Node} (h : n.Over) (env : Env) (m : Nat) :
    pulls m env n = some (List.replicate m .done) := by
  induction m with
  | zero => rfl
  | succ m ih =>
    rw [pulls, over_next h]
    simp only [bind, Option.bind_some, ih]
    rfl

theorem pulls_succ {env n r n' env'} (h : next env n = some (r, n', env')) (m : Nat) :
    pulls (m + 1) env n = (pulls m env' n').map (r :: ·) := by
  rw [pulls, h]
  simp only [bind, Option.bind_some]
  cases pulls m env' n' <;> rfl

/-- All the results of pulling a stream that halts, and what is collected. -/
theorem pulls_all {Post : Env → Prop} {k : Nat} {env : Env} {n : Node} (h : HaltIn Post k env n) :
    n.Owned → ∃ (es : List Event) (last : Option StreamError),
      (∀ m, pulls (es.length + 1 + m) env n =
        some (es.map .ev ++ endOf last :: List.replicate m .done)) ∧
      (collect env n).map Prod.fst = some (match last with
        | none => .ok (es.filter (· ≠ .noop))
        | some e => .error e) := by
  induction h with
  | @ev k env n n' env' e hP h _ ih =>
    intro hn
    obtain ⟨es, last, h1, h2⟩ := ih (owned_next _ _ _ h hn).1
    refine ⟨e :: es, last, fun m => ?_, ?_⟩
    · have : (e :: es).length + 1 + m = (es.length + 1 + m) + 1 := by simp; omega
      rw [this, pulls_succ h, h1]
      rfl
    · by_cases he : e = .noop
      · subst he
        rw [collect_noop h, h2]
        rfl
      · rw [collect_ev h he, Option.map_map]
        have : (Prod.fst ∘ fun p : Except StreamError (List Event) × Env => (p.1.map (e :: ·), p.2)) =
            (Except.map (e :: ·)) ∘ Prod.fst := rfl
        rw [this, ← Option.map_map, h2]
        cases last with
        | none => simp [Except.map, he]
        | some x => rfl
  | quiet h =>
    intro hn
    obtain ⟨n', env', h1, -⟩ := h.step
    have ho := (owned_next _ _ _ h1 hn).2 (not_isEvent nofun)
    refine ⟨[], none, fun m => ?_, ?_⟩
    · rw [show ([] : List Event).length + 1 + m = m + 1 by simp; omega, pulls_succ h1, pulls_over ho]
      rfl
    · rw [collect, nextSkipNoop_of h1 (by simp)]
      rfl
  | @err k env n n' env' e hP h =>
    intro hn
    have ho := (owned_next _ _ _ h hn).2 (not_isEvent nofun)
    refine ⟨[], some e, fun m => ?_, ?_⟩
    · rw [show ([] : List Event).length + 1 + m = m + 1 by simp; omega, pulls_succ h, pulls_over ho]
      rfl
    · rw [collect, nextSkipNoop_of h (by simp)]
      rfl

/-! ## With user code -/

variable {σ : Type}

/-- The stream has ended for good. -/
def UNode.Over : UNode σ → Prop
  | .dead => True
  | .tmpl es i => es.length ≤ i
  | .once d => d = none
  | .remove n => n.Over
  | _ => False

/-- Streams that end for good: all that belong to the crate and own their source. -/
def UNode.Owned : UNode σ → Prop
  | .shared => False
  | .stream _ _ _ => False
  | .peek _ _ => False
  | .remove n => n.Owned
  | _ => True

theorem over_nextUser {n : UNode σ} (h : n.Over) (u : σ) (env : UEnv σ) :
    nextUser u env n = some (.done, n, env, u) := by
  induction n with
  | dead => rw [nextUser]
  | tmpl es i => rw [nextUser, List.getElem?_eq_none h]
  | once d => cases h; rw [nextUser]
  | remove n ih =>
    rw [nextUser, drainUser, ih h]
    rfl
  | _ => cases h

theorem passthroughUser_over {C : UNode σ → UNode σ} (hC : ∀ n, (C n).Owned) (p : UPull σ) :
    (passthroughUser C p).2.1.Owned ∧
      (¬ IsEvent (passthroughUser C p).1 → (passthroughUser C p).2.1.Over) := by
  obtain ⟨r, n, env, u⟩ := p
  cases r with
  | ev e => exact ⟨hC n, fun h => absurd ⟨e, rfl⟩ h⟩
  | done => exact ⟨trivial, fun _ => trivial⟩
  | err e => exact ⟨trivial, fun _ => trivial⟩

theorem singleUntilStepUser_owned (tag : Identifier) (level : Nat) (e : Event) (n : UNode σ) :
    (singleUntilStepUser tag level e n).Owned := by
  unfold singleUntilStepUser
  repeat' split
  all_goals trivial

theorem owned_nextUser (u : σ) (env : UEnv σ) (n : UNode σ) (p : UPull σ)
    (h : nextUser u env n = some p) (hn : n.Owned) :
    p.2.1.Owned ∧ (¬ IsEvent p.1 → p.2.1.Over) := by
  refine (nextUser.mutual_partial_correctness
    (fun _ _ n p => n.Owned → p.2.1.Owned ∧ (¬ IsEvent p.1 → p.2.1.Over))
    (fun _ _ _ _ => True) (fun _ _ _ _ => True)
    (fun _ _ n p => n.Owned → ¬ IsEvent p.1 ∧ p.2.1.Owned ∧ p.2.1.Over) ?_ ?_ ?_ ?_).1 u env n p h hn
  · intro next collect skip drain h1 h2 h3 h4 u env n p h hn
    cases n
    all_goals simp only [bind, Option.bind] at h
    all_goals repeat' (first | split at h | (dsimp only at h; split at h))
    all_goals first
      | contradiction
      | (cases h; first
          | exact ⟨trivial, fun _ => trivial⟩
          | exact ⟨trivial, fun h => absurd (isEvent_ev _) h⟩
          | exact ⟨singleUntilStepUser_owned _ _ _ _, fun h => absurd (isEvent_ev _) h⟩
          | (refine passthroughUser_over ?_ _; intro _; trivial)
          | exact ⟨trivial, fun _ => List.getElem?_eq_none_iff.1 ‹_›⟩
          | exact ⟨trivial, fun _ => rfl⟩)
      | (rename_i heq; have h5 := h4 _ _ _ _ heq hn; dsimp only at h; cases h; exact ⟨h5.2.1, fun _ => h5.2.2⟩)
  · intros; trivial
  · intros; trivial
  · intro next drain h1 h2 u env n p h hn
    simp only [bind, Option.bind] at h
    split at h
    · cases h
    case h_2 x hx =>
      obtain ⟨r, n', env', u'⟩ := x
      have := h1 _ _ _ _ hx hn
      cases r with
      | ev e => exact h2 _ _ _ _ h this.1
      | done => cases h; exact ⟨not_isEvent nofun, this.1, this.2 (not_isEvent nofun)⟩
      | err e => cases h; exact ⟨not_isEvent nofun, this.1, this.2 (not_isEvent nofun)⟩

theorem buildUser_owned {a k : Kind} (p : UProg σ a k) :
    ∀ {n : UNode σ}, n.Owned → (p.build n).Owned := by
  induction p with
  | src => exact id
  | forget p ih => exact ih
  | apply p q ih1 ih2 => exact fun h => ih2 (ih1 h)
  | remove p ih => exact fun h => ih h
  | _ => exact fun _ => trivial

theorem pullsUser_over {n : UNode σ} (h : n.Over) (u : σ) (env : UEnv σ) (m : Nat) :
    pullsUser m u env n = some (List.replicate m (.done, u)) := by
  induction m with
  | zero => rfl
  | succ m ih =>
    rw [pullsUser, over_nextUser h]
    simp only [bind, Option.bind_some, ih]
    rfl

theorem pullsUser_ended (m : Nat) : ∀ {u : σ} {env : UEnv σ} {n : UNode σ} {rs : List (Res × σ)},
    n.Owned → pullsUser m u env n = some rs → StaysEnded rs := by
  induction m with
  | zero => intro u env n rs _ h; cases h; exact .nil
  | succ m ih =>
    intro u env n rs hn h
    rw [pullsUser] at h
    simp only [bind, Option.bind_eq_some_iff] at h
    obtain ⟨⟨r, n', env', u'⟩, h1, rs', h2, h3⟩ := h
    cases h3
    have hs := owned_nextUser _ _ _ _ h1 hn
    dsimp only at hs h2 ⊢
    by_cases hr : IsEvent r
    · obtain ⟨e, rfl⟩ := hr
      exact .ev (ih hs.1 h2)
    · rw [pullsUser_over (hs.2 hr)] at h2
      cases h2
      exact .last hr fun x hx => List.eq_of_mem_replicate hx

end Fuser
