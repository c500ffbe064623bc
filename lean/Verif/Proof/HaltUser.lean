import Verif.Spec.Settle
import Mathlib.SetTheory.Ordinal.Family

/-!
# Termination of streams with user code

As in `Proof/Halt.lean`, but in every state that can follow. The number of events that are left may
depend on the states, so it is an ordinal.
-/

namespace Fuser

open Spec

variable {σ : Type}

/-! ## Pulling keeps the number of shared cells -/

theorem passthroughUser_env (C : UNode σ → UNode σ) (p : UPull σ) :
    (passthroughUser C p).2.2 = p.2.2 := by
  obtain ⟨r, n, env, u⟩ := p
  cases r <;> rfl

theorem nextUser_length (u : σ) (env : UEnv σ) (n : UNode σ) (p : UPull σ)
    (h : nextUser u env n = some p) : p.2.2.1.length = env.length := by
  refine (nextUser.mutual_partial_correctness (fun _ env _ p => p.2.2.1.length = env.length)
    (fun _ env _ p => p.2.1.length = env.length) (fun _ env _ p => p.2.2.1.length = env.length)
    (fun _ env _ p => p.2.2.1.length = env.length) ?_ ?_ ?_ ?_).1 u env n p h
  · intro next collect skip drain h1 h2 h3 h4 u env n p h
    cases n
    case curContent tag level =>
      simp only [bind] at h
      split at h
      case h_2 => cases h
      case h_1 s buffered env =>
        rw [Option.bind_eq_some_iff] at h
        obtain ⟨⟨r, s', b', env', u'⟩, hx, h⟩ := h
        have hlen : env'.length = env.length := by
          simp only [Option.bind] at hx
          repeat' split at hx
          all_goals grind
        clear hx
        simp only [Option.bind] at h
        repeat' split at h
        all_goals grind
    all_goals simp only [bind, Option.bind] at h
    all_goals repeat' split at h
    all_goals first
      | contradiction
      | grind [passthroughUser_env]
  · intro collect skip h1 h2 u env n p h
    simp only [bind, Option.bind] at h
    repeat' split at h
    all_goals grind
  · intro next skip h1 h2 u env n p h
    simp only [bind, Option.bind] at h
    repeat' split at h
    all_goals grind
  · intro next drain h1 h2 u env n p h
    simp only [bind, Option.bind] at h
    repeat' split at h
    all_goals grind

theorem nextUser_cons {u u' : σ} {c env n r n' env'}
    (h : nextUser u (c :: env) n = some (r, n', env', u')) : ∃ c' rest, env' = c' :: rest := by
  have := nextUser_length _ _ _ _ h
  cases env' with
  | nil => simp at this
  | cons c' rest => exact ⟨c', rest, rfl⟩

/-! ## Streams that end -/

namespace Halting

/-- A condition on the state and the cells. -/
abbrev Cond (σ : Type) := σ → UEnv σ → Prop

/-- The order in which states can follow each other. -/
structure Course (σ : Type) where
  rel : σ → σ → Prop
  refl : ∀ u, rel u u
  trans : ∀ u v w, rel u v → rel v w → rel u w

variable {G : Course σ} {Post P : Cond σ} {α β : Ordinal.{0}} {u v : σ} {env : UEnv σ} {n : UNode σ}

/-- The stream has ended and keeps reporting that; `Post` always holds. -/
def Quiet (G : Course σ) (Post : Cond σ) (u : σ) (env : UEnv σ) (n : UNode σ) : Prop :=
  ∃ I : σ → UEnv σ → UNode σ → Prop, I u env n ∧ ∀ u env n, I u env n → ∀ v, G.rel u v →
    Post v env ∧ ∃ n' env' v', nextUser v env n = some (.done, n', env', v') ∧ G.rel v v' ∧
      I v' env' n'

theorem Quiet.post (h : Quiet G Post u env n) (hv : G.rel u v) : Post v env := by
  obtain ⟨I, h1, h2⟩ := h
  exact (h2 _ _ _ h1 v hv).1

theorem Quiet.step (h : Quiet G Post u env n) (hv : G.rel u v) :
    ∃ n' env' v', nextUser v env n = some (.done, n', env', v') ∧ G.rel v v' ∧
      Quiet G Post v' env' n' := by
  obtain ⟨I, h1, h2⟩ := h
  obtain ⟨-, n', env', v', h3, h4, h5⟩ := h2 _ _ _ h1 v hv
  exact ⟨n', env', v', h3, h4, I, h5, h2⟩

/-- A stream that does not change. -/
theorem Quiet.fixed (h : ∀ v, nextUser v env n = some (.done, n, env, v))
    (hP : ∀ v, G.rel u v → Post v env) : Quiet G Post u env n := by
  refine ⟨fun v e m => G.rel u v ∧ e = env ∧ m = n, ⟨G.refl u, rfl, rfl⟩, ?_⟩
  rintro v _ _ ⟨hv, rfl, rfl⟩ w hw
  exact ⟨hP _ (G.trans _ _ _ hv hw), _, _, _, h w, G.refl w, G.trans _ _ _ hv hw, rfl, rfl⟩

theorem Quiet.dead (hP : ∀ v, G.rel u v → Post v env) : Quiet G Post u env .dead :=
  .fixed (fun v => by rw [nextUser]) hP

/-- `Post` holds and goes on to hold. -/
def Stays (G : Course σ) (Post : Cond σ) (u : σ) (env : UEnv σ) (_ : UNode σ) : Prop :=
  ∀ v, G.rel u v → Post v env

/-- A condition on the state, the cells and a stream. -/
abbrev Left (σ : Type) := σ → UEnv σ → UNode σ → Prop

/-- The stream ends after events of number at most `a`; `Post` always holds, and `D` holds after the
end. -/
inductive HaltIn (G : Course σ) (Post : Cond σ) (D : Left σ) :
    Ordinal.{0} → σ → UEnv σ → UNode σ → Prop
  | intro {a x cells m} (b : σ → Ordinal.{0}) (post : ∀ v, G.rel x v → Post v cells)
    (next : ∀ v, G.rel x v → ∃ r n' env' v', nextUser v cells m = some (r, n', env', v') ∧
      G.rel v v')
    (done : ∀ v n' env' v', G.rel x v → nextUser v cells m = some (.done, n', env', v') →
      D v' env' n')
    (less : ∀ v, G.rel x v → ∀ e n' env' v', nextUser v cells m = some (.ev e, n', env', v') →
      b v < a)
    (ev : ∀ v e n' env' v', G.rel x v → nextUser v cells m = some (.ev e, n', env', v') →
      HaltIn G Post D (b v) v' env' n') : HaltIn G Post D a x cells m

variable {D D' : Left σ}

/-- The stream ends. -/
def HaltsWith (G : Course σ) (Post : Cond σ) (D : Left σ) (u : σ) (env : UEnv σ) (n : UNode σ) :
    Prop := ∃ α, HaltIn G Post D α u env n

/-- The stream ends and keeps reporting that. -/
abbrev Halts (G : Course σ) (Post : Cond σ) := HaltsWith G Post (Quiet G Post)

/-- The stream ends; what it does after that is open. -/
abbrev Ends (G : Course σ) (Post : Cond σ) := HaltsWith G Post (Stays G Post)

/-- One pull in a given state, with a property `H` of what is left after an event. -/
inductive Out (G : Course σ) (Post : Cond σ) (D H : Left σ) (v : σ)
    (env : UEnv σ) (n : UNode σ) : Prop
  | ev {e n' env' v'} : Post v env → nextUser v env n = some (.ev e, n', env', v') → G.rel v v' →
      H v' env' n' → Out G Post D H v env n
  | done {n' env' v'} : Post v env → nextUser v env n = some (.done, n', env', v') → G.rel v v' →
      D v' env' n' → Out G Post D H v env n
  | err {e n' env' v'} : Post v env → nextUser v env n = some (.err e, n', env', v') → G.rel v v' →
      Out G Post D H v env n

theorem Out.post {H} (h : Out G Post D H v env n) : Post v env := by cases h <;> assumption

theorem HaltIn.out (h : HaltIn G Post D α u env n) (hv : G.rel u v) :
    Out G Post D (fun v env n => ∃ β < α, HaltIn G Post D β v env n) v env n := by
  obtain ⟨β, post, next, done, less, ev⟩ := h
  obtain ⟨r, n', env', v', h1, h2⟩ := next v hv
  cases r with
  | ev e => exact .ev (post v hv) h1 h2 ⟨_, less v hv _ _ _ _ h1, ev v e _ _ _ hv h1⟩
  | done => exact .done (post v hv) h1 h2 (done v _ _ _ hv h1)
  | err e => exact .err (post v hv) h1 h2

theorem HaltIn.post (h : HaltIn G Post D α u env n) (hv : G.rel u v) : Post v env :=
  (h.out hv).post

theorem HaltIn.follow (h : HaltIn G Post D α u env n) (hv : G.rel u v) :
    HaltIn G Post D α v env n := by
  obtain ⟨β, post, next, done, less, ev⟩ := h
  have t : ∀ {w}, G.rel v w → G.rel u w := fun hw => G.trans _ _ _ hv hw
  exact .intro β (fun w hw => post w (t hw)) (fun w hw => next w (t hw))
    (fun w n' env' v' hw => done w n' env' v' (t hw)) (fun w hw => less w (t hw))
    fun w e n' env' v' hw => ev w e n' env' v' (t hw)

theorem HaltIn.le (h : HaltIn G Post D α u env n) (hα : α ≤ β) : HaltIn G Post D β u env n := by
  obtain ⟨b, post, next, done, less, ev⟩ := h
  exact .intro b post next done
    (fun v hv e n' env' v' h => lt_of_lt_of_le (less v hv e n' env' v' h) hα) ev

theorem HaltsWith.post (h : HaltsWith G Post D u env n) (hv : G.rel u v) : Post v env :=
  h.choose_spec.post hv

theorem HaltsWith.follow (h : HaltsWith G Post D u env n) (hv : G.rel u v) :
    HaltsWith G Post D v env n :=
  ⟨_, h.choose_spec.follow hv⟩

theorem HaltsWith.intro (h : ∀ v, G.rel u v → Out G Post D (HaltsWith G Post D) v env n) :
    HaltsWith G Post D u env n := by
  classical
  have hβ : ∀ v, ∃ β, G.rel u v → ∀ e n' env' v',
      nextUser v env n = some (.ev e, n', env', v') → HaltIn G Post D β v' env' n' := by
    intro v
    by_cases hv : G.rel u v
    · cases h v hv with
      | ev h1 h2 h3 h4 =>
        obtain ⟨β, h4⟩ := h4
        refine ⟨β, fun _ _ _ _ _ h5 => ?_⟩
        rw [h2] at h5
        cases h5
        exact h4
      | done h1 h2 => exact ⟨0, fun _ _ _ _ _ h5 => by rw [h2] at h5; cases h5⟩
      | err h1 h2 => exact ⟨0, fun _ _ _ _ _ h5 => by rw [h2] at h5; cases h5⟩
    · exact ⟨0, fun h => absurd h hv⟩
  choose β hβ using hβ
  refine ⟨⨆ v, β v + 1, .intro β (fun v hv => (h v hv).post) (fun v hv => ?_)
    (fun v n' env' v' hv h5 => ?_) (fun v _ _ _ _ _ _ => Ordinal.lt_iSup_add_one β v)
    fun v e n' env' v' hv h5 => hβ v hv e n' env' v' h5⟩
  · cases h v hv with
    | ev h1 h2 h3 => exact ⟨_, _, _, _, h2, h3⟩
    | done h1 h2 h3 => exact ⟨_, _, _, _, h2, h3⟩
    | err h1 h2 h3 => exact ⟨_, _, _, _, h2, h3⟩
  · cases h v hv with
    | ev h1 h2 h3 => rw [h2] at h5; cases h5
    | done h1 h2 h3 h4 => rw [h2] at h5; cases h5; exact h4
    | err h1 h2 h3 => rw [h2] at h5; cases h5

theorem Quiet.halts (h : Quiet G Post u env n) : Halts G Post u env n := by
  refine .intro fun v hv => ?_
  obtain ⟨n', env', v', h1, h2, h3⟩ := h.step hv
  exact .done (h.post hv) h1 h2 h3

theorem halts_dead (hP : ∀ v, G.rel u v → Post v env) : Halts G Post u env .dead :=
  (Quiet.dead hP).halts

theorem HaltIn.mono (hD : ∀ u env n, D u env n → D' u env n) (h : HaltIn G Post D α u env n) :
    HaltIn G Post D' α u env n := by
  induction h with
  | intro b post next done less ev ih =>
    exact .intro b post next (fun v n' env' v' hv h => hD _ _ _ (done v n' env' v' hv h)) less
      fun v e n' env' v' hv h => ih v e n' env' v' hv h

theorem HaltsWith.ends (h : Halts G Post u env n) : Ends G Post u env n :=
  ⟨_, h.choose_spec.mono fun _ _ _ h _ hv => h.post hv⟩

/-- Pulling with `next_event_skip_noop`. -/
inductive Skip (G : Course σ) (Post : Cond σ) (D : Left σ) (α : Ordinal.{0}) (v : σ) (env : UEnv σ)
    (n : UNode σ) : Prop
  | ev (β e n' env' v') : nextSkipNoopUser v env n = some (.ev e, n', env', v') → G.rel v v' →
      β < α → HaltIn G Post D β v' env' n' → Skip G Post D α v env n
  | done (n' env' v') : nextSkipNoopUser v env n = some (.done, n', env', v') → G.rel v v' →
      D v' env' n' → Skip G Post D α v env n
  | err (e n' env' v') : nextSkipNoopUser v env n = some (.err e, n', env', v') → G.rel v v' →
      Skip G Post D α v env n

theorem skip_noop {n' : UNode σ} {env' v'} (h : nextUser v env n = some (.ev .noop, n', env', v')) :
    nextSkipNoopUser v env n = nextSkipNoopUser v' env' n' := by
  rw [nextSkipNoopUser, h]
  rfl

theorem skip_of {r : Res} {n' : UNode σ} {env' v'} (h : nextUser v env n = some (r, n', env', v'))
    (hr : r ≠ .ev .noop) : nextSkipNoopUser v env n = some (r, n', env', v') := by
  rw [nextSkipNoopUser, h]
  simp only [bind, Option.bind_some]

theorem HaltIn.skip (h : HaltIn G Post D α u env n) (hv : G.rel u v) : Skip G Post D α v env n := by
  induction α using WellFoundedLT.induction generalizing u v env n with
  | _ α ih =>
    cases h.out hv with
    | @ev e n' env' v' hP h hG h' =>
      obtain ⟨β, hβ, h'⟩ := h'
      by_cases he : e = .noop
      · subst he
        have hn := skip_noop h
        cases ih β hβ h' (G.refl _) with
        | ev k' e n' env' w h1 h2 h3 h4 =>
          exact .ev k' e n' env' w (hn.trans h1) (G.trans _ _ _ hG h2) (h3.trans hβ) h4
        | done n' env' w h1 h2 h3 => exact .done n' env' w (hn.trans h1) (G.trans _ _ _ hG h2) h3
        | err e n' env' w h1 h2 => exact .err e n' env' w (hn.trans h1) (G.trans _ _ _ hG h2)
      · exact .ev β e n' env' v' (skip_of h (by simpa using he)) hG hβ h'
    | done hP h hG hq => exact .done _ _ _ (skip_of h (by simp)) hG hq
    | err hP h hG => exact .err _ _ _ _ (skip_of h (by simp)) hG

/-- Collecting a stream that ends. -/
theorem HaltIn.collect (h : HaltIn G Post (Quiet G Post) α u env n) (hv : G.rel u v) :
    ∃ r env' v', collectUser v env n = some (r, env', v') ∧ G.rel v v' ∧
      ∀ es, r = .ok es → ∀ w, G.rel v' w → Post w env' := by
  induction α using WellFoundedLT.induction generalizing u v env n with
  | _ α ih =>
    cases h.skip hv with
    | ev β e n' env' v' h1 h2 h3 h4 =>
      obtain ⟨r, env'', w, h5, h6, h7⟩ := ih β h3 h4 (G.refl _)
      rw [collectUser]
      simp only [bind, h1, Option.bind_some, h5]
      cases r with
      | error e => exact ⟨_, _, _, rfl, G.trans _ _ _ h2 h6, fun _ h => by cases h⟩
      | ok es => exact ⟨_, _, _, rfl, G.trans _ _ _ h2 h6, fun _ _ => h7 es rfl⟩
    | done n' env' v' h1 h2 h3 =>
      rw [collectUser]
      simp only [bind, h1, Option.bind_some]
      exact ⟨_, _, _, rfl, h2, fun _ _ w hw => h3.post hw⟩
    | err e n' env' v' h1 h2 =>
      rw [collectUser]
      simp only [bind, h1, Option.bind_some]
      exact ⟨_, _, _, rfl, h2, fun _ h => by cases h⟩

theorem HaltIn.drain (h : HaltIn G Post D α u env n) (hv : G.rel u v) :
    (∃ n' env' v', drainUser v env n = some (.done, n', env', v') ∧ G.rel v v' ∧ D v' env' n') ∨
      ∃ e n' env' v', drainUser v env n = some (.err e, n', env', v') ∧ G.rel v v' := by
  induction α using WellFoundedLT.induction generalizing u v env n with
  | _ α ih =>
    cases h.out hv with
    | ev hP h hG h' =>
      obtain ⟨β, hβ, h'⟩ := h'
      rcases ih β hβ h' (G.refl _) with ⟨n', env', w, h1, h2, h3⟩ | ⟨e, n', env', w, h1, h2⟩
      · exact .inl ⟨n', env', w, by rw [drainUser, h]; exact h1, G.trans _ _ _ hG h2, h3⟩
      · exact .inr ⟨e, n', env', w, by rw [drainUser, h]; exact h1, G.trans _ _ _ hG h2⟩
    | done hP h hG hq => exact .inl ⟨_, _, _, by rw [drainUser, h]; rfl, hG, hq⟩
    | err hP h hG => exact .inr ⟨_, _, _, _, by rw [drainUser, h]; rfl, hG⟩

/-! ## Streams one by one -/

/-- Streams that only forward. -/
def Forwards (C : UNode σ → UNode σ) : Prop :=
  ∀ u env n, nextUser u env (C n) = (nextUser u env n).map (passthroughUser C)

theorem forwards_fallEmit : Forwards (σ := σ) .fallEmit := fun u env n => by
  rw [nextUser]
  cases nextUser u env n <;> rfl

theorem forwards_expandEmit : Forwards (σ := σ) .expandEmit := fun u env n => by
  rw [nextUser]
  cases nextUser u env n <;> rfl

theorem forwards_oncePass : Forwards (σ := σ) .oncePass := fun u env n => by
  rw [nextUser]
  cases nextUser u env n <;> rfl

theorem forwards_attrEmit : Forwards (σ := σ) .attrEmit := fun u env n => by
  rw [nextUser]
  cases nextUser u env n <;> rfl

theorem forwards_orElseRun : Forwards (σ := σ) .orElseRun := fun u env n => by
  rw [nextUser]
  cases nextUser u env n <;> rfl

theorem forwards_applyEmit : Forwards (σ := σ) .applyEmit := fun u env n => by
  rw [nextUser]
  cases nextUser u env n <;> rfl

theorem Forwards.halts {C : UNode σ → UNode σ} (hC : Forwards C) (h : Ends G Post u env n) :
    Halts G Post u env (C n) := by
  obtain ⟨α, h⟩ := h
  induction α using WellFoundedLT.induction generalizing u env n with
  | _ α ih =>
    refine .intro fun v hv => ?_
    cases h.out hv with
    | ev hP h hG h' =>
      obtain ⟨β, hβ, h'⟩ := h'
      exact .ev hP (by rw [hC, h]; rfl) hG (ih β hβ h')
    | done hP h hG hq => exact .done hP (by rw [hC, h]; rfl) hG (.dead hq)
    | err hP h hG => exact .err hP (by rw [hC, h]; rfl) hG

theorem halts_fallStart (h : Ends G Post u env n) : Halts G Post u env (.fallStart n) :=
  .intro fun v hv => .ev (h.post hv) (by rw [nextUser]) (G.refl v)
    (forwards_fallEmit.halts (h.follow hv))

theorem halts_fallError {e} (hP : ∀ v, G.rel u v → Post v env) :
    Halts G Post u env (.fallError e) :=
  .intro fun v hv => .err (hP v hv) (by rw [nextUser]) (G.refl v)

theorem quiet_remove (h : Quiet G Post u env n) : Quiet G Post u env (.remove n) := by
  refine ⟨fun w e m => ∃ x, m = .remove x ∧ Quiet G Post w e x, ⟨n, rfl, h⟩, ?_⟩
  rintro w e _ ⟨x, rfl, h⟩ v hv
  obtain ⟨n', env', v', h1, h2, h3⟩ := h.step hv
  exact ⟨h.post hv, .remove n', env', v', by rw [nextUser, drainUser, h1]; rfl, h2, n', rfl, h3⟩

theorem halts_remove (h : Halts G Post u env n) : Halts G Post u env (.remove n) := by
  obtain ⟨k, h⟩ := h
  refine .intro fun v hv => ?_
  rcases h.drain hv with ⟨n', env', v', h1, h2, h3⟩ | ⟨e, n', env', v', h1, h2⟩
  · exact .done (h.post hv) (by rw [nextUser, h1]; rfl) h2 (quiet_remove h3)
  · exact .err (h.post hv) (by rw [nextUser, h1]; rfl) h2

theorem halts_combSecond (h : Ends G Post u env n) : Halts G Post u env (.combSecond n) := by
  obtain ⟨α, h⟩ := h
  induction α using WellFoundedLT.induction generalizing u env n with
  | _ α ih =>
    refine .intro fun v hv => ?_
    cases h.skip hv with
    | ev β e n' env' v' h1 h2 h3 h4 =>
      exact .ev (h.post hv) (by rw [nextUser, h1]; rfl) h2 (ih β h3 h4)
    | done n' env' v' h1 h2 h3 => exact .done (h.post hv) (by rw [nextUser, h1]; rfl) h2 (.dead h3)
    | err e n' env' v' h1 h2 => exact .err (h.post hv) (by rw [nextUser, h1]; rfl) h2

theorem halts_combFirst {m : UNode σ} (hp : ∀ v env, P v env → Post v env)
    (h : Ends G P u env n)
    (h' : ∀ v env, (∀ w, G.rel v w → P w env) → Ends G Post v env m) :
    Halts G Post u env (.combFirst n m) := by
  obtain ⟨α, h⟩ := h
  induction α using WellFoundedLT.induction generalizing u env n with
  | _ α ih =>
    refine .intro fun v hv => ?_
    cases h.skip hv with
    | ev β e n' env' v' h1 h2 h3 h4 =>
      exact .ev (hp _ _ (h.post hv)) (by rw [nextUser, h1]; rfl) h2
        (ih β h3 h4)
    | done n' env' v' h1 h2 h3 =>
      exact .ev (hp _ _ (h.post hv)) (by rw [nextUser, h1]; rfl) h2
        (halts_combSecond (h' _ _ h3))
    | err e n' env' v' h1 h2 => exact .err (hp _ _ (h.post hv)) (by rw [nextUser, h1]; rfl) h2

theorem halts_tmpl {x : σ} (hP : ∀ v, G.rel x v → Post v env) (es : List Event) (i : Nat) :
    Halts G Post x env (.tmpl es i) := by
  cases hi : es[i]? with
  | none => exact (Quiet.fixed (fun v => by rw [nextUser, hi]) hP).halts
  | some e =>
    have : i < es.length := (List.getElem?_eq_some_iff.1 hi).1
    exact .intro fun v hv => .ev (hP v hv) (by rw [nextUser, hi]) (G.refl v)
      (halts_tmpl (fun w hw => hP w (G.trans _ _ _ hv hw)) es (i + 1))
termination_by es.length - i

/-- The number of answers that are left is finite. -/
inductive Runs (G : Course σ) (gives : Nat → σ → Prop) (after : σ → σ) : Nat → σ → Prop
  | intro {j x} : (∀ v, G.rel x v → gives j v → Runs G gives after (j + 1) (after v)) →
      Runs G gives after j x

theorem runs_of {gives : Nat → σ → Prop} {after : σ → σ} (h : Settles G.rel gives after) (u : σ) :
    Runs G gives after 0 u := by
  classical
  by_contra hn
  have step : ∀ x : {x : Nat × σ // ¬ Runs G gives after x.1 x.2}, ∃ v, G.rel x.1.2 v ∧
      gives x.1.1 v ∧ ¬ Runs G gives after (x.1.1 + 1) (after v) := by
    rintro ⟨⟨j, x⟩, hx⟩
    by_contra hc
    refine hx (.intro fun v hv hg => ?_)
    by_contra hr
    exact hc ⟨v, hv, hg, hr⟩
  choose pick h1 h2 h3 using step
  let seq : Nat → {x : Nat × σ // ¬ Runs G gives after x.1 x.2} := fun i =>
    Nat.rec ⟨(0, u), hn⟩ (fun _ x => ⟨(x.1.1 + 1, after (pick x)), h3 x⟩) i
  have hseq : ∀ i, (seq i).1.1 = i := by
    intro i
    induction i with
    | zero => rfl
    | succ i ih => exact congrArg (· + 1) ih
  obtain ⟨i, hi⟩ := h (fun i => pick (seq i)) fun i => h1 (seq (i + 1))
  refine hi ?_
  have := h2 (seq i)
  rwa [hseq i] at this

theorem ends_stream {pull : Nat → σ → Except StreamError (Option Event)} {after : σ → σ}
    (ha : ∀ u, G.rel u (after u)) {i : Nat}
    (h : Runs G (fun i u => ∃ e, pull i u = .ok (some e)) after i u)
    (hP : ∀ v, G.rel u v → Post v env) : Ends G Post u env (.stream i pull after) := by
  induction h with
  | @intro i u _ ih =>
    refine .intro fun v hv => ?_
    have hP' : ∀ w, G.rel (after v) w → Post w env := fun w hw =>
      hP w (G.trans _ _ _ hv (G.trans _ _ _ (ha v) hw))
    cases hr : pull i v with
    | error e => exact .err (hP v hv) (by rw [nextUser, hr]) (ha v)
    | ok o =>
      cases o with
      | none => exact .done (hP v hv) (by rw [nextUser, hr]) (ha v) hP'
      | some e => exact .ev (hP v hv) (by rw [nextUser, hr]) (ha v) (ih v hv ⟨e, hr⟩ hP')

theorem ends_content {c : UContent σ} (hc : SettledContent G.rel c)
    (hP : ∀ v, G.rel u v → Post v env) : Ends G Post u env c.intoStream := by
  induction c with
  | data d =>
    refine .intro fun v hv => .ev (hP v hv) (by rw [UContent.intoStream, nextUser]) (G.refl v) ?_
    exact .intro fun w hw => .done (hP w (G.trans _ _ _ hv hw)) (by rw [nextUser]) (G.refl w)
      fun x hx => hP x (G.trans _ _ _ hv (G.trans _ _ _ hw hx))
  | template t => exact (halts_tmpl hP t.events 0).ends
  | stream pull after => exact ends_stream hc.1 (runs_of hc.2 u) hP
  | resultOk c ih => exact (halts_fallStart (ih hc)).ends
  | resultErr e => exact (halts_fallError hP).ends

theorem halts_expand (h : Halts G Post u env n) : Halts G Post u env (.expandStart n) := by
  obtain ⟨k, h⟩ := h
  refine .intro fun v hv => ?_
  cases h.skip hv with
  | ev β e n' env' v' h1 h2 h3 h4 =>
    have hP := fun w hw => h4.post (v := w) hw
    cases e with
    | openingTag t as =>
      exact .ev (h.post hv) (by rw [nextUser, h1]; rfl) h2
        (forwards_expandEmit.halts (HaltsWith.ends ⟨_, h4⟩))
    | selfClosedTag t as =>
      refine .ev (h.post hv) (by rw [nextUser, h1]; rfl) h2 ?_
      exact .intro fun w hw => .ev (hP w hw) (by rw [nextUser]) (G.refl w)
        (halts_dead fun x hx => hP x (G.trans _ _ _ hw hx))
    | voidTag t as => exact .ev (h.post hv) (by rw [nextUser, h1]; rfl) h2 (halts_dead hP)
    | _ => exact .err (h.post hv) (by rw [nextUser, h1]; rfl) h2
  | done n' env' v' h1 h2 h3 => exact .err (h.post hv) (by rw [nextUser, h1]; rfl) h2
  | err e n' env' v' h1 h2 => exact .err (h.post hv) (by rw [nextUser, h1]; rfl) h2

theorem halts_attr {op} (h : Halts G Post u env n) : Halts G Post u env (.attrStart op n) := by
  obtain ⟨k, h⟩ := h
  refine .intro fun v hv => ?_
  cases h.skip hv with
  | ev β e n' env' v' h1 h2 h3 h4 =>
    have hP := fun w hw => h4.post (v := w) hw
    cases e with
    | openingTag t as =>
      exact .ev (h.post hv) (by rw [nextUser, h1]; rfl) h2
        (forwards_attrEmit.halts (HaltsWith.ends ⟨_, h4⟩))
    | selfClosedTag t as => exact .ev (h.post hv) (by rw [nextUser, h1]; rfl) h2 (halts_dead hP)
    | voidTag t as => exact .ev (h.post hv) (by rw [nextUser, h1]; rfl) h2 (halts_dead hP)
    | _ => exact .err (h.post hv) (by rw [nextUser, h1]; rfl) h2
  | done n' env' v' h1 h2 h3 => exact .err (h.post hv) (by rw [nextUser, h1]; rfl) h2
  | err e n' env' v' h1 h2 => exact .err (h.post hv) (by rw [nextUser, h1]; rfl) h2

theorem quiet_peek (h : Quiet G Post u env n) : Quiet G Post u env (.peek n none) := by
  refine ⟨fun w e m => ∃ x, m = .peek x none ∧ Quiet G Post w e x, ⟨n, rfl, h⟩, ?_⟩
  rintro w e _ ⟨x, rfl, h⟩ v hv
  obtain ⟨n', env', v', h1, h2, h3⟩ := h.step hv
  exact ⟨h.post hv, .peek n' none, env', v', by rw [nextUser, skip_of h1 (by simp)]; rfl, h2, n',
    rfl, h3⟩

theorem halts_peek_none (h : HaltIn G Post (Quiet G Post) α u env n) :
    Halts G Post u env (.peek n none) := by
  induction α using WellFoundedLT.induction generalizing u env n with
  | _ α ih =>
    refine .intro fun v hv => ?_
    cases h.skip hv with
    | ev β e n' env' v' h1 h2 h3 h4 =>
      exact .ev (h.post hv) (by rw [nextUser, h1]; rfl) h2 (ih β h3 h4)
    | done n' env' v' h1 h2 h3 =>
      exact .done (h.post hv) (by rw [nextUser, h1]; rfl) h2 (quiet_peek h3)
    | err e n' env' v' h1 h2 => exact .err (h.post hv) (by rw [nextUser, h1]; rfl) h2

theorem halts_peek (h : Halts G Post u env n) (buf : Option Event) :
    Halts G Post u env (.peek n buf) := by
  cases buf with
  | none => exact halts_peek_none h.choose_spec
  | some e =>
    exact .intro fun v hv => .ev (h.post hv) (by rw [nextUser]) (G.refl v)
      (halts_peek_none (h.choose_spec.follow hv))

/-! ## Shared cells -/

/-- The first cell still ends after events of number at most `α`. -/
def CellHalt (G : Course σ) (Post : Cond σ) (α : Ordinal.{0}) : Cond σ := fun u cells =>
  ∃ c env, cells = c :: env ∧ HaltIn G Post (Quiet G Post) α u env c

theorem next_shared {r : Res} {c c' : UNode σ} {env env' v v'}
    (h : nextUser v env c = some (r, c', env', v')) :
    nextUser v (c :: env) .shared = some (r, .shared, c' :: env', v') := by
  rw [nextUser, h]
  rfl

theorem halts_shared {c : UNode σ} (h : HaltIn G Post (Quiet G Post) α u env c) (hα : α ≤ β) :
    Halts G (CellHalt G Post β) u (c :: env) .shared := by
  induction α using WellFoundedLT.induction generalizing u env c with
  | _ α ih =>
    refine .intro fun v hv => ?_
    have hc : CellHalt G Post β v (c :: env) := ⟨_, _, rfl, (h.follow hv).le hα⟩
    cases h.out hv with
    | ev hP h hG h' =>
      obtain ⟨k, hk, h'⟩ := h'
      exact .ev hc (next_shared h) hG (ih k hk h' (hk.le.trans hα))
    | done hP h hG hq =>
      refine .done hc (next_shared h) hG ⟨fun w cells x => x = .shared ∧ ∃ c env,
        cells = c :: env ∧ Quiet G Post w env c, ⟨rfl, _, _, rfl, hq⟩, ?_⟩
      rintro w _ _ ⟨rfl, c, env, rfl, h⟩ x hx
      obtain ⟨n', env', v', h1, h2, h3⟩ := h.step hx
      refine ⟨⟨_, _, rfl, ?_⟩, _, _, _, next_shared h1, h2, rfl, _, _, rfl, h3⟩
      have hq : ∀ y, G.rel x y → Quiet G Post y env c := fun y hy => by
        obtain ⟨I, h4, h5⟩ := h
        exact ⟨fun z e m => I z e m ∨ (G.rel w z ∧ e = env ∧ m = c),
          .inr ⟨G.trans _ _ _ hx hy, rfl, rfl⟩, fun z e m hz a ha => by
            rcases hz with hz | ⟨hz, rfl, rfl⟩
            · obtain ⟨h6, n', env', v', h7, h8, h9⟩ := h5 _ _ _ hz a ha
              exact ⟨h6, n', env', v', h7, h8, .inl h9⟩
            · obtain ⟨h6, n', env', v', h7, h8, h9⟩ := h5 _ _ _ h4 a (G.trans _ _ _ hz ha)
              exact ⟨h6, n', env', v', h7, h8, .inl h9⟩⟩
      refine .intro (fun _ => 0) (fun y hy => (hq y hy).post (G.refl y)) (fun y hy => ?_)
        (fun y n' env' v' hy h4 => ?_) (fun y hy e n' env' v' h4 => ?_)
        fun y e n' env' v' hy h4 => ?_
      all_goals obtain ⟨m', e', w', h5, h6, h7⟩ := (hq y hy).step (G.refl y)
      · exact ⟨_, _, _, _, h5, h6⟩
      all_goals
        rw [h5] at h4
        cases h4
      exact h7
    | err hP h hG => exact .err hc (next_shared h) hG

theorem halts_singleUntil (h : Halts G Post u env n) (tag : Identifier) (level : Nat) :
    Halts G Post u env (.singleUntil tag n level) := by
  obtain ⟨α, h⟩ := h
  induction α using WellFoundedLT.induction generalizing u env n level with
  | _ α ih =>
    refine .intro fun v hv => ?_
    cases h.out hv with
    | ev hP h hG h' =>
      obtain ⟨β, hβ, h'⟩ := h'
      refine .ev hP (by rw [nextUser, h]; rfl) hG ?_
      unfold singleUntilStepUser
      repeat' split
      all_goals first | exact ih β hβ _ h' | exact halts_dead fun w hw => h'.post hw
    | done hP h hG hq =>
      exact .done hP (by rw [nextUser, h]; rfl) hG (.dead fun w hw => hq.post hw)
    | err hP h hG => exact .err hP (by rw [nextUser, h]; rfl) hG

theorem halts_single (h : Halts G Post u env n) (e : Event) :
    Halts G Post u env (.singleStart e n) := by
  refine .intro fun v hv => ?_
  have hP := fun w hw => h.post (v := w) (G.trans _ _ _ hv hw)
  cases e with
  | openingTag t as =>
    exact .ev (h.post hv) (by rw [nextUser]) (G.refl v) (halts_singleUntil (h.follow hv) t 0)
  | selfClosedTag t as => exact .ev (h.post hv) (by rw [nextUser]) (G.refl v) (halts_dead hP)
  | voidTag t as => exact .ev (h.post hv) (by rw [nextUser]) (G.refl v) (halts_dead hP)
  | _ => exact .err (h.post hv) (by rw [nextUser] <;> simp) (G.refl v)

/-- Streams that run a builder on a shared cell. -/
def Hosts (W : UNode σ → UNode σ → UNode σ) (K : UNode σ → UNode σ) : Prop :=
  ∀ u env source stream, nextUser u env (W source stream) =
    (nextUser u (source :: env) stream).bind fun (r, stream, cells, u) =>
      match cells with
      | [] => none
      | source :: env =>
        match r with
        | .done => some (.ev .noop, K source, env, u)
        | .ev e => some (.ev e, W source stream, env, u)
        | .err e => some (.err e, .dead, env, u)

theorem Hosts.halts {W : UNode σ → UNode σ → UNode σ} {K : UNode σ → UNode σ} (hW : Hosts W K)
    (hP : ∀ v cells, P v cells → Post v cells.tail)
    (hK : ∀ v cells, P v cells → ∃ c e, cells = c :: e ∧ Halts G Post v e (K c))
    {cells : UEnv σ} {stream : UNode σ} (h : Halts G P u cells stream) :
    ∀ {source env}, cells = source :: env → Halts G Post u env (W source stream) := by
  obtain ⟨α, h⟩ := h
  induction α using WellFoundedLT.induction generalizing u cells stream with
  | _ α ih =>
    rintro source env rfl
    refine .intro fun v hv => ?_
    cases h.out hv with
    | ev hc h hG h' =>
      obtain ⟨β, hβ, h'⟩ := h'
      obtain ⟨c, e, rfl⟩ := nextUser_cons h
      exact .ev (hP _ _ hc) (by rw [hW, h]; rfl) hG (ih β hβ h' rfl)
    | done hc h hG hq =>
      obtain ⟨c, e, rfl, hr⟩ := hK _ _ (hq.post (G.refl _))
      exact .ev (hP _ _ hc) (by rw [hW, h]; rfl) hG hr
    | err hc h hG =>
      obtain ⟨c, e, rfl⟩ := nextUser_cons h
      exact .err (hP _ _ hc) (by rw [hW, h]; rfl) hG

theorem cellHalt_tail {cells : UEnv σ} (h : CellHalt G Post α u cells) : Post u cells.tail := by
  obtain ⟨c, env, rfl, h⟩ := h
  exact h.post (G.refl _)

/-- The builder keeps streams ending. -/
def KeepsHalts (G : Course σ) (build : UNode σ → UNode σ) : Prop :=
  ∀ Post u env n, Halts G Post u env n → Halts G Post u env (build n)

theorem halts_scan {s : Selector} {direct : Bool} {k' : Kind} {b : Nat → σ → UProg σ .elem k'}
    {g : σ → σ} (hb : ∀ i u, KeepsHalts G (b i u).build) (hg : ∀ u, G.rel u (g u))
    {count level : Nat} {source} (h : HaltIn G Post (Quiet G Post) α u env source) :
    Halts G Post u env (.selScan source s direct k' b g count level) := by
  induction α using WellFoundedLT.induction generalizing u env source count level with
  | _ α ih =>
    refine .intro fun v hv => ?_
    cases h.skip hv with
    | ev β e n' env' v' h1 h2 h3 h4 =>
      by_cases hm : (restrictInclude direct level && s.matches e) = true
      · refine .ev (h.post hv) (e := .noop) (n' := .selActive n' s direct k' b g (count + 1) level
            ((b count v').build (.singleStart e .shared))) (env' := env') (v' := g v')
          (by rw [nextUser, h1]; simp only [bind, Option.bind, hm, if_true])
          (G.trans _ _ _ h2 (hg _)) ?_
        have hW : Hosts (fun source stream => UNode.selActive source s direct k' b g (count + 1)
            level stream) (fun source => .selScan source s direct k' b g (count + 1) level) :=
          fun u env source stream => by rw [nextUser]; rfl
        refine hW.halts (P := CellHalt G Post β) (fun _ _ => cellHalt_tail) ?_
          (hb count v' _ _ _ _ (halts_single (halts_shared (h4.follow (hg _)) le_rfl) e)) rfl
        rintro w _ ⟨c, e, rfl, hc⟩
        exact ⟨c, e, rfl, ih β h3 hc⟩
      · cases hl : levelAdjust level e with
        | ok l =>
          exact .ev (h.post hv) (by rw [nextUser, h1]; simp only [bind, Option.bind, hm, hl]; rfl)
            h2 (ih β h3 h4)
        | error x =>
          exact .err (h.post hv) (by rw [nextUser, h1]; simp only [bind, Option.bind, hm, hl]; rfl)
            h2
    | done n' env' v' h1 h2 h3 =>
      exact .done (h.post hv) (by rw [nextUser, h1]; rfl) h2 (.dead fun w hw => h3.post hw)
    | err e n' env' v' h1 h2 => exact .err (h.post hv) (by rw [nextUser, h1]; rfl) h2

theorem halts_once {s : Selector} {direct : Bool} {k' : Kind} {b : σ → UProg σ .elem k'}
    {g : σ → σ} (hb : ∀ u, KeepsHalts G (b u).build) (hg : ∀ u, G.rel u (g u))
    {level : Nat} {source} (h : HaltIn G Post (Quiet G Post) α u env source) :
    Halts G Post u env (.onceScan source s direct k' b g level) := by
  induction α using WellFoundedLT.induction generalizing u env source level with
  | _ α ih =>
    refine .intro fun v hv => ?_
    cases h.skip hv with
    | ev β e n' env' v' h1 h2 h3 h4 =>
      by_cases hm : (restrictInclude direct level && s.matches e) = true
      · refine .ev (h.post hv) (e := .noop)
          (n' := .onceActive n' ((b v').build (.singleStart e .shared))) (env' := env') (v' := g v')
          (by rw [nextUser, h1]; simp only [bind, Option.bind, hm, if_true])
          (G.trans _ _ _ h2 (hg _)) ?_
        have hW : Hosts (σ := σ) .onceActive .oncePass :=
          fun u env source stream => by rw [nextUser]; rfl
        refine hW.halts (P := CellHalt G Post β) (fun _ _ => cellHalt_tail) ?_
          (hb v' _ _ _ _ (halts_single (halts_shared (h4.follow (hg _)) le_rfl) e)) rfl
        rintro w _ ⟨c, e, rfl, hc⟩
        exact ⟨c, e, rfl, forwards_oncePass.halts (HaltsWith.ends ⟨_, hc⟩)⟩
      · cases hl : levelAdjust level e with
        | ok l =>
          exact .ev (h.post hv) (by rw [nextUser, h1]; simp only [bind, Option.bind, hm, hl]; rfl)
            h2 (ih β h3 h4)
        | error x =>
          exact .err (h.post hv) (by rw [nextUser, h1]; simp only [bind, Option.bind, hm, hl]; rfl)
            h2
    | done n' env' v' h1 h2 h3 =>
      exact .done (h.post hv) (by rw [nextUser, h1]; rfl) h2 (.dead fun w hw => h3.post hw)
    | err e n' env' v' h1 h2 => exact .err (h.post hv) (by rw [nextUser, h1]; rfl) h2

/-! ## Contents -/

/-- The first cell is a peekable stream that still ends. -/
def PeekHalt (G : Course σ) (Post : Cond σ) : Cond σ := fun u cells =>
  ∃ s buf env, cells = .peek s buf :: env ∧ Halts G Post u env s

theorem cur_end {s s' : UNode σ} {env' : UEnv σ} {tag : Identifier} {level : Nat} {v v' : σ}
    (h : nextSkipNoopUser v env s = some (.done, s', env', v')) :
    ∃ e env'', nextUser v (.peek s none :: env) (.curContent tag level) =
      some (.err e, .dead, env'', v') := by
  rw [nextUser]
  by_cases h0 : level = 0
  · subst h0
    simp only [bind, Option.bind, if_true, h]
    exact ⟨_, _, rfl⟩
  · have hp : nextUser v env (.peek s none) = some (.done, .peek s' none, env', v') := by
      rw [nextUser, h]
      rfl
    simp only [bind, Option.bind, h0, if_false, decide_false, Bool.false_and, hp]
    exact ⟨_, _, rfl⟩

theorem cur_err {s s' : UNode σ} {x : StreamError} {env' : UEnv σ} {tag : Identifier} {level : Nat}
    {v v' : σ} (h : nextSkipNoopUser v env s = some (.err x, s', env', v')) :
    ∃ e env'', nextUser v (.peek s none :: env) (.curContent tag level) =
      some (.err e, .dead, env'', v') := by
  rw [nextUser]
  by_cases h0 : level = 0
  · subst h0
    simp only [bind, Option.bind, if_true, h]
    exact ⟨_, _, rfl⟩
  · have hp : nextUser v env (.peek s none) = some (.err x, .peek s' none, env', v') := by
      rw [nextUser, h]
      rfl
    simp only [bind, Option.bind, h0, if_false, decide_false, Bool.false_and, hp]
    exact ⟨_, _, rfl⟩

theorem cur_any {s s' : UNode σ} {e : Event} {env' : UEnv σ} {tag : Identifier} {level : Nat}
    {v v' : σ} (h : nextSkipNoopUser v env s = some (.ev e, s', env', v')) :
    (∃ level', nextUser v (.peek s none :: env) (.curContent tag level) =
        some (.ev e, .curContent tag level', .peek s' none :: env', v')) ∨
      (nextUser v (.peek s none :: env) (.curContent tag level) =
        some (.done, .dead, .peek s' (some e) :: env', v')) ∨
      ∃ x env'', nextUser v (.peek s none :: env) (.curContent tag level) =
        some (.err x, .dead, env'', v') := by
  rw [nextUser]
  by_cases h0 : level = 0
  · subst h0
    have hp : nextUser v' env' (.peek s' (some e)) = some (.ev e, .peek s' none, env', v') := by
      rw [nextUser]
    simp only [bind, Option.bind, if_true, h, hp, decide_true, Bool.true_and]
    by_cases hc : e.isClosingTagFor tag = true
    · rw [if_pos hc]
      exact .inr (.inl rfl)
    · rw [if_neg hc]
      cases levelAdjust 0 e with
      | ok l => exact .inl ⟨l, rfl⟩
      | error x => exact .inr (.inr ⟨_, _, rfl⟩)
  · have hp : nextUser v env (.peek s none) = some (.ev e, .peek s' none, env', v') := by
      rw [nextUser, h]
      rfl
    simp only [bind, Option.bind, h0, if_false, decide_false, Bool.false_and, hp]
    cases levelAdjust level e with
    | ok l => exact .inl ⟨l, rfl⟩
    | error x => exact .inr (.inr ⟨_, _, rfl⟩)

theorem halts_cur {s : UNode σ} (h : HaltIn G Post (Quiet G Post) α u env s) (tag : Identifier)
    (level : Nat) : Halts G (PeekHalt G Post) u (.peek s none :: env) (.curContent tag level) := by
  induction α using WellFoundedLT.induction generalizing u env s level with
  | _ α ih =>
    refine .intro fun v hv => ?_
    have hP : PeekHalt G Post v (.peek s none :: env) := ⟨_, _, _, rfl, _, h.follow hv⟩
    cases h.skip hv with
    | ev β e n' env' v' h1 h2 h3 h4 =>
      rcases cur_any (tag := tag) (level := level) h1 with ⟨l, h5⟩ | h5 | ⟨x, env'', h5⟩
      · exact .ev hP h5 h2 (ih β h3 h4 l)
      · exact .done hP h5 h2 (.dead fun w hw => ⟨_, _, _, rfl, _, h4.follow hw⟩)
      · exact .err hP h5 h2
    | done n' env' v' h1 h2 h3 =>
      obtain ⟨x, env'', h4⟩ := cur_end (tag := tag) (level := level) h1
      exact .err hP h4 h2
    | err e n' env' v' h1 h2 =>
      obtain ⟨x, env'', h4⟩ := cur_err (tag := tag) (level := level) h1
      exact .err hP h4 h2

theorem halts_contClose (h : Halts G Post u env n) (tag : Identifier) :
    Halts G Post u env (.contClose n tag) := by
  obtain ⟨k, h⟩ := h
  refine .intro fun v hv => ?_
  cases h.skip hv with
  | ev β e n' env' v' h1 h2 h3 h4 =>
    cases e with
    | closingTag c =>
      by_cases hc : c.eq tag = true
      · exact .ev (h.post hv) (e := .closingTag c) (n' := .dead) (env' := env')
          (by rw [nextUser, h1]; simp only [bind, Option.bind, hc, if_true]) h2
          (halts_dead fun w hw => h4.post hw)
      · exact .err (h.post hv) (e := .unexpectedClose c) (n' := .dead) (env' := env')
          (by rw [nextUser, h1]; simp only [bind, Option.bind, hc]; rfl) h2
    | _ => exact .err (h.post hv) (by rw [nextUser, h1]; rfl) h2
  | done n' env' v' h1 h2 h3 => exact .err (h.post hv) (by rw [nextUser, h1]; rfl) h2
  | err e n' env' v' h1 h2 => exact .err (h.post hv) (by rw [nextUser, h1]; rfl) h2

theorem halts_contents {k' : Kind} {b : σ → UProg σ .gen k'} {g : σ → σ}
    (hb : ∀ u, KeepsHalts G (b u).build) (hg : ∀ u, G.rel u (g u)) (h : Halts G Post u env n) :
    Halts G Post u env (.contOpen n k' b g) := by
  obtain ⟨k, h⟩ := h
  refine .intro fun v hv => ?_
  cases h.skip hv with
  | ev β e n' env' v' h1 h2 h3 h4 =>
    cases e with
    | openingTag t as =>
      refine .ev (h.post hv) (by rw [nextUser, h1]; rfl) (G.trans _ _ _ h2 (hg _)) ?_
      have hW : Hosts (fun source stream => UNode.contContent source stream t)
          (fun source => UNode.contClose (σ := σ) source t) :=
        fun u env source stream => by rw [nextUser]; rfl
      refine hW.halts (P := PeekHalt G Post) ?_ ?_
        (hb v' _ _ _ _ (halts_cur (h4.follow (hg _)) t 0)) rfl
      · rintro w _ ⟨s, buf, env, rfl, h⟩
        exact h.post (G.refl _)
      · rintro w _ ⟨s, buf, env, rfl, h⟩
        exact ⟨_, _, rfl, halts_contClose (halts_peek h buf) t⟩
    | voidTag t as =>
      exact .ev (h.post hv) (by rw [nextUser, h1]; rfl) h2 (halts_dead fun w hw => h4.post hw)
    | _ => exact .err (h.post hv) (by rw [nextUser, h1]; rfl) h2
  | done n' env' v' h1 h2 h3 => exact .err (h.post hv) (by rw [nextUser, h1]; rfl) h2
  | err e n' env' v' h1 h2 => exact .err (h.post hv) (by rw [nextUser, h1]; rfl) h2

/-! ## Collecting -/

theorem halts_repNext {es : List Event} {k k' : Kind} {more : Nat → σ → Bool}
    {b : Nat → σ → UProg σ k k'} {g : σ → σ} (hb : ∀ i u, KeepsHalts G (b i u).build)
    (hg : ∀ u, G.rel u (g u)) {i : Nat} (h : Runs G (fun i u => more i u = true) g i u) {x : σ}
    (hx : G.rel u x) (hP : ∀ v, G.rel x v → Post v env) :
    Halts G Post x env (.repNext es i k k' more b g) := by
  induction h generalizing env x with
  | @intro i u _ ih =>
    refine .intro fun v hv => ?_
    have hP' : ∀ w, G.rel (g v) w → Post w env := fun w hw =>
      hP w (G.trans _ _ _ hv (G.trans _ _ _ (hg v) hw))
    cases hm : more i v with
    | false => exact .done (hP v hv) (by rw [nextUser, hm]; rfl) (hg v) (.dead hP')
    | true =>
      refine .ev (hP v hv) (by rw [nextUser, hm]; rfl) (hg v) ?_
      obtain ⟨α, hs⟩ := hb i v Post (g v) env _ (halts_tmpl hP' es 0)
      have start := fun w env hw hP => ih v (G.trans _ _ _ hx hv) hm (x := w) (env := env) hw hP
      generalize (b i v).build (.tmpl es 0) = stream at hs
      have emit : ∀ α w env stream, G.rel (g v) w → HaltIn G Post (Quiet G Post) α w env stream →
          Halts G Post w env (.repEmit es (i + 1) k k' more b g stream) := by
        intro α
        induction α using WellFoundedLT.induction with
        | _ α ih =>
          intro w env stream hw h
          refine .intro fun y hy => ?_
          cases h.out hy with
          | ev hP h hG h' =>
            obtain ⟨β, hβ, h'⟩ := h'
            exact .ev hP (by rw [nextUser, h]; rfl) hG
              (ih β hβ _ _ _ (G.trans _ _ _ hw (G.trans _ _ _ hy hG)) h')
          | done hP h hG hq =>
            exact .ev hP (by rw [nextUser, h]; rfl) hG
              (start _ _ (G.trans _ _ _ hw (G.trans _ _ _ hy hG)) fun z hz => hq.post hz)
          | err hP h hG => exact .err hP (by rw [nextUser, h]; rfl) hG
      exact emit α _ _ _ (G.refl _) hs

/-- Every chain of Api calls whose iterators and streams end makes streams that end. -/
theorem halts_build {a k : Kind} (p : UProg σ a k) (hp : Settled G.rel p) :
    KeepsHalts G p.build := by
  induction p with
  | src => exact fun _ _ _ _ h => h
  | forget p ih => exact ih hp
  | apply p q ih1 ih2 => exact fun _ _ _ _ h => ih2 hp.2 _ _ _ _ (ih1 hp.1 _ _ _ _ h)
  | fallOk p ih => exact fun _ _ _ _ h => halts_fallStart (ih hp _ _ _ _ h).ends
  | fallErr e => exact fun _ _ _ _ h => halts_fallError fun v hv => h.post hv
  | selectRaw p s direct b g ih ihb =>
    intro _ _ _ _ h
    obtain ⟨k, h⟩ := ih hp.1 _ _ _ _ h
    exact halts_scan (fun i u => ihb i u (hp.2.2 i u)) hp.2.1 h
  | selectOnceRaw p s direct b g ih ihb =>
    intro _ _ _ _ h
    obtain ⟨k, h⟩ := ih hp.1 _ _ _ _ h
    exact halts_once (fun u => ihb u (hp.2.2 u)) hp.2.1 h
  | remove p ih => exact fun _ _ _ _ h => halts_remove (ih hp _ _ _ _ h)
  | prepend p c ih =>
    intro Post u env n h
    refine halts_combFirst (P := fun w e => G.rel u w ∧ e = env) ?_
      (ends_content (Post := fun w e => G.rel u w ∧ e = env) hp.2 fun v hv => ⟨hv, rfl⟩) ?_
    · rintro v _ ⟨hv, rfl⟩
      exact h.post hv
    · intro v _ hv
      obtain ⟨hw, rfl⟩ := hv v (G.refl v)
      exact (ih hp.1 _ _ _ _ (h.follow hw)).ends
  | append p c ih =>
    intro Post u env n h
    exact halts_combFirst (fun _ _ h => h) (ih hp.1 _ _ _ _ h).ends
      fun v env h => ends_content hp.2 h
  | «repeat» p m b g ih ihb =>
    intro Post u env n h
    refine .intro fun v hv => ?_
    obtain ⟨α, hr⟩ := ih hp.1 _ _ _ _ h
    obtain ⟨r, env', v', hc, hG, hP⟩ := hr.collect hv
    rw [UProg.build]
    cases r with
    | error e => exact .err (h.post hv) (by rw [nextUser, hc]; rfl) hG
    | ok es =>
      exact .ev (h.post hv) (by rw [nextUser, hc]; rfl) hG
        (halts_repNext (fun i u => ihb i u (hp.2.2.1 i u)) hp.2.1 (runs_of hp.2.2.2 v') (G.refl _)
          (hP es rfl))
  | orElse p m r q g ih ihr ihq =>
    intro Post u env n h
    refine .intro fun v hv => ?_
    have hr := (ih hp.1 _ _ _ _ h).follow (G.trans _ _ _ hv (hp.2.1 v))
    cases hm : m v with
    | true =>
      exact .ev (h.post hv) (by rw [UProg.build, nextUser, hm]; rfl) (hp.2.1 v)
        (forwards_orElseRun.halts (ihr v (hp.2.2.1 v) _ _ _ _ hr).ends)
    | false =>
      exact .ev (h.post hv) (by rw [UProg.build, nextUser, hm]; rfl) (hp.2.1 v)
        (forwards_orElseRun.halts (ihq v (hp.2.2.2 v) _ _ _ _ hr).ends)
  | applyTemplate p f g ih =>
    intro Post u env n h
    refine .intro fun v hv => ?_
    obtain ⟨α, hr⟩ := ih hp.1 _ _ _ _ h
    obtain ⟨r, env', v', hc, hG, hP⟩ := hr.collect hv
    rw [UProg.build]
    cases r with
    | error e => exact .err (h.post hv) (by rw [nextUser, hc]; rfl) hG
    | ok es =>
      have hG' := G.trans _ _ _ hG (hp.2 v' ⟨es⟩)
      cases hf : f v' ⟨es⟩ with
      | error e =>
        exact .err (h.post hv) (e := e) (n' := .dead) (env' := env') (v' := g v' ⟨es⟩)
          (by rw [nextUser, hc]; simp only [bind, Option.bind, hf]) hG'
      | ok t =>
        refine .ev (h.post hv) (e := .noop) (n' := .applyEmit (.tmpl t.events 0)) (env' := env')
          (v' := g v' ⟨es⟩) (by rw [nextUser, hc]; simp only [bind, Option.bind, hf]) hG' ?_
        exact forwards_applyEmit.halts (halts_tmpl (fun w hw => hP es rfl w
          (G.trans _ _ _ (hp.2 v' ⟨es⟩) hw)) t.events 0).ends
  | contents p b g ih ihb =>
    exact fun _ _ _ _ h => halts_contents (fun u => ihb u (hp.2.2 u)) hp.2.1
      (halts_expand (ih hp.1 _ _ _ _ h))
  | attr p op ih => exact fun _ _ _ _ h => halts_attr (ih hp _ _ _ _ h)

end Halting

/-- Transforms whose iterators and streams end do end. -/
theorem transformUser_ends {k : Kind} (G : σ → σ → Prop) (hr : ∀ u, G u u)
    (ht : ∀ u v w, G u v → G v w → G u w) (t : Template) (p : UProg σ .gen k) (hp : Settled G p)
    (u : σ) : ∃ r u', t.transformUser p u = some (r, u') ∧ G u u' := by
  let C : Halting.Course σ := ⟨G, hr, ht⟩
  obtain ⟨α, h⟩ := Halting.halts_build (G := C) p hp (fun _ _ => True) u [] _
    (Halting.halts_tmpl (fun _ _ => trivial) t.events 0)
  obtain ⟨r, env, v, hc, hG, -⟩ := h.collect (hr u)
  rw [Template.transformUser]
  simp only [bind, hc, Option.bind_some]
  cases r <;> exact ⟨_, _, rfl, hG⟩

end Fuser
