import Verif.Proof.Transform

/-!
# A stream can be replaced by a template of its events

The runs of a chain of calls on a stream and on a template with the same events are compared: a weak
simulation, since the stream may give placeholders in between.
-/

namespace Fuser

open Spec

/-! ## The number of cells -/

set_option maxHeartbeats 2000000 in
theorem machine_length :
    (∀ env n p, next env n = some p → p.2.2.length = env.length) ∧
    (∀ env n p, collect env n = some p → p.2.length = env.length) ∧
    (∀ env n p, nextSkipNoop env n = some p → p.2.2.length = env.length) ∧
    (∀ env n p, drain env n = some p → p.2.2.length = env.length) := by
  refine next.mutual_partial_correctness
    (fun env _ p => p.2.2.length = env.length) (fun env _ p => p.2.length = env.length)
    (fun env _ p => p.2.2.length = env.length) (fun env _ p => p.2.2.length = env.length)
    ?_ ?_ ?_ ?_
  · intro next' collect skip drain h1 h2 h3 h4 env n p h
    cases n
    case curContent tag level =>
      rcases env with _ | ⟨cell, env⟩
      · cases h
      cases cell
      case peek s buffered =>
        simp only [bind] at h
        rw [Option.bind_eq_some_iff] at h
        obtain ⟨⟨r, s₁, b₁, env₁⟩, hx, h⟩ := h
        have hl : env₁.length = env.length := by
          by_cases hl : level = 0
          · rw [if_pos hl] at hx
            cases buffered with
            | some e => cases hx; rfl
            | none =>
              simp only [Option.bind_eq_some_iff] at hx
              obtain ⟨⟨r', s₂, env₂⟩, hy, hx⟩ := hx
              have := h3 _ _ _ hy
              cases r' <;> cases hx <;> exact this
          · rw [if_neg hl] at hx
            cases hx
            rfl
        cases r with
        | done => cases h; simp only [List.length_cons, hl]
        | err e => cases h; simp only [List.length_cons, hl]
        | ev e =>
          simp only at h
          split at h
          · cases h; simp only [List.length_cons, hl]
          · rw [Option.bind_eq_some_iff] at h
            obtain ⟨⟨r, cell, env₂⟩, hy, h⟩ := h
            have h2 := h1 _ _ _ hy
            simp only at h2
            cases r with
            | done => cases h; simp only [List.length_cons, hl, h2]
            | err e => cases h; simp only [List.length_cons, hl, h2]
            | ev e =>
              cases ha : levelAdjust level e <;> simp only [ha] at h <;> cases h <;>
                simp only [List.length_cons, hl, h2]
      all_goals cases h
    case shared =>
      cases env with
      | nil => cases h
      | cons cell env =>
        simp only [bind, Option.bind_eq_some_iff] at h
        obtain ⟨⟨r, s₁, env₁⟩, hx, h⟩ := h
        have := h1 _ _ _ hx
        cases h
        simp only [List.length_cons]
        simp only at this
        omega
    case selActive | onceActive | contContent =>
      simp only [bind, Option.bind_eq_some_iff] at h
      obtain ⟨⟨r, s₁, cells⟩, hx, h⟩ := h
      have := h1 _ _ _ hx
      cases cells with
      | nil => cases h
      | cons c cells =>
        simp only [List.length_cons, Nat.add_right_cancel_iff] at this
        cases r <;> cases h <;> exact this
    case fallEmit | expandEmit | attrEmit | orElseRun | applyEmit | oncePass | singleUntil | repEmit =>
      simp only [bind, Option.bind_eq_some_iff] at h
      obtain ⟨⟨r, s₁, env₁⟩, hx, h⟩ := h
      have := h1 _ _ _ hx
      cases r <;> cases h <;> exact this
    case expandStart | attrStart | contOpen =>
      simp only [bind, Option.bind_eq_some_iff] at h
      obtain ⟨⟨r, s₁, env₁⟩, hx, h⟩ := h
      have := h3 _ _ _ hx
      rcases r with e | _ | _
      · cases e <;> cases h <;> exact this
      all_goals cases h; exact this
    case combFirst | combSecond =>
      simp only [bind, Option.bind_eq_some_iff] at h
      obtain ⟨⟨r, s₁, env₁⟩, hx, h⟩ := h
      have := h3 _ _ _ hx
      cases r <;> cases h <;> exact this
    case contClose =>
      simp only [bind, Option.bind_eq_some_iff] at h
      obtain ⟨⟨r, s₁, env₁⟩, hx, h⟩ := h
      have := h3 _ _ _ hx
      rcases r with e | _ | _
      · cases e
        case closingTag =>
          simp only at h
          split at h <;> cases h <;> exact this
        all_goals cases h; exact this
      all_goals cases h; exact this
    case peek s b =>
      cases b with
      | some e => cases h; rfl
      | none =>
        simp only [bind, Option.bind_eq_some_iff] at h
        obtain ⟨⟨r, s₁, env₁⟩, hx, h⟩ := h
        have := h3 _ _ _ hx
        cases h
        exact this
    case remove =>
      simp only [bind, Option.bind_eq_some_iff] at h
      obtain ⟨⟨r, s₁, env₁⟩, hx, h⟩ := h
      have := h4 _ _ _ hx
      cases h
      exact this
    case repCollect =>
      simp only [bind, Option.bind_eq_some_iff] at h
      obtain ⟨⟨r, env₁⟩, hx, h⟩ := h
      have := h2 _ _ _ hx
      cases r <;> cases h <;> exact this
    case applyCollect s g =>
      simp only [bind, Option.bind_eq_some_iff] at h
      obtain ⟨⟨r, env₁⟩, hx, h⟩ := h
      have := h2 _ _ _ hx
      cases r with
      | error e => cases h; exact this
      | ok es => cases hg : g ⟨es⟩ <;> simp only [hg] at h <;> cases h <;> exact this
    case selScan src s direct k b count level =>
      simp only [bind, Option.bind_eq_some_iff] at h
      obtain ⟨⟨r, s₁, env₁⟩, hx, h⟩ := h
      have := h3 _ _ _ hx
      cases r with
      | ev e =>
        simp only at h
        split at h
        · cases h; exact this
        · cases hl : levelAdjust level e <;> simp only [hl] at h <;> cases h <;> exact this
      | done => cases h; exact this
      | err e => cases h; exact this
    case onceScan src s direct k b level =>
      simp only [bind, Option.bind_eq_some_iff] at h
      obtain ⟨⟨r, s₁, env₁⟩, hx, h⟩ := h
      have := h3 _ _ _ hx
      cases r with
      | ev e =>
        simp only at h
        split at h
        · cases h; exact this
        · cases hl : levelAdjust level e <;> simp only [hl] at h <;> cases h <;> exact this
      | done => cases h; exact this
      | err e => cases h; exact this
    case tmpl es i => cases hi : es[i]? <;> simp only [hi] at h <;> cases h <;> rfl
    case once d => cases d <;> cases h <;> rfl
    case script rs => rcases rs with _ | ⟨_ | _ | _, _⟩ <;> cases h <;> rfl
    case singleStart e s => cases e <;> cases h <;> rfl
    case repNext => simp only at h; split at h <;> cases h <;> rfl
    case orElseStart => simp only at h; split at h <;> cases h <;> rfl
    all_goals cases h; rfl
  · intro collect' skip h2 h3 env n p h
    simp only [bind, Option.bind_eq_some_iff] at h
    obtain ⟨⟨r, s₁, env₁⟩, hx, h⟩ := h
    have := h3 _ _ _ hx
    cases r with
    | done => cases h; exact this
    | err e => cases h; exact this
    | ev e =>
      simp only [Option.bind_eq_some_iff] at h
      obtain ⟨⟨r, env₂⟩, hy, h⟩ := h
      have := h2 _ _ _ hy
      simp only at *
      cases r <;> cases h <;> simp only <;> omega
  · intro next' skip h1 h3 env n p h
    simp only [bind, Option.bind_eq_some_iff] at h
    obtain ⟨⟨r, s₁, env₁⟩, hx, h⟩ := h
    have := h1 _ _ _ hx
    rcases r with e | _ | _
    · cases e
      case noop =>
        have := h3 _ _ _ h
        simp only at *
        omega
      all_goals cases h; exact this
    all_goals cases h; exact this
  · intro next' drain' h1 h4 env n p h
    simp only [bind, Option.bind_eq_some_iff] at h
    obtain ⟨⟨r, s₁, env₁⟩, hx, h⟩ := h
    have := h1 _ _ _ hx
    cases r with
    | done => cases h; exact this
    | err e => cases h; exact this
    | ev e =>
      have := h4 _ _ _ h
      simp only at *
      omega

/-! ## Pulls after placeholders -/

/-- Pulling, perhaps with placeholders before; for a placeholder perhaps not pulling. -/
inductive Weak : Env → Node → Res → Node → Env → Prop
  | none {env n} : Weak env n (.ev .noop) n env
  | skip {env n n₁ env₁ r n₂ env₂} : next env n = some (.ev .noop, n₁, env₁) →
      Weak env₁ n₁ r n₂ env₂ → Weak env n r n₂ env₂
  | last {env n r n₁ env₁} : next env n = some (r, n₁, env₁) → Weak env n r n₁ env₁

theorem Weak.length {env n r n' env'} (h : Weak env n r n' env') : env'.length = env.length := by
  induction h with
  | none => rfl
  | skip h _ ih => rw [ih]; exact machine_length.1 _ _ _ h
  | last h => exact machine_length.1 _ _ _ h

theorem Weak.skipped {env n r n' env'} (h : Weak env n r n' env') (hr : r ≠ .ev .noop) :
    nextSkipNoop env n = some (r, n', env') := by
  induction h with
  | none => exact absurd rfl hr
  | skip h _ ih => rw [nextSkipNoop_noop h, ih hr]
  | last h => exact nextSkipNoop_of h hr

theorem Weak.of_skipped_noop {env n n' env'} (h : Weak env n (.ev .noop) n' env') :
    nextSkipNoop env n = nextSkipNoop env' n' := by
  generalize hr : Res.ev .noop = r at h
  induction h with
  | none => rfl
  | skip h _ ih => rw [nextSkipNoop_noop h, ih hr]
  | last h => subst hr; exact nextSkipNoop_noop h

theorem Weak.drained {env n e n' env'} (h : Weak env n (.ev e) n' env') :
    drain env n = drain env' n' := by
  generalize hr : Res.ev e = r at h
  induction h with
  | none => rfl
  | skip h _ ih =>
    rw [drain, h]
    exact ih hr
  | last h =>
    subst hr
    rw [drain, h]
    rfl

theorem Weak.drained_end {env n r n' env'} (h : Weak env n r n' env') (hr : ∀ e, r ≠ .ev e) :
    drain env n = some (r, n', env') := by
  induction h with
  | none => exact absurd rfl (hr _)
  | skip h _ ih =>
    rw [drain]
    simp only [bind, h, Option.bind_some]
    exact ih hr
  | last h =>
    rw [drain]
    simp only [bind, h, Option.bind_some]

/-- The result while a host is active: its end is not seen. -/
def Res.hosted : Res → Res
  | .ev e => .ev e
  | .done => .ev .noop
  | .err e => .err e

/-- The state after an event, after the end and after an error. -/
def Res.after (event : Event → Node) (done : Node) : Res → Node
  | .ev e => event e
  | .done => done
  | .err _ => .dead

/-- Lifting through streams that forward. -/
theorem Weak.lift {C : Node → Node} {env n r n' env'} (h : Weak env n r n' env')
    (hC : ∀ env s s' env', next env s = some (.ev .noop, s', env') →
      next env (C s) = some (.ev .noop, C s', env'))
    {r' m} (hl : ∀ env s, next env s = some (r, n', env') → Weak env (C s) r' m env')
    (hn : r = .ev .noop → Weak env' (C n') r' m env') : Weak env (C n) r' m env' := by
  induction h with
  | none => exact hn rfl
  | skip h _ ih => exact .skip (hC _ _ _ _ h) (ih hl hn)
  | last h => exact hl _ _ h

theorem Forwards.weak {C : Node → Node} (hC : Forwards C) {env n r n' env'}
    (h : Weak env n r n' env') :
    Weak env (C n) r (r.after (fun _ => C n') .dead) env' := by
  refine h.lift (C := C) (fun env s s' env' h => by rw [hC, h]; rfl) (fun env s h => ?_)
    (fun hr => ?_)
  · refine .last ?_
    rw [hC, h]
    cases r <;> rfl
  · subst hr
    exact .none

theorem weak_shared {cell cell' : Node} {r env env'} (h : Weak env cell r cell' env') :
    Weak (cell :: env) .shared r .shared (cell' :: env') := by
  induction h with
  | none => exact .none
  | skip h _ ih =>
    refine .skip ?_ ih
    rw [next.eq_def]
    simp only [bind, h, Option.bind_some]
  | last h =>
    refine .last ?_
    rw [next.eq_def]
    simp only [bind, h, Option.bind_some]

theorem weak_single {tag : Identifier} {level : Nat} {env n r n' env'}
    (h : Weak env n r n' env') :
    Weak env (.singleUntil tag n level) r
      (r.after (fun e => singleUntilStep tag level e n') .dead) env' := by
  have hn : ∀ s, singleUntilStep tag level .noop s = .singleUntil tag s level := fun _ => rfl
  refine h.lift (C := fun s => .singleUntil tag s level) (fun env s s' env' h => ?_)
    (fun env s h => .last ?_) (fun hr => ?_)
  · rw [next]
    simp only [bind, h, Option.bind_some, hn]
  · rw [next]
    simp only [bind, h, Option.bind_some]
    cases r <;> rfl
  · subst hr
    rw [Res.after, hn]
    exact .none

theorem weak_repEmit {es : List Event} {i m : Nat} {k k' : Kind} {b : Nat → Prog k k'} {env n r n' env'}
    (h : Weak env n r n' env') :
    Weak env (.repEmit es i m k k' b n) r.hosted
      (r.after (fun _ => .repEmit es i m k k' b n') (.repNext es i m k k' b)) env' := by
  refine h.lift (C := fun s => .repEmit es i m k k' b s) (fun env s s' env' h => ?_)
    (fun env s h => .last ?_) (fun hr => ?_)
  · rw [next]
    simp only [bind, h, Option.bind_some]
  · rw [next]
    simp only [bind, h, Option.bind_some]
    cases r <;> rfl
  · subst hr
    exact .none

/-- Lifting through streams that own a cell. -/
theorem Hosts.weak {H : Node → Node → Node} {K : Node → Node} (hH : Hosts H K) {env src n r n' cells}
    (h : Weak (src :: env) n r n' cells) :
    ∃ src' env', cells = src' :: env' ∧
      Weak env (H src n) r.hosted (r.after (fun _ => H src' n') (K src')) env' := by
  generalize hc : src :: env = cells₀ at h
  induction h generalizing src env with
  | none => subst hc; exact ⟨_, _, rfl, .none⟩
  | @skip cells₀ n n₁ cells₁ r n₂ cells₂ h _ ih =>
    subst hc
    have hl := machine_length.1 _ _ _ h
    match cells₁, hl with
    | src₁ :: env₁, _ =>
      obtain ⟨src', env', rfl, hw⟩ := ih rfl
      refine ⟨_, _, rfl, .skip ?_ hw⟩
      rw [hH, h]
      rfl
  | @last cells₀ n r n₁ cells₁ h =>
    subst hc
    have hl := machine_length.1 _ _ _ h
    match cells₁, hl with
    | src₁ :: env₁, _ =>
      refine ⟨_, _, rfl, .last ?_⟩
      rw [hH, h]
      cases r <;> rfl

/-! ## Streams in place of templates -/

/-- With the cells `T`, which stay, the stream gives these events and then ends for good. -/
inductive Yielding (T : Env) : List Event → Node → Prop
  | ev {n n' e es} : next T n = some (.ev e, n', T) → e ≠ .noop → Yielding T es n' →
      Yielding T (e :: es) n
  | noop {n n' es} : next T n = some (.ev .noop, n', T) → Yielding T es n' → Yielding T es n
  | quiet {n} : Quiet (· = T) T n → Yielding T [] n

theorem Yielding.weak {T : Env} {es : List Event} {n : Node} (h : Yielding T es n) :
    (es = [] → ∃ n', Weak T n .done n' T ∧ Yielding T [] n') ∧
    ∀ e es', es = e :: es' → e ≠ .noop ∧ ∃ n', Weak T n (.ev e) n' T ∧ Yielding T es' n' := by
  induction h with
  | ev h he hy _ =>
    refine ⟨(nomatch ·), fun e es' h' => ?_⟩
    cases h'
    exact ⟨he, _, .last h, hy⟩
  | noop h _ ih =>
    refine ⟨fun h' => ?_, fun e es' h' => ?_⟩
    · obtain ⟨n', hw, hy⟩ := ih.1 h'
      exact ⟨n', .skip h hw, hy⟩
    · obtain ⟨he, n', hw, hy⟩ := ih.2 e es' h'
      exact ⟨he, n', .skip h hw, hy⟩
  | quiet h =>
    refine ⟨fun _ => ?_, (nomatch · , ·, ·)⟩
    obtain ⟨n', env', hs, hq⟩ := h.step
    have := hq.post
    subst this
    exact ⟨n', .last hs, .quiet hq⟩

theorem yielding_of_halt {T : Env} {k : Nat} {n : Node} {env : Env} (h : HaltIn (· = T) k env n) :
    ∀ {es : List Event} {env' : Env}, collect env n = some (.ok es, env') → Yielding T es n := by
  induction h with
  | @ev k env n n' env' e hP h hh ih =>
    subst hP
    have he' := hh.post
    subst he'
    intro es env' hc
    by_cases he : e = .noop
    · subst he
      refine .noop h (ih (env' := env') ?_)
      rw [collect, nextSkipNoop_noop h] at hc
      rw [collect]
      exact hc
    · rw [collect, nextSkipNoop_of h (by simpa using he)] at hc
      simp only [bind, Option.bind_some, Option.bind_eq_some_iff] at hc
      obtain ⟨⟨r, env₂⟩, hx, hc⟩ := hc
      cases r with
      | error e => cases hc
      | ok es' =>
        cases hc
        exact .ev h he (ih hx)
  | quiet h =>
    intro es env' hc
    have := h.post
    subst this
    obtain ⟨n', env₁, hs, hq⟩ := h.step
    rw [collect, nextSkipNoop_of hs (by simp)] at hc
    cases hc
    exact .quiet h
  | err hP h =>
    intro es env' hc
    rw [collect, nextSkipNoop_of h (by simp)] at hc
    cases hc

/-- `Stands T d n m`: `m`, with `d` cells and `T` around, gives what `n` gives, where in place of the template
at the bottom there is another stream. -/
inductive Stands (T : Env) : Nat → Node → Node → Prop
  | source {es i m} : Yielding T (es.drop i) m → Stands T 0 (.tmpl es i) m
  | dead {d} : Stands T d .dead .dead
  | shared {d} : Stands T d .shared .shared
  | tmpl {d es i} : Stands T d (.tmpl es i) (.tmpl es i)
  | once {d x} : Stands T d (.once x) (.once x)
  | script {d rs} : Stands T d (.script rs) (.script rs)
  | fallStart {d s s'} : Stands T d s s' → Stands T d (.fallStart s) (.fallStart s')
  | fallError {d e} : Stands T d (.fallError e) (.fallError e)
  | fallEmit {d s s'} : Stands T d s s' → Stands T d (.fallEmit s) (.fallEmit s')
  | expandStart {d s s'} : Stands T d s s' → Stands T d (.expandStart s) (.expandStart s')
  | expandEmit {d s s'} : Stands T d s s' → Stands T d (.expandEmit s) (.expandEmit s')
  | expandClose {d t} : Stands T d (.expandClose t) (.expandClose t)
  | peek {d s s' b} : Stands T d s s' → Stands T d (.peek s b) (.peek s' b)
  | combFirst {d s s' t t'} : Stands T d s s' → Stands T d t t' →
      Stands T d (.combFirst s t) (.combFirst s' t')
  | combSecond {d s s'} : Stands T d s s' → Stands T d (.combSecond s) (.combSecond s')
  | singleStart {d e s s'} : Stands T d s s' → Stands T d (.singleStart e s) (.singleStart e s')
  | singleUntil {d t s s' l} : Stands T d s s' → Stands T d (.singleUntil t s l) (.singleUntil t s' l)
  | selScan {d src src' s dir k b n l} : Stands T d src src' →
      Stands T d (.selScan src s dir k b n l) (.selScan src' s dir k b n l)
  | selActive {d src src' s dir k b n l st st'} : Stands T d src src' → Stands T (d + 1) st st' →
      Stands T d (.selActive src s dir k b n l st) (.selActive src' s dir k b n l st')
  | onceScan {d src src' s dir k b l} : Stands T d src src' →
      Stands T d (.onceScan src s dir k b l) (.onceScan src' s dir k b l)
  | onceActive {d src src' st st'} : Stands T d src src' → Stands T (d + 1) st st' →
      Stands T d (.onceActive src st) (.onceActive src' st')
  | oncePass {d src src'} : Stands T d src src' → Stands T d (.oncePass src) (.oncePass src')
  | contOpen {d s s' k b} : Stands T d s s' → Stands T d (.contOpen s k b) (.contOpen s' k b)
  | contContent {d src src' st st' t} : Stands T d src src' → Stands T (d + 1) st st' →
      Stands T d (.contContent src st t) (.contContent src' st' t)
  | contClose {d src src' t} : Stands T d src src' → Stands T d (.contClose src t) (.contClose src' t)
  | curContent {d t l} : Stands T d (.curContent t l) (.curContent t l)
  | attrStart {d op s s'} : Stands T d s s' → Stands T d (.attrStart op s) (.attrStart op s')
  | attrEmit {d s s'} : Stands T d s s' → Stands T d (.attrEmit s) (.attrEmit s')
  | remove {d s s'} : Stands T d s s' → Stands T d (.remove s) (.remove s')
  | repCollect {d s s' n k k' b} : Stands T d s s' →
      Stands T d (.repCollect s n k k' b) (.repCollect s' n k k' b)
  | repNext {d es i n k k' b} : Stands T d (.repNext es i n k k' b) (.repNext es i n k k' b)
  | repEmit {d es i n k k' b s s'} : Stands T d s s' →
      Stands T d (.repEmit es i n k k' b s) (.repEmit es i n k k' b s')
  | orElseStart {d n r r' s s'} : Stands T d r r' → Stands T d s s' →
      Stands T d (.orElseStart n r s) (.orElseStart n r' s')
  | orElseRun {d s s'} : Stands T d s s' → Stands T d (.orElseRun s) (.orElseRun s')
  | applyCollect {d s s' g} : Stands T d s s' → Stands T d (.applyCollect s g) (.applyCollect s' g)
  | applyEmit {d s s'} : Stands T d s s' → Stands T d (.applyEmit s) (.applyEmit s')

theorem Stands.of_peek {T d s b m} (h : Stands T d (.peek s b) m) :
    ∃ s', m = .peek s' b ∧ Stands T d s s' := by
  cases h with
  | peek h => exact ⟨_, rfl, h⟩

theorem stands_content {T : Env} {d : Nat} (c : Content) : Stands T d c.intoStream c.intoStream := by
  induction c with
  | data x => exact .once
  | template t => exact .tmpl
  | script rs => exact .script
  | resultOk c ih => exact .fallStart ih
  | resultErr e => exact .fallError

theorem Stands.build {a k : Kind} {T : Env} (p : Prog a k) : ∀ {d : Nat} {n n' : Node}, Stands T d n n' →
    Stands T d (p.build n) (p.build n') := by
  induction p with
  | src => exact id
  | forget p ih => exact ih
  | apply p q ih ih' => exact fun h => ih' (ih h)
  | fallOk p ih => exact fun h => .fallStart (ih h)
  | fallErr e => exact fun _ => .fallError
  | selectRaw p s d b ih _ => exact fun h => .selScan (ih h)
  | selectOnceRaw p s d b ih _ => exact fun h => .onceScan (ih h)
  | remove p ih => exact fun h => .remove (ih h)
  | prepend p c ih => exact fun h => .combFirst (stands_content c) (ih h)
  | append p c ih => exact fun h => .combFirst (ih h) (stands_content c)
  | «repeat» p n b ih _ => exact fun h => .repCollect (ih h)
  | orElse p n r q ih ih' ih'' => exact fun h => .orElseStart (ih' (ih h)) (ih'' (ih h))
  | applyTemplate p g ih => exact fun h => .applyCollect (ih h)
  | contents p b ih _ => exact fun h => .contOpen (.expandStart (ih h))
  | attr p op ih => exact fun h => .attrStart (ih h)

/-- The same for cells. -/
inductive StandsAll (T : Env) : Env → Env → Prop
  | nil : StandsAll T [] T
  | cons {n m env env'} : Stands T env.length n m → StandsAll T env env' →
      StandsAll T (n :: env) (m :: env')

theorem StandsAll.length {T env env'} (h : StandsAll T env env') :
    env.length + T.length = env'.length := by
  induction h with
  | nil => simp
  | cons _ _ ih => rw [List.length_cons, List.length_cons, ← ih]; omega

/-- A pull of `n` that gives `p` is matched by every stream that stands for `n`. -/
def Follows (T env : Env) (n : Node) (p : Pull) : Prop :=
  ∀ env' m, StandsAll T env env' → Stands T env.length n m →
    ∃ m' cells, Weak env' m p.1 m' cells ∧ StandsAll T p.2.2 cells ∧ Stands T env.length p.2.1 m'

/-- The same without placeholders. -/
def FollowsIn (T : Env) (run : Env → Node → Option Pull) (env : Env) (n : Node) (p : Pull) : Prop :=
  ∀ env' m, StandsAll T env env' → Stands T env.length n m →
    ∃ m' cells, run env' m = some (p.1, m', cells) ∧ StandsAll T p.2.2 cells ∧
      Stands T env.length p.2.1 m'

/-- The same for collecting. -/
def FollowsCollect (T env : Env) (n : Node) (p : Except StreamError (List Event) × Env) : Prop :=
  ∀ env' m, StandsAll T env env' → Stands T env.length n m →
    ∃ cells, collect env' m = some (p.1, cells) ∧ StandsAll T p.2 cells

theorem len_of {T env cells env' env₁ : Env} (h1 : StandsAll T env env') (h2 : cells.length = env'.length)
    (h3 : StandsAll T env₁ cells) : env₁.length = env.length := by
  have := h3.length
  have := h1.length
  omega

theorem bind_of {α β : Type} {x : Option α} {g : α → Option β} {P : Option β → Prop}
    (a : α) (h : x = some a) (hp : P (g a)) : P (x.bind g) := by
  rw [h]
  exact hp

set_option maxHeartbeats 4000000 in
theorem machine_stands (T : Env) :
    (∀ env n p, next env n = some p → Follows T env n p ∧
      ∀ s b, n = .peek s b → FollowsIn T next env n p) ∧
    (∀ env n p, collect env n = some p → FollowsCollect T env n p) ∧
    (∀ env n p, nextSkipNoop env n = some p → FollowsIn T nextSkipNoop env n p ∧ p.1 ≠ .ev .noop) ∧
    (∀ env n p, drain env n = some p → FollowsIn T drain env n p) := by
  refine next.mutual_partial_correctness
    (fun env n p => Follows T env n p ∧ ∀ s b, n = .peek s b → FollowsIn T next env n p)
    (FollowsCollect T)
    (fun env n p => FollowsIn T nextSkipNoop env n p ∧ p.1 ≠ .ev .noop)
    (FollowsIn T drain) ?_ ?_ ?_ ?_
  · intro next' collect skip drain h1 h2 h3 h4 env n p h
    have strong : ∀ s b, n = .peek s b → FollowsIn T next env n p := by
      rintro s b rfl env' m henv hst
      obtain ⟨s', rfl, hs⟩ := hst.of_peek
      · rw [next.eq_def]
        cases b with
        | some e => cases h; exact ⟨_, _, rfl, henv, .peek hs⟩
        | none =>
          simp only [bind, Option.bind_eq_some_iff] at h
          obtain ⟨⟨r, s₁, env₁⟩, hx, h⟩ := h
          obtain ⟨m, cells, hrun, he, hm⟩ := (h3 _ _ _ hx).1 _ _ henv hs
          simp only [bind, hrun, Option.bind_some]
          cases h
          exact ⟨_, _, rfl, he, .peek hm⟩
    refine ⟨?_, strong⟩
    intro env' m henv hst
    generalize hd : env.length = d at hst ⊢
    cases hst
    case source es i hy =>
      have hnil := List.eq_nil_of_length_eq_zero hd
      subst hnil
      cases henv
      cases hi : es[i]? with
      | none =>
        simp only [hi] at h
        cases h
        have hd : es.drop i = [] := List.drop_eq_nil_of_le (List.getElem?_eq_none_iff.1 hi)
        obtain ⟨m', hw, hy'⟩ := hy.weak.1 hd
        exact ⟨m', T, hw, .nil, .source (hd ▸ hy')⟩
      | some e =>
        simp only [hi] at h
        cases h
        obtain ⟨hlt, rfl⟩ := List.getElem?_eq_some_iff.1 hi
        obtain ⟨-, m', hw, hy'⟩ := hy.weak.2 _ _ (List.drop_eq_getElem_cons hlt)
        exact ⟨m', T, hw, .nil, .source hy'⟩
    all_goals subst hd
    case dead => cases h; exact ⟨_, _, .last (by rw [next]), henv, .dead⟩
    case tmpl es i =>
      cases hi : es[i]? <;> simp only [hi] at h <;> cases h <;>
        exact ⟨_, _, .last (by rw [next.eq_def]; simp only [hi]), henv, .tmpl⟩
    case once x =>
      cases x <;> cases h <;> exact ⟨_, _, .last (by rw [next.eq_def]), henv, .once⟩
    case script rs =>
      rcases rs with _ | ⟨_ | _ | _, _⟩ <;> cases h <;>
        exact ⟨_, _, .last (by rw [next.eq_def]), henv, .script⟩
    case fallStart hs => cases h; exact ⟨_, _, .last (by rw [next]), henv, .fallEmit hs⟩
    case fallError => cases h; exact ⟨_, _, .last (by rw [next]), henv, .dead⟩
    case expandClose => cases h; exact ⟨_, _, .last (by rw [next]), henv, .dead⟩
    case singleStart e s s' hs =>
      cases e <;> cases h <;> first
        | exact ⟨_, _, .last (by rw [next.eq_def]), henv, .singleUntil hs⟩
        | exact ⟨_, _, .last (by rw [next.eq_def]), henv, .dead⟩
    case peek s s' b hs =>
      obtain ⟨m', cells, hrun, he, hm⟩ := strong _ _ rfl _ _ henv (.peek hs)
      exact ⟨m', cells, .last hrun, he, hm⟩
    case shared =>
      cases henv with
      | nil => cases h
      | cons hcell henv =>
        simp only [bind, Option.bind_eq_some_iff] at h
        obtain ⟨⟨r, cell, rest⟩, hx, h⟩ := h
        cases h
        obtain ⟨m, cells, hw, he, hm⟩ := (h1 _ _ _ hx).1 _ _ henv hcell
        have hlen := len_of henv hw.length he
        exact ⟨_, _, weak_shared hw, .cons (hlen ▸ hm) he, .shared⟩
    case fallEmit hs =>
      simp only [bind, Option.bind_eq_some_iff] at h
      obtain ⟨⟨r, s₁, env₁⟩, hx, h⟩ := h
      obtain ⟨m, cells, hw, he, hm⟩ := (h1 _ _ _ hx).1 _ _ henv hs
      have hw' := forwards_fallEmit.weak hw
      cases r <;> cases h
      · exact ⟨_, _, hw', he, .fallEmit hm⟩
      all_goals exact ⟨_, _, hw', he, .dead⟩
    case expandEmit hs =>
      simp only [bind, Option.bind_eq_some_iff] at h
      obtain ⟨⟨r, s₁, env₁⟩, hx, h⟩ := h
      obtain ⟨m, cells, hw, he, hm⟩ := (h1 _ _ _ hx).1 _ _ henv hs
      have hw' := forwards_expandEmit.weak hw
      cases r <;> cases h
      · exact ⟨_, _, hw', he, .expandEmit hm⟩
      all_goals exact ⟨_, _, hw', he, .dead⟩
    case attrEmit hs =>
      simp only [bind, Option.bind_eq_some_iff] at h
      obtain ⟨⟨r, s₁, env₁⟩, hx, h⟩ := h
      obtain ⟨m, cells, hw, he, hm⟩ := (h1 _ _ _ hx).1 _ _ henv hs
      have hw' := forwards_attrEmit.weak hw
      cases r <;> cases h
      · exact ⟨_, _, hw', he, .attrEmit hm⟩
      all_goals exact ⟨_, _, hw', he, .dead⟩
    case orElseRun hs =>
      simp only [bind, Option.bind_eq_some_iff] at h
      obtain ⟨⟨r, s₁, env₁⟩, hx, h⟩ := h
      obtain ⟨m, cells, hw, he, hm⟩ := (h1 _ _ _ hx).1 _ _ henv hs
      have hw' := forwards_orElseRun.weak hw
      cases r <;> cases h
      · exact ⟨_, _, hw', he, .orElseRun hm⟩
      all_goals exact ⟨_, _, hw', he, .dead⟩
    case applyEmit hs =>
      simp only [bind, Option.bind_eq_some_iff] at h
      obtain ⟨⟨r, s₁, env₁⟩, hx, h⟩ := h
      obtain ⟨m, cells, hw, he, hm⟩ := (h1 _ _ _ hx).1 _ _ henv hs
      have hw' := forwards_applyEmit.weak hw
      cases r <;> cases h
      · exact ⟨_, _, hw', he, .applyEmit hm⟩
      all_goals exact ⟨_, _, hw', he, .dead⟩
    case oncePass hs =>
      simp only [bind, Option.bind_eq_some_iff] at h
      obtain ⟨⟨r, s₁, env₁⟩, hx, h⟩ := h
      obtain ⟨m, cells, hw, he, hm⟩ := (h1 _ _ _ hx).1 _ _ henv hs
      have hw' := forwards_oncePass.weak hw
      cases r <;> cases h
      · exact ⟨_, _, hw', he, .oncePass hm⟩
      all_goals exact ⟨_, _, hw', he, .dead⟩
    case singleUntil hs =>
      simp only [bind, Option.bind_eq_some_iff] at h
      obtain ⟨⟨r, s₁, env₁⟩, hx, h⟩ := h
      obtain ⟨m, cells, hw, he, hm⟩ := (h1 _ _ _ hx).1 _ _ henv hs
      have hw' := fun tag level => weak_single (tag := tag) (level := level) hw
      cases r <;> cases h
      · refine ⟨_, _, hw' _ _, he, ?_⟩
        simp only [Res.after, singleUntilStep]
        repeat' split
        all_goals first
          | exact .singleUntil hm
          | exact .dead
      all_goals exact ⟨_, _, hw' _ _, he, .dead⟩
    case repEmit hs =>
      simp only [bind, Option.bind_eq_some_iff] at h
      obtain ⟨⟨r, s₁, env₁⟩, hx, h⟩ := h
      obtain ⟨m, cells, hw, he, hm⟩ := (h1 _ _ _ hx).1 _ _ henv hs
      cases r <;> cases h
      · exact ⟨_, _, weak_repEmit hw, he, .repEmit hm⟩
      · exact ⟨_, _, weak_repEmit hw, he, .repNext⟩
      · exact ⟨_, _, weak_repEmit hw, he, .dead⟩
    case selActive hs hst =>
      simp only [bind, Option.bind_eq_some_iff] at h
      obtain ⟨⟨r, s₁, cells₁⟩, hx, h⟩ := h
      obtain ⟨m, cells, hw, he, hm⟩ := (h1 _ _ _ hx).1 _ _ (.cons hs henv) hst
      obtain ⟨src', env₂, rfl, hw'⟩ := (hosts_selActive _ _ _ _ _ _).weak hw
      have hlen : env₂.length = env'.length := by
        have := hw.length
        simpa using this
      cases he with
      | nil => cases h
      | cons hc he =>
        have hl := len_of henv hlen he
        cases r <;> cases h
        · exact ⟨_, _, hw', he, .selActive (hl ▸ hc) hm⟩
        · exact ⟨_, _, hw', he, .selScan (hl ▸ hc)⟩
        · exact ⟨_, _, hw', he, .dead⟩
    case onceActive hs hst =>
      simp only [bind, Option.bind_eq_some_iff] at h
      obtain ⟨⟨r, s₁, cells₁⟩, hx, h⟩ := h
      obtain ⟨m, cells, hw, he, hm⟩ := (h1 _ _ _ hx).1 _ _ (.cons hs henv) hst
      obtain ⟨src', env₂, rfl, hw'⟩ := (hosts_onceActive).weak hw
      have hlen : env₂.length = env'.length := by
        have := hw.length
        simpa using this
      cases he with
      | nil => cases h
      | cons hc he =>
        have hl := len_of henv hlen he
        cases r <;> cases h
        · exact ⟨_, _, hw', he, .onceActive (hl ▸ hc) hm⟩
        · exact ⟨_, _, hw', he, .oncePass (hl ▸ hc)⟩
        · exact ⟨_, _, hw', he, .dead⟩
    case contContent hs hst =>
      simp only [bind, Option.bind_eq_some_iff] at h
      obtain ⟨⟨r, s₁, cells₁⟩, hx, h⟩ := h
      obtain ⟨m, cells, hw, he, hm⟩ := (h1 _ _ _ hx).1 _ _ (.cons hs henv) hst
      obtain ⟨src', env₂, rfl, hw'⟩ := (hosts_contContent _).weak hw
      have hlen : env₂.length = env'.length := by
        have := hw.length
        simpa using this
      cases he with
      | nil => cases h
      | cons hc he =>
        have hl := len_of henv hlen he
        cases r <;> cases h
        · exact ⟨_, _, hw', he, .contContent (hl ▸ hc) hm⟩
        · exact ⟨_, _, hw', he, .contClose (hl ▸ hc)⟩
        · exact ⟨_, _, hw', he, .dead⟩
    case expandStart hs =>
      simp only [bind, Option.bind_eq_some_iff] at h
      obtain ⟨⟨r, s₁, env₁⟩, hx, h⟩ := h
      obtain ⟨m, cells, hrun, he, hm⟩ := (h3 _ _ _ hx).1 _ _ henv hs
      rcases r with e | _ | _
      · cases e <;> cases h <;> first
          | exact ⟨_, _, .last (by rw [next]; simp only [bind, hrun, Option.bind_some]), he,
              .expandEmit hm⟩
          | exact ⟨_, _, .last (by rw [next]; simp only [bind, hrun, Option.bind_some]), he,
              .expandClose⟩
          | exact ⟨_, _, .last (by rw [next]; simp only [bind, hrun, Option.bind_some]), he, .dead⟩
      all_goals
        cases h
        exact ⟨_, _, .last (by rw [next]; simp only [bind, hrun, Option.bind_some]), he, .dead⟩
    case attrStart hs =>
      simp only [bind, Option.bind_eq_some_iff] at h
      obtain ⟨⟨r, s₁, env₁⟩, hx, h⟩ := h
      obtain ⟨m, cells, hrun, he, hm⟩ := (h3 _ _ _ hx).1 _ _ henv hs
      rcases r with e | _ | _
      · cases e <;> cases h <;> first
          | exact ⟨_, _, .last (by rw [next]; simp only [bind, hrun, Option.bind_some]), he,
              .attrEmit hm⟩
          | exact ⟨_, _, .last (by rw [next]; simp only [bind, hrun, Option.bind_some]), he, .dead⟩
      all_goals
        cases h
        exact ⟨_, _, .last (by rw [next]; simp only [bind, hrun, Option.bind_some]), he, .dead⟩
    case combFirst hs ht =>
      simp only [bind, Option.bind_eq_some_iff] at h
      obtain ⟨⟨r, s₁, env₁⟩, hx, h⟩ := h
      obtain ⟨m, cells, hrun, he, hm⟩ := (h3 _ _ _ hx).1 _ _ henv hs
      cases r <;> cases h
      · exact ⟨_, _, .last (by rw [next]; simp only [bind, hrun, Option.bind_some]), he,
          .combFirst hm ht⟩
      · exact ⟨_, _, .last (by rw [next]; simp only [bind, hrun, Option.bind_some]), he,
          .combSecond ht⟩
      · exact ⟨_, _, .last (by rw [next]; simp only [bind, hrun, Option.bind_some]), he, .dead⟩
    case combSecond hs =>
      simp only [bind, Option.bind_eq_some_iff] at h
      obtain ⟨⟨r, s₁, env₁⟩, hx, h⟩ := h
      obtain ⟨m, cells, hrun, he, hm⟩ := (h3 _ _ _ hx).1 _ _ henv hs
      cases r <;> cases h
      · exact ⟨_, _, .last (by rw [next]; simp only [bind, hrun, Option.bind_some]), he,
          .combSecond hm⟩
      all_goals
        exact ⟨_, _, .last (by rw [next]; simp only [bind, hrun, Option.bind_some]), he, .dead⟩
    case remove hs =>
      simp only [bind, Option.bind_eq_some_iff] at h
      obtain ⟨⟨r, s₁, env₁⟩, hx, h⟩ := h
      obtain ⟨m, cells, hrun, he, hm⟩ := h4 _ _ _ hx _ _ henv hs
      cases h
      exact ⟨_, _, .last (by rw [next]; simp only [bind, hrun, Option.bind_some]), he, .remove hm⟩
    case repCollect hs =>
      simp only [bind, Option.bind_eq_some_iff] at h
      obtain ⟨⟨r, env₁⟩, hx, h⟩ := h
      obtain ⟨cells, hrun, he⟩ := h2 _ _ _ hx _ _ henv hs
      cases r <;> cases h
      · exact ⟨_, _, .last (by rw [next]; simp only [bind, hrun, Option.bind_some]), he, .dead⟩
      · exact ⟨_, _, .last (by rw [next]; simp only [bind, hrun, Option.bind_some]), he, .repNext⟩
    case applyCollect s s' g hs =>
      simp only [bind, Option.bind_eq_some_iff] at h
      obtain ⟨⟨r, env₁⟩, hx, h⟩ := h
      obtain ⟨cells, hrun, he⟩ := h2 _ _ _ hx _ _ henv hs
      cases r with
      | error e =>
        cases h
        exact ⟨_, _, .last (by rw [next]; simp only [bind, hrun, Option.bind_some]), he, .dead⟩
      | ok es =>
        cases hg : g ⟨es⟩ <;> simp only [hg] at h <;> cases h
        · exact ⟨_, _, .last (by rw [next]; simp only [bind, hrun, Option.bind_some, hg]), he, .dead⟩
        · exact ⟨_, _, .last (by rw [next]; simp only [bind, hrun, Option.bind_some, hg]; rfl), he,
            .applyEmit .tmpl⟩
    case repNext es i n k k' b =>
      simp only at h
      split at h
      next hlt =>
        cases h
        exact ⟨_, _, .last (by rw [next, if_pos hlt]), henv, .repEmit (.build (b i) .tmpl)⟩
      next hlt =>
        cases h
        exact ⟨_, _, .last (by rw [next, if_neg hlt]), henv, .dead⟩
    case orElseStart n r r' s s' hr hs =>
      simp only at h
      split at h
      next hlt => cases h; exact ⟨_, _, .last (by rw [next, if_pos hlt]), henv, .orElseRun hr⟩
      next hlt => cases h; exact ⟨_, _, .last (by rw [next, if_neg hlt]), henv, .orElseRun hs⟩
    case selScan src src' s direct k b count level hs =>
      simp only [bind, Option.bind_eq_some_iff] at h
      obtain ⟨⟨r, s₁, env₁⟩, hx, h⟩ := h
      obtain ⟨m, cells, hrun, he, hm⟩ := (h3 _ _ _ hx).1 _ _ henv hs
      cases r with
      | ev e =>
        simp only at h
        split at h
        next hi =>
          cases h
          exact ⟨_, _, .last (by rw [next]; simp only [bind, hrun, Option.bind_some, if_pos hi]), he,
            .selActive hm (.build (b count) (.singleStart .shared))⟩
        next hi =>
          cases hl : levelAdjust level e <;> simp only [hl] at h <;> cases h
          · exact ⟨_, _, .last (by
              rw [next]; simp only [bind, hrun, Option.bind_some, if_neg hi, hl]), he, .dead⟩
          · exact ⟨_, _, .last (by
              rw [next]; simp only [bind, hrun, Option.bind_some, if_neg hi, hl]), he, .selScan hm⟩
      | done =>
        cases h
        exact ⟨_, _, .last (by rw [next]; simp only [bind, hrun, Option.bind_some]), he, .dead⟩
      | err e =>
        cases h
        exact ⟨_, _, .last (by rw [next]; simp only [bind, hrun, Option.bind_some]), he, .dead⟩
    case onceScan src src' s direct k b level hs =>
      simp only [bind, Option.bind_eq_some_iff] at h
      obtain ⟨⟨r, s₁, env₁⟩, hx, h⟩ := h
      obtain ⟨m, cells, hrun, he, hm⟩ := (h3 _ _ _ hx).1 _ _ henv hs
      cases r with
      | ev e =>
        simp only at h
        split at h
        next hi =>
          cases h
          exact ⟨_, _, .last (by rw [next]; simp only [bind, hrun, Option.bind_some, if_pos hi]), he,
            .onceActive hm (.build b (.singleStart .shared))⟩
        next hi =>
          cases hl : levelAdjust level e <;> simp only [hl] at h <;> cases h
          · exact ⟨_, _, .last (by
              rw [next]; simp only [bind, hrun, Option.bind_some, if_neg hi, hl]), he, .dead⟩
          · exact ⟨_, _, .last (by
              rw [next]; simp only [bind, hrun, Option.bind_some, if_neg hi, hl]), he, .onceScan hm⟩
      | done =>
        cases h
        exact ⟨_, _, .last (by rw [next]; simp only [bind, hrun, Option.bind_some]), he, .dead⟩
      | err e =>
        cases h
        exact ⟨_, _, .last (by rw [next]; simp only [bind, hrun, Option.bind_some]), he, .dead⟩
    case contClose hs =>
      simp only [bind, Option.bind_eq_some_iff] at h
      obtain ⟨⟨r, s₁, env₁⟩, hx, h⟩ := h
      obtain ⟨m, cells, hrun, he, hm⟩ := (h3 _ _ _ hx).1 _ _ henv hs
      rcases r with e | _ | _
      · cases e
        case closingTag t =>
          simp only at h
          split at h
          next hi =>
            cases h
            exact ⟨_, _, .last (by rw [next]; simp only [bind, hrun, Option.bind_some, if_pos hi]), he,
              .dead⟩
          next hi =>
            cases h
            exact ⟨_, _, .last (by rw [next]; simp only [bind, hrun, Option.bind_some, if_neg hi]), he,
              .dead⟩
        all_goals
          cases h
          exact ⟨_, _, .last (by rw [next]; simp only [bind, hrun, Option.bind_some]), he, .dead⟩
      all_goals
        cases h
        exact ⟨_, _, .last (by rw [next]; simp only [bind, hrun, Option.bind_some]), he, .dead⟩
    case contOpen s s' k b hs =>
      simp only [bind, Option.bind_eq_some_iff] at h
      obtain ⟨⟨r, s₁, env₁⟩, hx, h⟩ := h
      obtain ⟨m, cells, hrun, he, hm⟩ := (h3 _ _ _ hx).1 _ _ henv hs
      rcases r with e | _ | _
      · cases e
        case openingTag tag as =>
          cases h
          exact ⟨_, _, .last (by rw [next]; simp only [bind, hrun, Option.bind_some]), he,
            .contContent (.peek hm) (.build b .curContent)⟩
        all_goals
          cases h
          exact ⟨_, _, .last (by rw [next]; simp only [bind, hrun, Option.bind_some]), he, .dead⟩
      all_goals
        cases h
        exact ⟨_, _, .last (by rw [next]; simp only [bind, hrun, Option.bind_some]), he, .dead⟩
    case curContent tag level =>
      cases henv with
      | nil => cases h
      | @cons cell cell' env env' hcell henv =>
        cases cell
        case peek s buffered =>
          obtain ⟨s', rfl, hs⟩ := hcell.of_peek
          · suffices hsuff : ∃ m' cells, next (.peek s' buffered :: env') (.curContent tag level) =
                some (p.1, m', cells) ∧ StandsAll T p.2.2 cells ∧
                Stands T (env.length + 1) p.2.1 m' by
              obtain ⟨m', cells, hrun, he, hm⟩ := hsuff
              exact ⟨m', cells, .last hrun, he, hm⟩
            simp only [bind] at h
            rw [Option.bind_eq_some_iff] at h
            obtain ⟨⟨r, s₁, b₁, env₁⟩, hx, h⟩ := h
            have phase : ∃ s₁' cells, (if level = 0 then
                  match buffered with
                  | some e => some (Res.ev e, s', some e, env')
                  | none => (nextSkipNoop env' s').bind fun (r, s, env) =>
                    match r with
                    | .ev e => some (Res.ev e, s, some e, env)
                    | r => some (r, s, none, env)
                else some (Res.ev .noop, s', buffered, env')) = some (r, s₁', b₁, cells) ∧
                Stands T env.length s₁ s₁' ∧ StandsAll T env₁ cells ∧
                cells.length = env'.length := by
              by_cases hl : level = 0
              · rw [if_pos hl] at hx ⊢
                cases buffered with
                | some e => cases hx; exact ⟨_, _, rfl, hs, henv, rfl⟩
                | none =>
                  simp only [Option.bind_eq_some_iff] at hx
                  obtain ⟨⟨r', s₂, env₂⟩, hy, hx⟩ := hx
                  obtain ⟨m, cells, hrun, he, hm⟩ := (h3 _ _ _ hy).1 _ _ henv hs
                  have hlen := machine_length.2.2.1 _ _ _ hrun
                  simp only [hrun, Option.bind_some]
                  cases r' <;> cases hx <;> exact ⟨_, _, rfl, hm, he, hlen⟩
              · rw [if_neg hl] at hx ⊢
                cases hx
                exact ⟨_, _, rfl, hs, henv, rfl⟩
            obtain ⟨s₁', cells, hrun, hs₁, he₁, hl₁⟩ := phase
            have hlen := len_of henv hl₁ he₁
            rw [← hlen] at hs₁
            rw [next.eq_def]
            simp only [bind]
            refine bind_of (P := fun x => ∃ m' cells, x = some (p.1, m', cells) ∧
              StandsAll T p.2.2 cells ∧ Stands T (env.length + 1) p.2.1 m') _ hrun ?_
            simp only at h ⊢
            cases r with
            | done => cases h; exact ⟨_, _, rfl, .cons (.peek hs₁) he₁, .dead⟩
            | err e => cases h; exact ⟨_, _, rfl, .cons (.peek hs₁) he₁, .dead⟩
            | ev peeked =>
              simp only at h ⊢
              split at h
              next hi =>
                cases h
                rw [if_pos hi]
                exact ⟨_, _, rfl, .cons (.peek hs₁) he₁, .dead⟩
              next hi =>
                rw [if_neg hi]
                rw [Option.bind_eq_some_iff] at h
                obtain ⟨⟨r, cell, env₂⟩, hy, h⟩ := h
                obtain ⟨m, cells₂, hrun₂, he₂, hm⟩ :=
                  (h1 _ _ _ hy).2 _ _ rfl _ _ he₁ (.peek hs₁)
                have hlen₂ := len_of he₁ (machine_length.1 _ _ _ hrun₂) he₂
                simp only at hlen₂ hm he₂
                rw [← hlen₂] at hm
                simp only [hrun₂, Option.bind_some]
                cases r with
                | done => cases h; exact ⟨_, _, rfl, .cons hm he₂, .dead⟩
                | err e => cases h; exact ⟨_, _, rfl, .cons hm he₂, .dead⟩
                | ev e =>
                  cases hl : levelAdjust level e <;> simp only [hl] at h ⊢ <;> cases h
                  · exact ⟨_, _, rfl, .cons hm he₂, .dead⟩
                  · exact ⟨_, _, rfl, .cons hm he₂, .curContent⟩
        all_goals cases h
  · intro collect' skip h2 h3 env n p h env' m henv hst
    simp only [bind, Option.bind_eq_some_iff] at h
    obtain ⟨⟨r, s₁, env₁⟩, hx, h⟩ := h
    obtain ⟨m', cells, hrun, he, hm⟩ := (h3 _ _ _ hx).1 _ _ henv hst
    rw [collect]
    simp only [bind, hrun, Option.bind_some]
    cases r with
    | done => cases h; exact ⟨_, rfl, he⟩
    | err e => cases h; exact ⟨_, rfl, he⟩
    | ev e =>
      simp only [Option.bind_eq_some_iff] at h
      obtain ⟨⟨r, env₂⟩, hy, h⟩ := h
      have hlen := len_of henv (machine_length.2.2.1 _ _ _ hrun) he
      simp only at hlen hm he
      rw [← hlen] at hm
      obtain ⟨cells₂, hrun₂, he₂⟩ := h2 _ _ _ hy _ _ he hm
      simp only [hrun₂, Option.bind_some]
      cases r <;> cases h <;> exact ⟨_, rfl, he₂⟩
  · intro next' skip h1 h3 env n p h
    simp only [bind, Option.bind_eq_some_iff] at h
    obtain ⟨⟨r, s₁, env₁⟩, hx, h⟩ := h
    by_cases hr : r = .ev .noop
    · subst hr
      simp only at h
      refine ⟨?_, (h3 _ _ _ h).2⟩
      intro env' m henv hst
      obtain ⟨m', cells, hw, he, hm⟩ := (h1 _ _ _ hx).1 _ _ henv hst
      have hlen := len_of henv hw.length he
      simp only at hlen hm he
      rw [← hlen] at hm
      obtain ⟨m₂, cells₂, hrun, he₂, hm₂⟩ := (h3 _ _ _ h).1 _ _ he hm
      rw [hw.of_skipped_noop]
      exact ⟨m₂, cells₂, hrun, he₂, hlen ▸ hm₂⟩
    · have hp : p = (r, s₁, env₁) := by
        rcases r with e | _ | _
        · cases e <;> first
            | exact absurd rfl hr
            | (cases h; rfl)
        all_goals cases h; rfl
      subst hp
      refine ⟨?_, hr⟩
      intro env' m henv hst
      obtain ⟨m', cells, hw, he, hm⟩ := (h1 _ _ _ hx).1 _ _ henv hst
      exact ⟨m', cells, hw.skipped hr, he, hm⟩
  · intro next' drain' h1 h4 env n p h env' m henv hst
    simp only [bind, Option.bind_eq_some_iff] at h
    obtain ⟨⟨r, s₁, env₁⟩, hx, h⟩ := h
    obtain ⟨m', cells, hw, he, hm⟩ := (h1 _ _ _ hx).1 _ _ henv hst
    cases r with
    | done => cases h; exact ⟨_, _, hw.drained_end (by simp), he, hm⟩
    | err e => cases h; exact ⟨_, _, hw.drained_end (by simp), he, hm⟩
    | ev e =>
      have hlen := len_of henv hw.length he
      simp only at hlen hm he h
      rw [← hlen] at hm
      obtain ⟨m₂, cells₂, hrun, he₂, hm₂⟩ := h4 _ _ _ h _ _ he hm
      rw [hw.drained]
      exact ⟨m₂, cells₂, hrun, he₂, hlen ▸ hm₂⟩

/-- A chain on a stream that stands for a template. -/
theorem collect_stands {a k : Kind} {T : Env} (q : Prog a k) {m : List Event} {n : Node}
    (hy : Yielding T m n) : collect T (q.build n) = (run q m).map (·, T) := by
  obtain ⟨o, -, hq⟩ := run_total q m
  rw [hq]
  simp only [run, Option.map_eq_some_iff] at hq
  obtain ⟨⟨r', env'⟩, hc', hr⟩ := hq
  simp only at hr
  subst hr
  have hnil := machine_length.2.1 _ _ _ hc'
  have hnil := List.eq_nil_of_length_eq_zero hnil
  simp only at hnil
  subst hnil
  obtain ⟨cells, hrun, hcells⟩ := (machine_stands T).2.1 _ _ _ hc' T _ .nil
    (Stands.build q (.source (es := m) (i := 0) hy))
  cases hcells
  exact hrun

/-- A chain after another one gives what it gives on the events of the first. -/
theorem run_chain {a k k' : Kind} (p : Prog a k) (q : Prog k k') (es m : List Event)
    (h : run p es = some (.ok m)) : run (.apply p q) es = run q m := by
  obtain ⟨j, hh⟩ := halts_build p (· = []) [] (.tmpl es 0) (halts_tmpl (Post := (· = [])) rfl es 0)
  simp only [run, Option.map_eq_some_iff] at h
  obtain ⟨⟨r, env⟩, hc, rfl⟩ := h
  have hy := yielding_of_halt hh hc
  rw [run, show (Prog.apply p q).build = fun n => q.build (p.build n) from rfl]
  simp only [collect_stands q hy, Option.map_map]
  exact Option.map_id'

/-! ## Collecting a host -/

theorem collect_noop {env n n' env'} (h : next env n = some (.ev .noop, n', env')) :
    collect env n = collect env' n' := by
  rw [collect, nextSkipNoop_noop h]
  conv => rhs; rw [collect]

theorem collect_ev {env n e n' env'} (h : next env n = some (.ev e, n', env')) (he : e ≠ .noop) :
    collect env n = (collect env' n').map fun p => (p.1.map (e :: ·), p.2) := by
  rw [collect, nextSkipNoop_of h (by simpa using he)]
  simp only [bind, Option.bind_some]
  rcases collect env' n' with _ | ⟨_ | _, _⟩ <;> rfl

/-- All results of the hosted stream come first, then those of what follows it. -/
theorem collect_hosts {H : Node → Node → Node} {K : Node → Node} (hH : Hosts H K) {j : Nat}
    {cells : Env} {st : Node} (h : HaltIn (fun cells => cells ≠ []) j cells st) :
    ∀ {src : Node} {env : Env}, cells = src :: env →
      ∀ {r : Except StreamError (List Event)} {cells' : Env},
        collect cells st = some (r, cells') → ∃ src' env', cells' = src' :: env' ∧
          collect env (H src st) = match r with
            | .ok es => (collect env' (K src')).map fun p => (p.1.map (es ++ ·), p.2)
            | .error e => some (.error e, env') := by
  induction h with
  | @ev j cells st st' cells' e hP h hh ih =>
    rintro src env rfl r cells'' hc
    have hne := hh.post
    obtain ⟨src', env', rfl⟩ := List.exists_cons_of_ne_nil hne
    have hn : next env (H src st) = some (.ev e, H src' st', env') := by rw [hH, h]; rfl
    by_cases he : e = .noop
    · subst he
      rw [collect_noop h] at hc
      obtain ⟨src'', env'', h1, h2⟩ := ih rfl hc
      exact ⟨src'', env'', h1, by rw [collect_noop hn, h2]⟩
    · rw [collect_ev h he, Option.map_eq_some_iff] at hc
      obtain ⟨⟨r', c'⟩, hc, hr⟩ := hc
      obtain ⟨src'', env'', h1, h2⟩ := ih rfl hc
      cases hr
      refine ⟨src'', env'', h1, ?_⟩
      rw [collect_ev hn he, h2]
      cases r' with
      | error e => rfl
      | ok es =>
        simp only [Except.map, Option.map_map]
        congr 1
        funext p
        rcases p with ⟨_ | _, _⟩ <;> rfl
  | @quiet j cells st h =>
    rintro src env rfl r cells' hc
    obtain ⟨st', cells₁, hs, hq⟩ := h.step
    obtain ⟨src', env', rfl⟩ := List.exists_cons_of_ne_nil hq.post
    rw [collect, nextSkipNoop_of hs (by simp)] at hc
    cases hc
    refine ⟨src', env', rfl, ?_⟩
    have hn : next env (H src st) = some (.ev .noop, K src', env') := by rw [hH, hs]; rfl
    rw [collect_noop hn]
    simp only [List.nil_append]
    rcases collect env' (K src') with _ | ⟨_ | _, _⟩ <;> rfl
  | @err j cells st st' cells₁ e hP h =>
    rintro src env rfl r cells' hc
    have hl := machine_length.1 _ _ _ h
    obtain ⟨src', env', rfl⟩ := List.exists_cons_of_length_pos (by rw [hl]; simp)
    rw [collect, nextSkipNoop_of h (by simp)] at hc
    cases hc
    refine ⟨src', env', rfl, ?_⟩
    have hn : next env (H src st) = some (.err e, .dead, env') := by rw [hH, h]; rfl
    rw [collect, nextSkipNoop_of hn (by simp)]
    rfl

/-- A builder on the only event of a template. -/
theorem run_selectOnce_single {k : Kind} {e : Event} (he : next [.tmpl [e] 1] (.singleStart e .shared) =
    some (.ev e, .dead, [.tmpl [e] 1])) (hn : e ≠ .noop) {s : Selector} (hs : s.matches e = true)
    (b : Prog .elem k) : run (.selectOnceRaw .src s false b : Prog .gen .gen) [e] = run b [e] := by
  have h1 : next [] (.tmpl [e] 0) = some (.ev e, .tmpl [e] 1, []) := by rw [next]; rfl
  have h2 : next [] (.onceScan (.tmpl [e] 0) s false k b 0) =
      some (.ev .noop, .onceActive (.tmpl [e] 1) (b.build (.singleStart e .shared)), []) := by
    rw [next, nextSkipNoop_of h1 (by simpa using hn)]
    simp [restrictInclude, hs]
  have hy : Yielding [.tmpl [e] 1] [e] (.singleStart e .shared) :=
    .ev he hn (.quiet (.dead rfl))
  obtain ⟨o, -, hq⟩ := run_total b [e]
  have hc := collect_stands b hy
  rw [hq] at hc
  have hx : HaltIn (fun cells => cells ≠ []) 1 [.tmpl [e] 1] (.singleStart e .shared) :=
    .ev (by simp) he (.quiet (.dead (by simp)))
  obtain ⟨j, hh⟩ := halts_build b _ _ _ ⟨_, hx⟩
  obtain ⟨src', env', heq, hrun⟩ := collect_hosts hosts_onceActive hh rfl hc
  cases heq
  have h3 : collect [] (.oncePass (.tmpl [e] 1)) = some (.ok [], []) := by
    have h4 : next [] (.oncePass (.tmpl [e] 1)) = some (.done, .dead, []) := by
      rw [forwards_oncePass, next]
      rfl
    rw [collect, nextSkipNoop_of h4 (by simp)]
    rfl
  rw [run, show (Prog.selectOnceRaw .src s false b : Prog .gen .gen).build (.tmpl [e] 0) =
    .onceScan (.tmpl [e] 0) s false k b 0 from rfl, collect_noop h2, hrun, hq, h3]
  cases o.result with
  | error e => rfl
  | ok es => simp [Except.map]

end Fuser
