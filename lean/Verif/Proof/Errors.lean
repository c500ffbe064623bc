import Verif.Proof.Chain

/-!
# No call hides an error of the stream before it

An invariant of the machine: while the stream at the bottom has not failed, a stream built on it
does not end; and when it fails, so does the whole stream at once.
-/

namespace Fuser

open Spec

/-- Without cells, the stream gives events and then an error. -/
inductive Failing : Node → Prop
  | ev {n n' e} : next [] n = some (.ev e, n', []) → Failing n' → Failing n
  | err {n n' env' e} : next [] n = some (.err e, n', env') → Failing n

theorem failing_of_halt {k : Nat} {n : Node} {env : Env} (h : HaltIn (· = []) k env n) :
    ∀ {e : StreamError} {env' : Env}, collect env n = some (.error e, env') → Failing n := by
  induction h with
  | @ev k env n n' env' e hP h hh ih =>
    subst hP
    have he' := hh.post
    subst he'
    intro x env' hc
    by_cases he : e = .noop
    · subst he
      rw [collect_noop h] at hc
      exact .ev h (ih hc)
    · rw [collect_ev h he, Option.map_eq_some_iff] at hc
      obtain ⟨⟨r, env₂⟩, hx, hc⟩ := hc
      cases r with
      | error e => exact .ev h (ih hx)
      | ok es' => cases hc
  | quiet h =>
    intro x env' hc
    obtain ⟨n', env₁, hs, hq⟩ := h.step
    rw [collect, nextSkipNoop_of hs (by simp)] at hc
    cases hc
  | err hP h =>
    subst hP
    intro x env' hc
    exact .err h

/-- Streams that fail before their first event. -/
inductive Broken : Node → Prop
  | fallError {e} : Broken (.fallError e)
  | fallStart {s} : Broken s → Broken (.fallStart s)
  | fallEmit {s} : Broken s → Broken (.fallEmit s)
  | expandStart {s} : Broken s → Broken (.expandStart s)
  | contOpen {s k b} : Broken s → Broken (.contOpen s k b)
  | attrStart {op s} : Broken s → Broken (.attrStart op s)

/-- `Live b fs n`: the stream at the bottom, if it is in `n`, has not failed. With `b` it is in `n`,
and `n` does not end before. The flags `fs` say of each cell around whether it is a peekable stream
(`none`) or else what is known of it. -/
inductive Live : Bool → List (Option Bool) → Node → Prop
  | source {b n} : Failing n → Live b [] n
  | broken {b fs n} : Broken n → Live b fs n
  | dead {fs} : Live false fs .dead
  | shared {fs b} : Live false (some b :: fs) .shared
  | tmpl {fs es i} : Live false fs (.tmpl es i)
  | once {fs x} : Live false fs (.once x)
  | script {fs rs} : Live false fs (.script rs)
  | fallStart {b fs s} : Live b fs s → Live b fs (.fallStart s)
  | fallError {b fs e} : Live b fs (.fallError e)
  | fallEmit {b fs s} : Live b fs s → Live b fs (.fallEmit s)
  | expandStart {fs s} : Live false fs s → Live false fs (.expandStart s)
  | expandEmit {fs s} : Live false fs s → Live false fs (.expandEmit s)
  | expandClose {fs t} : Live false fs (.expandClose t)
  | peek {fs s x} : Live false fs s → Live false fs (.peek s x)
  | combContent {b fs s t} : Live false fs s → Live b fs t → Live b fs (.combFirst s t)
  | combStream {fs s t} : Live true fs s → Live true fs (.combFirst s t)
  | combSecond {b fs s} : Live b fs s → Live b fs (.combSecond s)
  | singleStart {fs e s} : Live false fs s → Live false fs (.singleStart e s)
  | singleUntil {fs t s l} : Live false fs s → Live false fs (.singleUntil t s l)
  | selScan {b fs src s dir k bld n l} : Live b fs src → Live b fs (.selScan src s dir k bld n l)
  | selActive {b fs src s dir k bld n l st} : Live b fs src → Live false (some b :: fs) st →
      Live b fs (.selActive src s dir k bld n l st)
  | onceScan {b fs src s dir k bld l} : Live b fs src → Live b fs (.onceScan src s dir k bld l)
  | onceActive {b fs src st} : Live b fs src → Live false (some b :: fs) st → Live b fs (.onceActive src st)
  | oncePass {b fs src} : Live b fs src → Live b fs (.oncePass src)
  | contOpen {fs s k bld} : Live false fs s → Live false fs (.contOpen s k bld)
  | contContent {fs s x st t} : Live false fs s → Live false (none :: fs) st →
      Live false fs (.contContent (.peek s x) st t)
  | contClose {fs src t} : Live false fs src → Live false fs (.contClose src t)
  | curContent {fs t l} : Live false (none :: fs) (.curContent t l)
  | attrStart {fs op s} : Live false fs s → Live false fs (.attrStart op s)
  | attrEmit {fs s} : Live false fs s → Live false fs (.attrEmit s)
  | remove {b fs s} : Live b fs s → Live b fs (.remove s)
  | repCollect {b fs s n k k' bld} : Live b fs s → Live b fs (.repCollect s n k k' bld)
  | repNext {fs es i n k k' bld} : Live false fs (.repNext es i n k k' bld)
  | repEmit {fs es i n k k' bld s} : Live false fs s → Live false fs (.repEmit es i n k k' bld s)
  | orElseStart {b fs n r s} : Live b fs r → Live b fs s → Live b fs (.orElseStart n r s)
  | orElseRun {b fs s} : Live b fs s → Live b fs (.orElseRun s)
  | applyCollect {b fs s g} : Live b fs s → Live b fs (.applyCollect s g)
  | applyEmit {fs s} : Live false fs s → Live false fs (.applyEmit s)

theorem live_content {fs : List (Option Bool)} (c : Content) : Live false fs c.intoStream := by
  induction c with
  | data x => exact .once
  | template t => exact .tmpl
  | script rs => exact .script
  | resultOk c ih => exact .fallStart ih
  | resultErr e => exact .fallError

theorem Live.build {a k : Kind} (p : Prog a k) : ∀ {fs : List (Option Bool)} {n : Node}, Live false fs n →
    Live false fs (p.build n) := by
  induction p with
  | src => exact id
  | forget p ih => exact ih
  | apply p q ih ih' => exact fun h => ih' (ih h)
  | fallOk p ih => exact fun h => .fallStart (ih h)
  | fallErr e => exact fun _ => .fallError
  | selectRaw p s dir b ih _ => exact fun h => .selScan (ih h)
  | selectOnceRaw p s dir b ih _ => exact fun h => .onceScan (ih h)
  | remove p ih => exact fun h => .remove (ih h)
  | prepend p c ih => exact fun h => .combContent (live_content c) (ih h)
  | append p c ih => exact fun h => .combContent (ih h) (live_content c)
  | «repeat» p n b ih _ => exact fun h => .repCollect (ih h)
  | orElse p n r q ih ih' ih'' => exact fun h => .orElseStart (ih' (ih h)) (ih'' (ih h))
  | applyTemplate p g ih => exact fun h => .applyCollect (ih h)
  | contents p b ih _ => exact fun h => .contOpen (.expandStart (ih h))
  | attr p op ih => exact fun h => .attrStart (ih h)

/-- Streams a chain that starts from any stream can be applied to. -/
def Sturdy (fs : List (Option Bool)) : Kind → Node → Prop
  | .gen, n => Live true fs n
  | .elem, n => Broken n

theorem Sturdy.live {fs : List (Option Bool)} {k : Kind} {n : Node} (h : Sturdy fs k n) : Live true fs n := by
  cases k with
  | gen => exact h
  | elem => exact .broken h

theorem Sturdy.build {a k : Kind} (p : Prog a k) : ∀ {fs : List (Option Bool)} {n : Node}, Sturdy fs a n →
    Sturdy fs k (p.build n) := by
  induction p with
  | src => exact id
  | forget p ih => exact fun h => (ih h).live
  | apply p q ih ih' => exact fun h => ih' (ih h)
  | @fallOk a k p ih =>
    intro fs n h
    have := ih h
    cases k with
    | gen => exact Live.fallStart this
    | elem => exact Broken.fallStart this
  | @fallErr a k e =>
    intro fs n h
    cases k with
    | gen => exact Live.fallError
    | elem => exact Broken.fallError
  | selectRaw p s dir b ih _ => exact fun h => Live.selScan (ih h).live
  | selectOnceRaw p s dir b ih _ => exact fun h => Live.onceScan (ih h).live
  | remove p ih => exact fun h => Live.remove (ih h).live
  | prepend p c ih => exact fun h => Live.combContent (live_content c) (ih h).live
  | append p c ih => exact fun h => Live.combStream (ih h).live
  | «repeat» p n b ih _ => exact fun h => Live.repCollect (ih h).live
  | orElse p n r q ih ih' ih'' => exact fun h => Live.orElseStart (ih' (ih h)).live (ih'' (ih h)).live
  | applyTemplate p g ih => exact fun h => Live.applyCollect (ih h).live
  | contents p b ih _ => exact fun h => Broken.contOpen (.expandStart (ih h))
  | attr p op ih => exact fun h => Broken.attrStart (ih h)

/-- The same for cells. -/
inductive LiveAll : List (Option Bool) → Env → Prop
  | nil : LiveAll [] []
  | plain {b fs n env} : Live b fs n → LiveAll fs env → LiveAll (some b :: fs) (n :: env)
  | peeked {fs s x env} : Live false fs s → LiveAll fs env → LiveAll (none :: fs) (.peek s x :: env)

theorem ev_ne_done (e : Event) : Res.ev e ≠ .done := nofun

/-- A stream that may end may be dead. -/
theorem dead_of {b : Bool} {fs : List (Option Bool)} (h : b = true → Res.done ≠ .done) :
    Live b fs .dead := by
  cases b with
  | true => exact absurd rfl (h rfl)
  | false => exact .dead

/-- What holds after a pull. -/
def Kept (b : Bool) (fs : List (Option Bool)) (p : Pull) : Prop :=
  (∃ e, p.1 = .err e) ∨ (Live b fs p.2.1 ∧ LiveAll fs p.2.2 ∧ (b = true → p.1 ≠ .done))

/-- A pull keeps the invariant. -/
def Preserved (env : Env) (n : Node) (p : Pull) : Prop :=
  ∀ b fs, Live b fs n → LiveAll fs env → Kept b fs p

def PreservedPeek (env : Env) (n : Node) (p : Pull) : Prop :=
  ∀ s x fs, n = .peek s x → Live false fs s → LiveAll fs env →
    (∃ e, p.1 = .err e) ∨ ∃ s' x', p.2.1 = .peek s' x' ∧ Live false fs s' ∧ LiveAll fs p.2.2

def PreservedBroken (env : Env) (n : Node) (p : Pull) : Prop :=
  Broken n → (∃ e, p.1 = .err e) ∨ (p.1 = .ev .noop ∧ Broken p.2.1 ∧ p.2.2 = env)

def PreservedCollect (env : Env) (n : Node) (p : Except StreamError (List Event) × Env) : Prop :=
  ∀ b fs, Live b fs n → LiveAll fs env →
    (∃ e, p.1 = .error e) ∨ (b = false ∧ LiveAll fs p.2)

set_option maxHeartbeats 4000000 in
theorem machine_live :
    (∀ env n p, next env n = some p → next env n = some p ∧ Preserved env n p ∧
      PreservedPeek env n p ∧ PreservedBroken env n p) ∧
    (∀ env n p, collect env n = some p → collect env n = some p ∧ PreservedCollect env n p) ∧
    (∀ env n p, nextSkipNoop env n = some p → nextSkipNoop env n = some p ∧ Preserved env n p ∧
      (Broken n → ∃ e, p.1 = .err e)) ∧
    (∀ env n p, drain env n = some p → drain env n = some p ∧ Preserved env n p) := by
  refine next.mutual_partial_correctness
    (fun env n p => next env n = some p ∧ Preserved env n p ∧ PreservedPeek env n p ∧
      PreservedBroken env n p)
    (fun env n p => collect env n = some p ∧ PreservedCollect env n p)
    (fun env n p => nextSkipNoop env n = some p ∧ Preserved env n p ∧
      (Broken n → ∃ e, p.1 = .err e))
    (fun env n p => drain env n = some p ∧ Preserved env n p)
    ?_ ?_ ?_ ?_
  · intro next' collect skip drain h1 h2 h3 h4 env n p h
    have real : next env n = some p := by
      rw [next.eq_def]
      cases n
      case shared =>
        cases env with
        | nil => exact h
        | cons cell env =>
          simp only [bind, Option.bind_eq_some_iff] at h ⊢
          obtain ⟨⟨r, s₁, env₁⟩, hx, h⟩ := h
          exact ⟨_, (h1 _ _ _ hx).1, h⟩
      case fallEmit | expandEmit | attrEmit | orElseRun | applyEmit | oncePass | singleUntil | repEmit
          | selActive | onceActive | contContent =>
        simp only [bind, Option.bind_eq_some_iff] at h ⊢
        obtain ⟨⟨r, s₁, env₁⟩, hx, h⟩ := h
        exact ⟨_, (h1 _ _ _ hx).1, h⟩
      case expandStart | attrStart | contOpen | combFirst | combSecond | contClose | selScan
          | onceScan =>
        simp only [bind, Option.bind_eq_some_iff] at h ⊢
        obtain ⟨⟨r, s₁, env₁⟩, hx, h⟩ := h
        exact ⟨_, (h3 _ _ _ hx).1, h⟩
      case peek s x =>
        cases x with
        | some e => exact h
        | none =>
          simp only [bind, Option.bind_eq_some_iff] at h ⊢
          obtain ⟨⟨r, s₁, env₁⟩, hx, h⟩ := h
          exact ⟨_, (h3 _ _ _ hx).1, h⟩
      case remove =>
        simp only [bind, Option.bind_eq_some_iff] at h ⊢
        obtain ⟨⟨r, s₁, env₁⟩, hx, h⟩ := h
        exact ⟨_, (h4 _ _ _ hx).1, h⟩
      case repCollect | applyCollect =>
        simp only [bind, Option.bind_eq_some_iff] at h ⊢
        obtain ⟨⟨r, env₁⟩, hx, h⟩ := h
        exact ⟨_, (h2 _ _ _ hx).1, h⟩
      case curContent tag level =>
        rcases env with _ | ⟨cell, env⟩
        · exact h
        cases cell
        case peek s buffered =>
          simp only [bind] at h ⊢
          rw [Option.bind_eq_some_iff] at h ⊢
          obtain ⟨⟨r, s₁, b₁, env₁⟩, hx, h⟩ := h
          refine ⟨(r, s₁, b₁, env₁), ?_, ?_⟩
          · by_cases hl : level = 0
            · rw [if_pos hl] at hx ⊢
              cases buffered with
              | some e => exact hx
              | none =>
                simp only [Option.bind_eq_some_iff] at hx ⊢
                obtain ⟨⟨r', s₂, env₂⟩, hy, hx⟩ := hx
                exact ⟨_, (h3 _ _ _ hy).1, hx⟩
            · rw [if_neg hl] at hx ⊢
              exact hx
          · cases r with
            | done => exact h
            | err e => exact h
            | ev e =>
              simp only at h ⊢
              split at h
              next hi => rw [if_pos hi]; exact h
              next hi =>
                rw [if_neg hi]
                rw [Option.bind_eq_some_iff] at h ⊢
                obtain ⟨⟨r, cell, env₂⟩, hy, h⟩ := h
                exact ⟨_, (h1 _ _ _ hy).1, h⟩
        all_goals exact h
      all_goals exact h
    have strong : PreservedPeek env n p := by
      rintro s x fs rfl hs henv
      cases x with
      | some e => cases h; exact .inr ⟨_, _, rfl, hs, henv⟩
      | none =>
        simp only [bind, Option.bind_eq_some_iff] at h
        obtain ⟨⟨r, s₁, env₁⟩, hx, h⟩ := h
        cases h
        rcases (h3 _ _ _ hx).2.1 _ _ hs henv with he | ⟨hs', henv', -⟩
        · exact .inl he
        · exact .inr ⟨_, _, rfl, hs', henv'⟩
    have broken : PreservedBroken env n p := by
      intro hb
      cases hb with
      | fallError => cases h; exact .inl ⟨_, rfl⟩
      | fallStart hs => cases h; exact .inr ⟨rfl, .fallEmit hs, rfl⟩
      | fallEmit hs =>
        simp only [bind, Option.bind_eq_some_iff] at h
        obtain ⟨⟨r, s₁, env₁⟩, hx, h⟩ := h
        rcases (h1 _ _ _ hx).2.2.2 hs with ⟨e, rfl⟩ | ⟨hr, hs', he⟩
        · cases h; exact .inl ⟨_, rfl⟩
        · simp only at hr hs' he
          subst hr he
          cases h
          exact .inr ⟨rfl, .fallEmit hs', rfl⟩
      | expandStart hs | contOpen hs | attrStart hs =>
        simp only [bind, Option.bind_eq_some_iff] at h
        obtain ⟨⟨r, s₁, env₁⟩, hx, h⟩ := h
        obtain ⟨e, he⟩ := (h3 _ _ _ hx).2.2 hs
        simp only at he
        subst he
        cases h
        exact .inl ⟨_, rfl⟩
    refine ⟨real, ?_, strong, broken⟩
    intro b fs hn henv
    cases hn
    case source hf =>
      cases henv
      cases hf with
      | ev hs hf =>
        rw [hs] at real
        cases real
        exact .inr ⟨.source hf, .nil, fun _ => ev_ne_done _⟩
      | err hs =>
        rw [hs] at real
        cases real
        exact .inl ⟨_, rfl⟩
    case broken hb =>
      rcases broken hb with he | ⟨hr, hb', he⟩
      · exact .inl he
      · exact .inr ⟨.broken hb', by rw [he]; exact henv, fun _ => by rw [hr]; simp⟩
    case dead => cases h; exact .inr ⟨.dead, henv, (nomatch ·)⟩
    case tmpl es i =>
      cases hi : es[i]? <;> simp only [hi] at h <;> cases h <;>
        exact .inr ⟨.tmpl, henv, (nomatch ·)⟩
    case once x => cases x <;> cases h <;> exact .inr ⟨.once, henv, (nomatch ·)⟩
    case script rs =>
      rcases rs with _ | ⟨_ | _ | _, _⟩ <;> cases h <;> exact .inr ⟨.script, henv, (nomatch ·)⟩
    case fallStart hs => cases h; exact .inr ⟨.fallEmit hs, henv, fun _ => ev_ne_done _⟩
    case fallError => cases h; exact .inl ⟨_, rfl⟩
    case expandClose => cases h; exact .inr ⟨.dead, henv, (nomatch ·)⟩
    case singleStart e s hs =>
      cases e <;> cases h <;> first
        | exact .inr ⟨.singleUntil hs, henv, (nomatch ·)⟩
        | exact .inr ⟨.dead, henv, (nomatch ·)⟩
    case peek s x hs =>
      rcases strong _ _ _ rfl hs henv with he | ⟨s', x', hp, hs', henv'⟩
      · exact .inl he
      · exact .inr ⟨by rw [hp]; exact .peek hs', henv', (nomatch ·)⟩
    case shared =>
      cases henv with
      | plain hc henv =>
        simp only [bind, Option.bind_eq_some_iff] at h
        obtain ⟨⟨r, s₁, env₁⟩, hx, h⟩ := h
        cases h
        rcases (h1 _ _ _ hx).2.1 _ _ hc henv with he | ⟨hs', henv', -⟩
        · exact .inl he
        · exact .inr ⟨.shared, .plain hs' henv', (nomatch ·)⟩
    case fallEmit hs =>
      simp only [bind, Option.bind_eq_some_iff] at h
      obtain ⟨⟨r, s₁, env₁⟩, hx, h⟩ := h
      rcases (h1 _ _ _ hx).2.1 _ _ hs henv with ⟨e, rfl⟩ | ⟨hs', henv', hd⟩
      · cases h; exact .inl ⟨_, rfl⟩
      cases r <;> cases h
      · exact .inr ⟨.fallEmit hs', henv', fun _ => ev_ne_done _⟩
      · exact .inr ⟨dead_of hd, henv', hd⟩
      · exact .inl ⟨_, rfl⟩
    case expandEmit hs =>
      simp only [bind, Option.bind_eq_some_iff] at h
      obtain ⟨⟨r, s₁, env₁⟩, hx, h⟩ := h
      rcases (h1 _ _ _ hx).2.1 _ _ hs henv with ⟨e, rfl⟩ | ⟨hs', henv', hd⟩
      · cases h; exact .inl ⟨_, rfl⟩
      cases r <;> cases h
      · exact .inr ⟨.expandEmit hs', henv', fun _ => ev_ne_done _⟩
      · exact .inr ⟨.dead, henv', (nomatch ·)⟩
      · exact .inl ⟨_, rfl⟩
    case attrEmit hs =>
      simp only [bind, Option.bind_eq_some_iff] at h
      obtain ⟨⟨r, s₁, env₁⟩, hx, h⟩ := h
      rcases (h1 _ _ _ hx).2.1 _ _ hs henv with ⟨e, rfl⟩ | ⟨hs', henv', hd⟩
      · cases h; exact .inl ⟨_, rfl⟩
      cases r <;> cases h
      · exact .inr ⟨.attrEmit hs', henv', fun _ => ev_ne_done _⟩
      · exact .inr ⟨.dead, henv', (nomatch ·)⟩
      · exact .inl ⟨_, rfl⟩
    case orElseRun hs =>
      simp only [bind, Option.bind_eq_some_iff] at h
      obtain ⟨⟨r, s₁, env₁⟩, hx, h⟩ := h
      rcases (h1 _ _ _ hx).2.1 _ _ hs henv with ⟨e, rfl⟩ | ⟨hs', henv', hd⟩
      · cases h; exact .inl ⟨_, rfl⟩
      cases r <;> cases h
      · exact .inr ⟨.orElseRun hs', henv', fun _ => ev_ne_done _⟩
      · exact .inr ⟨dead_of hd, henv', hd⟩
      · exact .inl ⟨_, rfl⟩
    case applyEmit hs =>
      simp only [bind, Option.bind_eq_some_iff] at h
      obtain ⟨⟨r, s₁, env₁⟩, hx, h⟩ := h
      rcases (h1 _ _ _ hx).2.1 _ _ hs henv with ⟨e, rfl⟩ | ⟨hs', henv', hd⟩
      · cases h; exact .inl ⟨_, rfl⟩
      cases r <;> cases h
      · exact .inr ⟨.applyEmit hs', henv', fun _ => ev_ne_done _⟩
      · exact .inr ⟨.dead, henv', (nomatch ·)⟩
      · exact .inl ⟨_, rfl⟩
    case oncePass hs =>
      simp only [bind, Option.bind_eq_some_iff] at h
      obtain ⟨⟨r, s₁, env₁⟩, hx, h⟩ := h
      rcases (h1 _ _ _ hx).2.1 _ _ hs henv with ⟨e, rfl⟩ | ⟨hs', henv', hd⟩
      · cases h; exact .inl ⟨_, rfl⟩
      cases r <;> cases h
      · exact .inr ⟨.oncePass hs', henv', fun _ => ev_ne_done _⟩
      · exact .inr ⟨dead_of hd, henv', hd⟩
      · exact .inl ⟨_, rfl⟩
    case singleUntil hs =>
      simp only [bind, Option.bind_eq_some_iff] at h
      obtain ⟨⟨r, s₁, env₁⟩, hx, h⟩ := h
      rcases (h1 _ _ _ hx).2.1 _ _ hs henv with ⟨e, rfl⟩ | ⟨hs', henv', hd⟩
      · cases h; exact .inl ⟨_, rfl⟩
      cases r <;> cases h
      · refine .inr ⟨?_, henv', (nomatch ·)⟩
        simp only [singleUntilStep]
        repeat' split
        all_goals first
          | exact .singleUntil hs'
          | exact .dead
      · exact .inr ⟨.dead, henv', (nomatch ·)⟩
      · exact .inl ⟨_, rfl⟩
    case repEmit hs =>
      simp only [bind, Option.bind_eq_some_iff] at h
      obtain ⟨⟨r, s₁, env₁⟩, hx, h⟩ := h
      rcases (h1 _ _ _ hx).2.1 _ _ hs henv with ⟨e, rfl⟩ | ⟨hs', henv', hd⟩
      · cases h; exact .inl ⟨_, rfl⟩
      cases r <;> cases h
      · exact .inr ⟨.repEmit hs', henv', (nomatch ·)⟩
      · exact .inr ⟨.repNext, henv', (nomatch ·)⟩
      · exact .inl ⟨_, rfl⟩
    case selActive hs hst =>
      simp only [bind, Option.bind_eq_some_iff] at h
      obtain ⟨⟨r, s₁, cells⟩, hx, h⟩ := h
      rcases (h1 _ _ _ hx).2.1 _ _ hst (.plain hs henv) with ⟨e, he⟩ | ⟨hst', henv', -⟩
      · simp only at he
        subst he
        cases cells with
        | nil => cases h
        | cons => cases h; exact .inl ⟨_, rfl⟩
      cases henv' with
      | plain hs' henv' =>
        cases r <;> cases h
        · exact .inr ⟨.selActive hs' hst', henv', fun _ => ev_ne_done _⟩
        · exact .inr ⟨.selScan hs', henv', fun _ => ev_ne_done _⟩
        · exact .inl ⟨_, rfl⟩
    case onceActive hs hst =>
      simp only [bind, Option.bind_eq_some_iff] at h
      obtain ⟨⟨r, s₁, cells⟩, hx, h⟩ := h
      rcases (h1 _ _ _ hx).2.1 _ _ hst (.plain hs henv) with ⟨e, he⟩ | ⟨hst', henv', -⟩
      · simp only at he
        subst he
        cases cells with
        | nil => cases h
        | cons => cases h; exact .inl ⟨_, rfl⟩
      cases henv' with
      | plain hs' henv' =>
        cases r <;> cases h
        · exact .inr ⟨.onceActive hs' hst', henv', fun _ => ev_ne_done _⟩
        · exact .inr ⟨.oncePass hs', henv', fun _ => ev_ne_done _⟩
        · exact .inl ⟨_, rfl⟩
    case contContent hs hst =>
      simp only [bind, Option.bind_eq_some_iff] at h
      obtain ⟨⟨r, s₁, cells⟩, hx, h⟩ := h
      rcases (h1 _ _ _ hx).2.1 _ _ hst (.peeked hs henv) with ⟨e, he⟩ | ⟨hst', henv', -⟩
      · simp only at he
        subst he
        cases cells with
        | nil => cases h
        | cons => cases h; exact .inl ⟨_, rfl⟩
      cases henv' with
      | peeked hs' henv' =>
        cases r <;> cases h
        · exact .inr ⟨.contContent hs' hst', henv', (nomatch ·)⟩
        · exact .inr ⟨.contClose (.peek hs'), henv', (nomatch ·)⟩
        · exact .inl ⟨_, rfl⟩
    case combContent hs ht =>
      simp only [bind, Option.bind_eq_some_iff] at h
      obtain ⟨⟨r, s₁, env₁⟩, hx, h⟩ := h
      rcases (h3 _ _ _ hx).2.1 _ _ hs henv with ⟨e, rfl⟩ | ⟨hs', henv', hd⟩
      · cases h; exact .inl ⟨_, rfl⟩
      cases r <;> cases h
      · exact .inr ⟨.combContent hs' ht, henv', fun _ => ev_ne_done _⟩
      · exact .inr ⟨.combSecond ht, henv', fun _ => ev_ne_done _⟩
      · exact .inl ⟨_, rfl⟩
    case combStream hs =>
      simp only [bind, Option.bind_eq_some_iff] at h
      obtain ⟨⟨r, s₁, env₁⟩, hx, h⟩ := h
      rcases (h3 _ _ _ hx).2.1 _ _ hs henv with ⟨e, rfl⟩ | ⟨hs', henv', hd⟩
      · cases h; exact .inl ⟨_, rfl⟩
      cases r <;> cases h
      · exact .inr ⟨.combStream hs', henv', fun _ => ev_ne_done _⟩
      · exact absurd rfl (hd rfl)
      · exact .inl ⟨_, rfl⟩
    case combSecond hs =>
      simp only [bind, Option.bind_eq_some_iff] at h
      obtain ⟨⟨r, s₁, env₁⟩, hx, h⟩ := h
      rcases (h3 _ _ _ hx).2.1 _ _ hs henv with ⟨e, rfl⟩ | ⟨hs', henv', hd⟩
      · cases h; exact .inl ⟨_, rfl⟩
      cases r <;> cases h
      · exact .inr ⟨.combSecond hs', henv', fun _ => ev_ne_done _⟩
      · exact .inr ⟨dead_of hd, henv', hd⟩
      · exact .inl ⟨_, rfl⟩
    case expandStart hs =>
      simp only [bind, Option.bind_eq_some_iff] at h
      obtain ⟨⟨r, s₁, env₁⟩, hx, h⟩ := h
      rcases (h3 _ _ _ hx).2.1 _ _ hs henv with ⟨e, rfl⟩ | ⟨hs', henv', hd⟩
      · cases h; exact .inl ⟨_, rfl⟩
      rcases r with e | _ | _
      · cases e <;> cases h <;> first
          | exact .inr ⟨.expandEmit hs', henv', (nomatch ·)⟩
          | exact .inr ⟨.expandClose, henv', (nomatch ·)⟩
          | exact .inr ⟨.dead, henv', (nomatch ·)⟩
          | exact .inl ⟨_, rfl⟩
      all_goals
        cases h
        first
          | exact .inr ⟨.dead, henv', (nomatch ·)⟩
          | exact .inl ⟨_, rfl⟩
    case attrStart hs =>
      simp only [bind, Option.bind_eq_some_iff] at h
      obtain ⟨⟨r, s₁, env₁⟩, hx, h⟩ := h
      rcases (h3 _ _ _ hx).2.1 _ _ hs henv with ⟨e, rfl⟩ | ⟨hs', henv', hd⟩
      · cases h; exact .inl ⟨_, rfl⟩
      rcases r with e | _ | _
      · cases e <;> cases h <;> first
          | exact .inr ⟨.attrEmit hs', henv', (nomatch ·)⟩
          | exact .inr ⟨.dead, henv', (nomatch ·)⟩
          | exact .inl ⟨_, rfl⟩
      all_goals
        cases h
        first
          | exact .inr ⟨.dead, henv', (nomatch ·)⟩
          | exact .inl ⟨_, rfl⟩
    case contOpen hs =>
      simp only [bind, Option.bind_eq_some_iff] at h
      obtain ⟨⟨r, s₁, env₁⟩, hx, h⟩ := h
      rcases (h3 _ _ _ hx).2.1 _ _ hs henv with ⟨e, rfl⟩ | ⟨hs', henv', hd⟩
      · cases h; exact .inl ⟨_, rfl⟩
      rcases r with e | _ | _
      · cases e <;> cases h <;> first
          | exact .inr ⟨.contContent hs' (.build _ .curContent), henv', (nomatch ·)⟩
          | exact .inr ⟨.dead, henv', (nomatch ·)⟩
          | exact .inl ⟨_, rfl⟩
      all_goals
        cases h
        first
          | exact .inr ⟨.dead, henv', (nomatch ·)⟩
          | exact .inl ⟨_, rfl⟩
    case contClose hs =>
      simp only [bind, Option.bind_eq_some_iff] at h
      obtain ⟨⟨r, s₁, env₁⟩, hx, h⟩ := h
      rcases (h3 _ _ _ hx).2.1 _ _ hs henv with ⟨e, rfl⟩ | ⟨hs', henv', hd⟩
      · cases h; exact .inl ⟨_, rfl⟩
      rcases r with e | _ | _
      · cases e
        case closingTag t =>
          simp only at h
          split at h <;> cases h <;> first
            | exact .inr ⟨.dead, henv', (nomatch ·)⟩
            | exact .inl ⟨_, rfl⟩
        all_goals
          cases h
          first
            | exact .inr ⟨.dead, henv', (nomatch ·)⟩
            | exact .inl ⟨_, rfl⟩
      all_goals
        cases h
        first
          | exact .inr ⟨.dead, henv', (nomatch ·)⟩
          | exact .inl ⟨_, rfl⟩
    case remove hs =>
      simp only [bind, Option.bind_eq_some_iff] at h
      obtain ⟨⟨r, s₁, env₁⟩, hx, h⟩ := h
      rcases (h4 _ _ _ hx).2 _ _ hs henv with ⟨e, rfl⟩ | ⟨hs', henv', hd⟩
      · cases h; exact .inl ⟨_, rfl⟩
      cases h
      exact .inr ⟨.remove hs', henv', hd⟩
    case repCollect hs =>
      simp only [bind, Option.bind_eq_some_iff] at h
      obtain ⟨⟨r, env₁⟩, hx, h⟩ := h
      rcases (h2 _ _ _ hx).2 _ _ hs henv with ⟨e, rfl⟩ | ⟨rfl, henv'⟩
      · cases h; exact .inl ⟨_, rfl⟩
      cases r <;> cases h
      · exact .inl ⟨_, rfl⟩
      · exact .inr ⟨.repNext, henv', (nomatch ·)⟩
    case applyCollect s g hs =>
      simp only [bind, Option.bind_eq_some_iff] at h
      obtain ⟨⟨r, env₁⟩, hx, h⟩ := h
      rcases (h2 _ _ _ hx).2 _ _ hs henv with ⟨e, rfl⟩ | ⟨rfl, henv'⟩
      · cases h; exact .inl ⟨_, rfl⟩
      cases r with
      | error e => cases h; exact .inl ⟨_, rfl⟩
      | ok es =>
        cases hg : g ⟨es⟩ <;> simp only [hg] at h <;> cases h
        · exact .inl ⟨_, rfl⟩
        · exact .inr ⟨.applyEmit .tmpl, henv', (nomatch ·)⟩
    case repNext =>
      simp only at h
      split at h <;> cases h
      · exact .inr ⟨.repEmit (.build _ .tmpl), henv, (nomatch ·)⟩
      · exact .inr ⟨.dead, henv, (nomatch ·)⟩
    case orElseStart hr hs =>
      simp only at h
      split at h <;> cases h
      · exact .inr ⟨.orElseRun hr, henv, fun _ => ev_ne_done _⟩
      · exact .inr ⟨.orElseRun hs, henv, fun _ => ev_ne_done _⟩
    case selScan src s direct k bld count level hs =>
      simp only [bind, Option.bind_eq_some_iff] at h
      obtain ⟨⟨r, s₁, env₁⟩, hx, h⟩ := h
      rcases (h3 _ _ _ hx).2.1 _ _ hs henv with ⟨e, rfl⟩ | ⟨hs', henv', hd⟩
      · cases h; exact .inl ⟨_, rfl⟩
      cases r with
      | ev e =>
        simp only at h
        split at h
        · cases h
          exact .inr ⟨.selActive hs' (.build _ (.singleStart .shared)), henv', fun _ => ev_ne_done _⟩
        · cases hl : levelAdjust level e <;> simp only [hl] at h <;> cases h
          · exact .inl ⟨_, rfl⟩
          · exact .inr ⟨.selScan hs', henv', fun _ => ev_ne_done _⟩
      | done => cases h; exact .inr ⟨dead_of hd, henv', hd⟩
      | err e => cases h; exact .inl ⟨_, rfl⟩
    case onceScan src s direct k bld level hs =>
      simp only [bind, Option.bind_eq_some_iff] at h
      obtain ⟨⟨r, s₁, env₁⟩, hx, h⟩ := h
      rcases (h3 _ _ _ hx).2.1 _ _ hs henv with ⟨e, rfl⟩ | ⟨hs', henv', hd⟩
      · cases h; exact .inl ⟨_, rfl⟩
      cases r with
      | ev e =>
        simp only at h
        split at h
        · cases h
          exact .inr ⟨.onceActive hs' (.build _ (.singleStart .shared)), henv', fun _ => ev_ne_done _⟩
        · cases hl : levelAdjust level e <;> simp only [hl] at h <;> cases h
          · exact .inl ⟨_, rfl⟩
          · exact .inr ⟨.onceScan hs', henv', fun _ => ev_ne_done _⟩
      | done => cases h; exact .inr ⟨dead_of hd, henv', hd⟩
      | err e => cases h; exact .inl ⟨_, rfl⟩
    case curContent fs tag level =>
      cases henv with
      | @peeked _ s buffered env hs henv =>
        simp only [bind] at h
        rw [Option.bind_eq_some_iff] at h
        obtain ⟨⟨r, s₁, b₁, env₁⟩, hx, h⟩ := h
        have phase : (∃ e, r = .err e) ∨ (Live false fs s₁ ∧ LiveAll fs env₁) := by
          by_cases hl : level = 0
          · rw [if_pos hl] at hx
            cases buffered with
            | some e => cases hx; exact .inr ⟨hs, henv⟩
            | none =>
              simp only [Option.bind_eq_some_iff] at hx
              obtain ⟨⟨r', s₂, env₂⟩, hy, hx⟩ := hx
              rcases (h3 _ _ _ hy).2.1 _ _ hs henv with ⟨e, rfl⟩ | ⟨hs', henv', -⟩
              · cases hx; exact .inl ⟨_, rfl⟩
              · cases r' <;> cases hx <;> exact .inr ⟨hs', henv'⟩
          · rw [if_neg hl] at hx
            cases hx
            exact .inr ⟨hs, henv⟩
        rcases phase with ⟨e, rfl⟩ | ⟨hs₁, henv₁⟩
        · cases h; exact .inl ⟨_, rfl⟩
        cases r with
        | done => cases h; exact .inr ⟨.dead, .peeked hs₁ henv₁, (nomatch ·)⟩
        | err e => cases h; exact .inl ⟨_, rfl⟩
        | ev peeked =>
          simp only at h
          split at h
          · cases h; exact .inr ⟨.dead, .peeked hs₁ henv₁, (nomatch ·)⟩
          · rw [Option.bind_eq_some_iff] at h
            obtain ⟨⟨r, cell, env₂⟩, hy, h⟩ := h
            rcases (h1 _ _ _ hy).2.2.1 _ _ _ rfl hs₁ henv₁ with ⟨e, rfl⟩ | ⟨s', x', hp, hs', henv'⟩
            · cases h; exact .inl ⟨_, rfl⟩
            simp only at hp henv'
            subst hp
            cases r with
            | done => cases h; exact .inr ⟨.dead, .peeked hs' henv', (nomatch ·)⟩
            | err e => cases h; exact .inl ⟨_, rfl⟩
            | ev e =>
              cases hl : levelAdjust level e <;> simp only [hl] at h <;> cases h
              · exact .inl ⟨_, rfl⟩
              · exact .inr ⟨.curContent, .peeked hs' henv', (nomatch ·)⟩
  · intro collect' skip h2 h3 env n p h
    have real : collect env n = some p := by
      rw [collect.eq_def]
      simp only [bind, Option.bind_eq_some_iff] at h ⊢
      obtain ⟨⟨r, s₁, env₁⟩, hx, h⟩ := h
      refine ⟨_, (h3 _ _ _ hx).1, ?_⟩
      cases r with
      | done => exact h
      | err e => exact h
      | ev e =>
        simp only [Option.bind_eq_some_iff] at h ⊢
        obtain ⟨x, hy, h⟩ := h
        exact ⟨_, (h2 _ _ _ hy).1, h⟩
    refine ⟨real, fun b fs hn henv => ?_⟩
    simp only [bind, Option.bind_eq_some_iff] at h
    obtain ⟨⟨r, s₁, env₁⟩, hx, h⟩ := h
    rcases (h3 _ _ _ hx).2.1 _ _ hn henv with ⟨e, rfl⟩ | ⟨hn', henv', hd⟩
    · cases h; exact .inl ⟨_, rfl⟩
    cases r with
    | done =>
      cases h
      cases b with
      | true => exact absurd rfl (hd rfl)
      | false => exact .inr ⟨rfl, henv'⟩
    | err e => cases h; exact .inl ⟨_, rfl⟩
    | ev e =>
      simp only [Option.bind_eq_some_iff] at h
      obtain ⟨⟨r, env₂⟩, hy, h⟩ := h
      rcases (h2 _ _ _ hy).2 _ _ hn' henv' with ⟨e, rfl⟩ | ⟨rfl, henv''⟩
      · cases h; exact .inl ⟨_, rfl⟩
      · cases r <;> cases h
        · exact .inl ⟨_, rfl⟩
        · exact .inr ⟨rfl, henv''⟩
  · intro next' skip h1 h3 env n p h
    simp only [bind, Option.bind_eq_some_iff] at h
    obtain ⟨⟨r, s₁, env₁⟩, hx, h⟩ := h
    by_cases hr : r = .ev .noop
    · subst hr
      simp only at h
      refine ⟨by rw [nextSkipNoop_noop (h1 _ _ _ hx).1]; exact (h3 _ _ _ h).1, ?_, ?_⟩
      · intro b fs hn henv
        rcases (h1 _ _ _ hx).2.1 _ _ hn henv with ⟨e, he⟩ | ⟨hn', henv', -⟩
        · cases he
        · exact (h3 _ _ _ h).2.1 _ _ hn' henv'
      · intro hb
        rcases (h1 _ _ _ hx).2.2.2 hb with ⟨e, he⟩ | ⟨-, hb', -⟩
        · cases he
        · exact (h3 _ _ _ h).2.2 hb'
    · have hp : p = (r, s₁, env₁) := by
        rcases r with e | _ | _
        · cases e <;> first
            | exact absurd rfl hr
            | (cases h; rfl)
        all_goals cases h; rfl
      subst hp
      refine ⟨nextSkipNoop_of (h1 _ _ _ hx).1 hr, (h1 _ _ _ hx).2.1, ?_⟩
      intro hb
      rcases (h1 _ _ _ hx).2.2.2 hb with he | ⟨he, -⟩
      · exact he
      · exact absurd he hr
  · intro next' drain' h1 h4 env n p h
    have real : drain env n = some p := by
      rw [drain.eq_def]
      simp only [bind, Option.bind_eq_some_iff] at h ⊢
      obtain ⟨⟨r, s₁, env₁⟩, hx, h⟩ := h
      refine ⟨_, (h1 _ _ _ hx).1, ?_⟩
      cases r with
      | done => exact h
      | err e => exact h
      | ev e => exact (h4 _ _ _ h).1
    refine ⟨real, fun b fs hn henv => ?_⟩
    simp only [bind, Option.bind_eq_some_iff] at h
    obtain ⟨⟨r, s₁, env₁⟩, hx, h⟩ := h
    rcases (h1 _ _ _ hx).2.1 _ _ hn henv with ⟨e, rfl⟩ | ⟨hn', henv', hd⟩
    · cases h; exact .inl ⟨_, rfl⟩
    cases r with
    | done => cases h; exact .inr ⟨hn', henv', hd⟩
    | err e => cases h; exact .inl ⟨_, rfl⟩
    | ev e => exact (h4 _ _ _ h).2 _ _ hn' henv'

/-- If a chain fails then it fails with further calls. -/
theorem run_error {a k : Kind} (p : Prog a .gen) (q : Prog .gen k) (es : List Event) (e : StreamError)
    (h : run p es = some (.error e)) : ∃ e', run (.apply p q) es = some (.error e') := by
  obtain ⟨j, hh⟩ := halts_build p (· = []) [] (.tmpl es 0) (halts_tmpl (Post := (· = [])) rfl es 0)
  simp only [run, Option.map_eq_some_iff] at h
  obtain ⟨⟨r, env⟩, hc, rfl⟩ := h
  have hf := failing_of_halt hh hc
  obtain ⟨o, -, hq⟩ := run_total (.apply p q) es
  rw [hq]
  simp only [run, Option.map_eq_some_iff] at hq
  obtain ⟨⟨r', env'⟩, hc', hr⟩ := hq
  have hl : Live true [] (q.build (p.build (.tmpl es 0))) :=
    (Sturdy.build q (fs := []) (Live.source hf)).live
  rcases (machine_live.2.1 _ _ _ hc').2 _ _ hl .nil with ⟨e', he⟩ | ⟨hb, -⟩
  · simp only at he hr
    subst he
    exact ⟨e', by rw [← hr]⟩
  · cases hb

end Fuser
