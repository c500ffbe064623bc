import Verif.Proof.Refine2

/-!
# Termination of arbitrary streams
-/

namespace Fuser

open Spec

/-- The stream has ended and keeps reporting that; `Post` always holds of the cells. -/
def Quiet (Post : Env → Prop) (env : Env) (n : Node) : Prop :=
  ∃ I : Env → Node → Prop, I env n ∧ ∀ env n, I env n →
    Post env ∧ ∃ n' env', next env n = some (.done, n', env') ∧ I env' n'

theorem Quiet.post {Post env n} (h : Quiet Post env n) : Post env := by
  obtain ⟨I, h1, h2⟩ := h
  exact (h2 _ _ h1).1

theorem Quiet.step {Post env n} (h : Quiet Post env n) :
    ∃ n' env', next env n = some (.done, n', env') ∧ Quiet Post env' n' := by
  obtain ⟨I, h1, h2⟩ := h
  obtain ⟨-, n', env', h3, h4⟩ := h2 _ _ h1
  exact ⟨n', env', h3, I, h4, h2⟩

theorem Quiet.mono {P Post : Env → Prop} (hp : ∀ env, P env → Post env) {env n}
    (h : Quiet P env n) : Quiet Post env n := by
  obtain ⟨I, h1, h2⟩ := h
  exact ⟨I, h1, fun env n h => ⟨hp _ (h2 env n h).1, (h2 env n h).2⟩⟩

/-- A stream that does not change. -/
theorem Quiet.fixed {Post : Env → Prop} {env n} (h : next env n = some (.done, n, env))
    (hP : Post env) : Quiet Post env n := by
  refine ⟨fun e m => e = env ∧ m = n, ⟨rfl, rfl⟩, ?_⟩
  rintro _ _ ⟨rfl, rfl⟩
  exact ⟨hP, _, _, h, rfl, rfl⟩

theorem Quiet.dead {Post : Env → Prop} {env} (hP : Post env) : Quiet Post env .dead :=
  .fixed (next_dead env) hP

/-- The stream ends after at most `k` events; `Post` always holds of the cells. -/
inductive HaltIn (Post : Env → Prop) : Nat → Env → Node → Prop
  | ev {k env n n' env' e} : Post env → next env n = some (.ev e, n', env') → HaltIn Post k env' n' →
      HaltIn Post (k + 1) env n
  | quiet {k env n} : Quiet Post env n → HaltIn Post k env n
  | err {k env n n' env' e} : Post env → next env n = some (.err e, n', env') → HaltIn Post k env n

/-- The stream ends. -/
def Halts (Post : Env → Prop) (env : Env) (n : Node) : Prop := ∃ k, HaltIn Post k env n

theorem HaltIn.post {Post k env n} (h : HaltIn Post k env n) : Post env := by
  cases h with
  | ev hP => exact hP
  | quiet h => exact h.post
  | err hP => exact hP

theorem HaltIn.le {Post k env n} (h : HaltIn Post k env n) {m : Nat} (hm : k ≤ m) :
    HaltIn Post m env n := by
  induction h generalizing m with
  | ev hP h _ ih =>
    obtain ⟨m, rfl⟩ : ∃ m', m = m' + 1 := ⟨m - 1, by omega⟩
    exact .ev hP h (ih (by omega))
  | quiet h => exact .quiet h
  | err hP h => exact .err hP h

theorem Halts.post {Post env n} (h : Halts Post env n) : Post env := h.choose_spec.post

theorem Halts.ev {Post : Env → Prop} {env n n' env' e} (hP : Post env)
    (h : next env n = some (.ev e, n', env')) (h' : Halts Post env' n') : Halts Post env n := by
  obtain ⟨k, h'⟩ := h'
  exact ⟨_, .ev hP h h'⟩

theorem Halts.quiet {Post env n} (h : Quiet Post env n) : Halts Post env n := ⟨0, .quiet h⟩

theorem Halts.dead {Post : Env → Prop} {env} (h : Post env) : Halts Post env .dead :=
  .quiet (.dead h)

theorem Halts.done {Post : Env → Prop} {env n env'} (hP : Post env)
    (h : next env n = some (.done, .dead, env')) (hP' : Post env') : Halts Post env n := by
  refine .quiet ⟨fun e m => (e = env ∧ m = n) ∨ (e = env' ∧ m = .dead), .inl ⟨rfl, rfl⟩, ?_⟩
  rintro _ _ (⟨rfl, rfl⟩ | ⟨rfl, rfl⟩)
  · exact ⟨hP, _, _, h, .inr ⟨rfl, rfl⟩⟩
  · exact ⟨hP', _, _, next_dead _, .inr ⟨rfl, rfl⟩⟩

theorem Halts.err {Post : Env → Prop} {env n n' env' e} (hP : Post env)
    (h : next env n = some (.err e, n', env')) : Halts Post env n := ⟨0, .err hP h⟩

/-- Pulling with `next_event_skip_noop`. -/
inductive Skip (Post : Env → Prop) (k : Nat) (env : Env) (n : Node) : Prop
  | ev (k' e n' env') : nextSkipNoop env n = some (.ev e, n', env') → k' < k →
      HaltIn Post k' env' n' → Skip Post k env n
  | done (n' env') : nextSkipNoop env n = some (.done, n', env') → Quiet Post env' n' →
      Skip Post k env n
  | err (e n' env') : nextSkipNoop env n = some (.err e, n', env') → Skip Post k env n

theorem HaltIn.skip {Post k env n} (h : HaltIn Post k env n) : Skip Post k env n := by
  induction h with
  | @ev k env n n' env' e hP h h' ih =>
    by_cases he : e = .noop
    · subst he
      have hn := nextSkipNoop_noop h
      cases ih with
      | ev k' e n' env' h1 h2 h3 => exact .ev k' e n' env' (hn.trans h1) (by omega) h3
      | done n' env' h1 h2 => exact .done n' env' (hn.trans h1) h2
      | err e n' env' h1 => exact .err e n' env' (hn.trans h1)
    · exact .ev k e n' env' (nextSkipNoop_of h (by simpa using he)) (by omega) h'
  | quiet h =>
    obtain ⟨n', env', h1, h2⟩ := h.step
    exact .done n' env' (nextSkipNoop_of h1 (by simp)) h2
  | err hP h => exact .err _ _ _ (nextSkipNoop_of h (by simp))

/-- A stream that ends has a run. -/
theorem HaltIn.run {Post k env n} (h : HaltIn Post k env n) : ∃ o, Run Post env n o := by
  induction h with
  | @ev k env n n' env' e hP h _ ih =>
    obtain ⟨o, ho⟩ := ih
    by_cases he : e = .noop
    · subst he
      exact ⟨o, .noop h ho⟩
    · exact ⟨_, .ev h he ho⟩
  | quiet h =>
    obtain ⟨n', env', h1, h2⟩ := h.step
    exact ⟨_, .done h1 h2.post⟩
  | err hP h => exact ⟨_, .err h⟩

/-! ## Streams one by one -/

theorem Forwards.halts {C : Node → Node} (hC : Forwards C) {Post env n} (h : Halts Post env n) :
    Halts Post env (C n) := by
  obtain ⟨k, h⟩ := h
  induction h with
  | ev hP h _ ih => exact .ev hP (by rw [hC, h]; rfl) ih
  | quiet h =>
    obtain ⟨n', env', h1, h2⟩ := h.step
    exact .done h.post (by rw [hC, h1]; rfl) h2.post
  | err hP h => exact .err hP (by rw [hC, h]; rfl)

theorem halts_fallStart {Post env n} (h : Halts Post env n) : Halts Post env (.fallStart n) :=
  .ev h.post (by rw [next]) (forwards_fallEmit.halts h)

theorem halts_fallError {Post : Env → Prop} {env e} (h : Post env) :
    Halts Post env (.fallError e) :=
  .err h (by rw [next])

theorem HaltIn.drain {Post k env n} (h : HaltIn Post k env n) :
    (∃ n' env', drain env n = some (.done, n', env') ∧ Quiet Post env' n') ∨
      ∃ e n' env', drain env n = some (.err e, n', env') := by
  induction h with
  | ev hP h _ ih =>
    rcases ih with ⟨n', env', h1, h2⟩ | ⟨e, n', env', h1⟩
    · exact .inl ⟨n', env', by rw [Fuser.drain, h]; exact h1, h2⟩
    · exact .inr ⟨e, n', env', by rw [Fuser.drain, h]; exact h1⟩
  | quiet h =>
    obtain ⟨n', env', h1, h2⟩ := h.step
    exact .inl ⟨n', env', by rw [Fuser.drain, h1]; rfl, h2⟩
  | err hP h => exact .inr ⟨_, _, _, by rw [Fuser.drain, h]; rfl⟩

theorem halts_remove {Post env n} (h : Halts Post env n) : Halts Post env (.remove n) := by
  obtain ⟨k, h⟩ := h
  rcases h.drain with ⟨n', env', h1, h2⟩ | ⟨e, n', env', h1⟩
  · refine .quiet ⟨fun e m => ∃ x, m = .remove x ∧ Post e ∧ ∃ x' e',
      Fuser.drain e x = some (.done, x', e') ∧ Quiet Post e' x', ⟨n, rfl, h.post, n', env', h1, h2⟩,
      ?_⟩
    rintro e _ ⟨x, rfl, hP, x', e', h3, h4⟩
    refine ⟨hP, .remove x', e', by rw [next, h3]; rfl, x', rfl, h4.post, ?_⟩
    obtain ⟨x'', e'', h5, h6⟩ := h4.step
    exact ⟨x'', e'', by rw [Fuser.drain, h5]; rfl, h6⟩
  · exact .err h.post (by rw [next, h1]; rfl)

/-- The stream ends; what it does after that is open. -/
inductive Ends (Post : Env → Prop) : Env → Node → Prop
  | ev {env n n' env' e} : Post env → next env n = some (.ev e, n', env') → Ends Post env' n' →
      Ends Post env n
  | done {env n n' env'} : Post env → next env n = some (.done, n', env') → Post env' →
      Ends Post env n
  | err {env n n' env' e} : Post env → next env n = some (.err e, n', env') → Ends Post env n

theorem Halts.ends {Post env n} (h : Halts Post env n) : Ends Post env n := by
  obtain ⟨k, h⟩ := h
  induction h with
  | ev hP h _ ih => exact .ev hP h ih
  | quiet h =>
    obtain ⟨n', env', h1, h2⟩ := h.step
    exact .done h.post h1 h2.post
  | err hP h => exact .err hP h

theorem Forwards.halts_of_ends {C : Node → Node} (hC : Forwards C) {Post env n}
    (h : Ends Post env n) : Halts Post env (C n) := by
  induction h with
  | ev hP h _ ih => exact .ev hP (by rw [hC, h]; rfl) ih
  | done hP h hP' => exact .done hP (by rw [hC, h]; rfl) hP'
  | err hP h => exact .err hP (by rw [hC, h]; rfl)

/-- A step that does not depend on `noop` events before. -/
theorem Halts.skipped {Post : Env → Prop} {env env' n n'} {C : Node → Node} (hP : Post env)
    (h : next env n = some (.ev .noop, n', env'))
    (hC : nextSkipNoop env n = nextSkipNoop env' n' → next env (C n) = next env' (C n'))
    (h' : Halts Post env' (C n')) : Halts Post env (C n) := by
  have h1 := hC (nextSkipNoop_noop h)
  obtain ⟨k, h'⟩ := h'
  cases h' with
  | ev _ h2 h3 => exact .ev hP (h1.trans h2) ⟨_, h3⟩
  | quiet h2 =>
    obtain ⟨n'', env'', h3, h4⟩ := h2.step
    obtain ⟨I, h5, h6⟩ := h4
    refine .quiet ⟨fun e m => (e = env ∧ m = C n) ∨ I e m, .inl ⟨rfl, rfl⟩, ?_⟩
    rintro e m (⟨rfl, rfl⟩ | h7)
    · exact ⟨hP, _, _, h1.trans h3, .inr h5⟩
    · obtain ⟨h8, n3, e3, h9, h10⟩ := h6 _ _ h7
      exact ⟨h8, n3, e3, h9, .inr h10⟩
  | err _ h2 => exact .err hP (h1.trans h2)

theorem halts_combSecond {Post env n} (h : Ends Post env n) : Halts Post env (.combSecond n) := by
  induction h with
  | @ev env n n' env' e hP h _ ih =>
    by_cases he : e = .noop
    · subst he
      exact .skipped (C := .combSecond) hP h (fun h => by rw [next, next, h]) ih
    · exact .ev hP (by rw [next, nextSkipNoop_of h (by simpa using he)]; rfl) ih
  | done hP h hP' => exact .done hP (by rw [next, nextSkipNoop_of h (by simp)]; rfl) hP'
  | err hP h => exact .err hP (by rw [next, nextSkipNoop_of h (by simp)]; rfl)

theorem halts_combFirst {P Post : Env → Prop} {env n m} (hp : ∀ env, P env → Post env)
    (h : Ends P env n) (h' : ∀ env, P env → Ends Post env m) :
    Halts Post env (.combFirst n m) := by
  induction h with
  | @ev env n n' env' e hP h _ ih =>
    by_cases he : e = .noop
    · subst he
      exact .skipped (C := fun n => .combFirst n m) (hp _ hP) h (fun h => by rw [next, next, h]) ih
    · exact .ev (hp _ hP) (by rw [next, nextSkipNoop_of h (by simpa using he)]; rfl) ih
  | done hP h hP' =>
    exact .ev (hp _ hP) (by rw [next, nextSkipNoop_of h (by simp)]; rfl)
      (halts_combSecond (h' _ hP'))
  | err hP h => exact .err (hp _ hP) (by rw [next, nextSkipNoop_of h (by simp)]; rfl)

theorem halts_tmpl {Post : Env → Prop} {env} (h : Post env) (es : List Event) (i : Nat) :
    Halts Post env (.tmpl es i) := by
  cases hi : es[i]? with
  | none => exact .quiet (.fixed (by rw [next, hi]) h)
  | some e =>
    have : i < es.length := (List.getElem?_eq_some_iff.1 hi).1
    exact .ev h (by rw [next, hi]) (halts_tmpl h es (i + 1))
termination_by es.length - i

theorem ends_script {Post : Env → Prop} {env} (h : Post env)
    (rs : List (Except StreamError (Option Event))) : Ends Post env (.script rs) := by
  induction rs with
  | nil => exact .done h (by rw [next]) h
  | cons r rs ih =>
    rcases r with e | _ | e
    · exact .err h (by rw [next])
    · exact .done h (by rw [next]) h
    · exact .ev h (by rw [next]) ih

theorem ends_content {Post : Env → Prop} {env} (h : Post env) (c : Content) :
    Ends Post env c.intoStream := by
  induction c with
  | data d =>
    exact .ev h (by rw [Content.intoStream, next]) (.done h (by rw [next]) h)
  | template t => exact (halts_tmpl h t.events 0).ends
  | script rs => exact ends_script h rs
  | resultOk c ih =>
    exact .ev h (by rw [Content.intoStream, next]) (forwards_fallEmit.halts_of_ends ih).ends
  | resultErr e => exact (halts_fallError h).ends

theorem halts_expand {Post env n} (h : Halts Post env n) : Halts Post env (.expandStart n) := by
  obtain ⟨k, h⟩ := h
  cases h.skip with
  | ev k' e n' env' h1 h2 h3 =>
    cases e with
    | openingTag t as =>
      exact .ev h.post (by rw [next, h1]; rfl) (forwards_expandEmit.halts ⟨_, h3⟩)
    | selfClosedTag t as =>
      exact .ev h.post (by rw [next, h1]; rfl)
        (.ev (e := .closingTag t) h3.post (by rw [next]) (.dead h3.post))
    | voidTag t as => exact .ev h.post (by rw [next, h1]; rfl) (.dead h3.post)
    | _ => exact .err h.post (by rw [next, h1]; rfl)
  | done n' env' h1 h2 => exact .err h.post (by rw [next, h1]; rfl)
  | err e n' env' h1 => exact .err h.post (by rw [next, h1]; rfl)

theorem halts_attr {Post env n op} (h : Halts Post env n) : Halts Post env (.attrStart op n) := by
  obtain ⟨k, h⟩ := h
  cases h.skip with
  | ev k' e n' env' h1 h2 h3 =>
    cases e with
    | openingTag t as =>
      exact .ev h.post (by rw [next, h1]; rfl) (forwards_attrEmit.halts ⟨_, h3⟩)
    | selfClosedTag t as => exact .ev h.post (by rw [next, h1]; rfl) (.dead h3.post)
    | voidTag t as => exact .ev h.post (by rw [next, h1]; rfl) (.dead h3.post)
    | _ => exact .err h.post (by rw [next, h1]; rfl)
  | done n' env' h1 h2 => exact .err h.post (by rw [next, h1]; rfl)
  | err e n' env' h1 => exact .err h.post (by rw [next, h1]; rfl)

theorem halts_peek {Post env s} (h : Halts Post env s) (buf : Option Event) :
    Halts Post env (.peek s buf) := by
  have none : ∀ k env s, HaltIn Post k env s → Halts Post env (.peek s none) := by
    intro k
    induction k using Nat.strongRecOn with
    | _ k ih =>
      intro env s h
      cases h.skip with
      | ev k' e n' env' h1 h2 h3 => exact .ev h.post (by rw [next, h1]; rfl) (ih k' h2 _ _ h3)
      | done n' env' h1 h2 =>
        refine .quiet ⟨fun e m => ∃ x, m = .peek x none ∧ Post e ∧ ∃ x' e',
          nextSkipNoop e x = some (.done, x', e') ∧ Quiet Post e' x',
          ⟨s, rfl, h.post, n', env', h1, h2⟩, ?_⟩
        rintro e _ ⟨x, rfl, hP, x', e', h3, h4⟩
        refine ⟨hP, .peek x' .none, e', by rw [next, h3]; rfl, x', rfl, h4.post, ?_⟩
        obtain ⟨x'', e'', h5, h6⟩ := h4.step
        exact ⟨x'', e'', nextSkipNoop_of h5 (by simp), h6⟩
      | err e n' env' h1 => exact .err h.post (by rw [next, h1]; rfl)
  obtain ⟨k, h⟩ := h
  cases buf with
  | none => exact none k env s h
  | some e => exact .ev h.post next_peek (none k env s h)

/-! ## Shared cells -/

/-- The first cell still ends after at most `k` events. -/
def CellHalt (Post : Env → Prop) (k : Nat) (cells : Env) : Prop :=
  ∃ c env, cells = c :: env ∧ HaltIn Post k env c

theorem halts_shared {Post k env c} (h : HaltIn Post k env c) {m : Nat} (hm : k ≤ m) :
    Halts (CellHalt Post m) (c :: env) .shared := by
  induction h with
  | ev hP h h' ih =>
    exact .ev ⟨_, _, rfl, (HaltIn.ev hP h h').le hm⟩ (next_shared h) (ih (by omega))
  | @quiet k env n h =>
    refine .quiet ⟨fun cells x => x = .shared ∧ ∃ c env, cells = c :: env ∧ Quiet Post env c,
      ⟨rfl, _, _, rfl, h⟩, ?_⟩
    rintro _ _ ⟨rfl, c, env, rfl, h⟩
    obtain ⟨c', env', h1, h2⟩ := h.step
    exact ⟨⟨_, _, rfl, .quiet h⟩, _, _, next_shared h1, rfl, _, _, rfl, h2⟩
  | err hP h => exact .err ⟨_, _, rfl, .err hP h⟩ (next_shared h)

theorem halts_singleUntil {Post env n} (h : Halts Post env n) (tag : Identifier) (level : Nat) :
    Halts Post env (.singleUntil tag n level) := by
  obtain ⟨k, h⟩ := h
  induction h generalizing level with
  | @ev k env n n' env' e hP h h' ih =>
    refine .ev hP (by rw [next, h]; rfl) ?_
    unfold singleUntilStep
    repeat' split
    all_goals first | exact ih _ | exact .dead h'.post
  | quiet h =>
    obtain ⟨n', env', h1, h2⟩ := h.step
    exact .done h.post (by rw [next, h1]; rfl) h2.post
  | err hP h => exact .err hP (by rw [next, h]; rfl)

theorem halts_single {Post env n} (h : Halts Post env n) (e : Event) :
    Halts Post env (.singleStart e n) := by
  have hP := h.post
  cases e with
  | openingTag t as => exact .ev hP (by rw [next]) (halts_singleUntil h t 0)
  | selfClosedTag t as => exact .ev hP (by rw [next]) (.dead hP)
  | voidTag t as => exact .ev hP (by rw [next]) (.dead hP)
  | _ => exact .err hP (by rw [next] <;> simp)

/-- Streams that run a builder on a shared cell. -/
theorem Hosts.halts {W : Node → Node → Node} {K : Node → Node} (hW : Hosts W K)
    {P Post : Env → Prop} (hP : ∀ cells, P cells → Post cells.tail)
    (hK : ∀ cells, P cells → ∃ c e, cells = c :: e ∧ Halts Post e (K c))
    {cells : Env} {stream : Node} (h : Halts P cells stream) :
    ∀ {source env}, cells = source :: env → Halts Post env (W source stream) := by
  obtain ⟨k, h⟩ := h
  induction h with
  | ev hc h _ ih =>
    rintro source env rfl
    obtain ⟨c, e, rfl⟩ := next_cons h
    exact .ev (hP _ hc) (by rw [hW, h]; rfl) (ih rfl)
  | quiet h =>
    rintro source env rfl
    obtain ⟨n', env', h1, h2⟩ := h.step
    obtain ⟨c, e, rfl, hr⟩ := hK _ h2.post
    exact .ev (hP _ h.post) (by rw [hW, h1]; rfl) hr
  | err hc h =>
    rintro source env rfl
    obtain ⟨c, e, rfl⟩ := next_cons h
    exact .err (hP _ hc) (by rw [hW, h]; rfl)

theorem cellHalt_tail {Post k cells} (h : CellHalt Post k cells) : Post cells.tail := by
  obtain ⟨c, env, rfl, h⟩ := h
  exact h.post

/-- The builder keeps streams ending. -/
def KeepsHalts (build : Node → Node) : Prop :=
  ∀ Post env n, Halts Post env n → Halts Post env (build n)

theorem halts_scan {Post : Env → Prop} {s : Selector} {direct : Bool} {k' : Kind}
    {b : Nat → Prog .elem k'} (hb : ∀ i, KeepsHalts (b i).build) {k count level : Nat} {env source}
    (h : HaltIn Post k env source) : Halts Post env (.selScan source s direct k' b count level) := by
  induction k using Nat.strongRecOn generalizing env source count level with
  | _ k ih =>
    cases h.skip with
    | ev k₁ e n' env' h1 h2 h3 =>
      by_cases hm : (restrictInclude direct level && s.matches e) = true
      · refine .ev h.post (e := .noop) (n' := .selActive n' s direct k' b (count + 1) level
            ((b count).build (.singleStart e .shared))) (env' := env')
          (by rw [next, h1]; simp only [bind, Option.bind, hm, if_true]) ?_
        refine (hosts_selActive s direct k' b (count + 1) level).halts
          (P := CellHalt Post k₁) (fun _ => cellHalt_tail) ?_
          (hb count _ _ _ (halts_single (halts_shared h3 (Nat.le_refl _)) e)) rfl
        rintro _ ⟨c, e, rfl, hc⟩
        exact ⟨c, e, rfl, ih k₁ h2 hc⟩
      · cases hl : levelAdjust level e with
        | ok l =>
          exact .ev h.post (by rw [next, h1]; simp only [bind, Option.bind, hm, hl]; rfl)
            (ih k₁ h2 h3)
        | error x =>
          exact .err h.post (by rw [next, h1]; simp only [bind, Option.bind, hm, hl]; rfl)
    | done n' env' h1 h2 => exact .done h.post (by rw [next, h1]; rfl) h2.post
    | err e n' env' h1 => exact .err h.post (by rw [next, h1]; rfl)

theorem halts_once {Post : Env → Prop} {s : Selector} {direct : Bool} {k' : Kind}
    {b : Prog .elem k'} (hb : KeepsHalts b.build) {k level : Nat} {env source}
    (h : HaltIn Post k env source) : Halts Post env (.onceScan source s direct k' b level) := by
  induction k using Nat.strongRecOn generalizing env source level with
  | _ k ih =>
    cases h.skip with
    | ev k₁ e n' env' h1 h2 h3 =>
      by_cases hm : (restrictInclude direct level && s.matches e) = true
      · refine .ev h.post (e := .noop) (n' := .onceActive n' (b.build (.singleStart e .shared)))
          (env' := env') (by rw [next, h1]; simp only [bind, Option.bind, hm, if_true]) ?_
        refine hosts_onceActive.halts
          (P := CellHalt Post k₁) (fun _ => cellHalt_tail) ?_
          (hb _ _ _ (halts_single (halts_shared h3 (Nat.le_refl _)) e)) rfl
        rintro _ ⟨c, e, rfl, hc⟩
        exact ⟨c, e, rfl, forwards_oncePass.halts ⟨_, hc⟩⟩
      · cases hl : levelAdjust level e with
        | ok l =>
          exact .ev h.post (by rw [next, h1]; simp only [bind, Option.bind, hm, hl]; rfl)
            (ih k₁ h2 h3)
        | error x =>
          exact .err h.post (by rw [next, h1]; simp only [bind, Option.bind, hm, hl]; rfl)
    | done n' env' h1 h2 => exact .done h.post (by rw [next, h1]; rfl) h2.post
    | err e n' env' h1 => exact .err h.post (by rw [next, h1]; rfl)

/-! ## Contents -/

/-- The first cell is a peekable stream that still ends. -/
def PeekHalt (Post : Env → Prop) (cells : Env) : Prop :=
  ∃ s buf env, cells = .peek s buf :: env ∧ Halts Post env s

theorem cur_end {env : Env} {s s' : Node} {env' : Env} {tag : Identifier}
    {level : Nat} (h : nextSkipNoop env s = some (.done, s', env')) :
    ∃ e env'', next (.peek s none :: env) (.curContent tag level) =
      some (.err e, .dead, env'') := by
  rw [next]
  by_cases h0 : level = 0
  · subst h0
    simp only [bind, Option.bind, if_true, h]
    exact ⟨_, _, rfl⟩
  · have hp : next env (.peek s none) = some (.done, .peek s' none, env') := by
      rw [next, h]
      rfl
    simp only [bind, Option.bind, h0, if_false, decide_false, Bool.false_and, hp]
    exact ⟨_, _, rfl⟩

theorem cur_any {env : Env} {s s' : Node} {e : Event} {env' : Env} {tag : Identifier}
    {level : Nat} (h : nextSkipNoop env s = some (.ev e, s', env')) :
    (∃ level', next (.peek s none :: env) (.curContent tag level) =
        some (.ev e, .curContent tag level', .peek s' none :: env')) ∨
      (next (.peek s none :: env) (.curContent tag level) =
        some (.done, .dead, .peek s' (some e) :: env')) ∨
      ∃ x env'', next (.peek s none :: env) (.curContent tag level) =
        some (.err x, .dead, env'') := by
  by_cases hc : level = 0 ∧ e.isClosingTagFor tag = true
  · refine .inr (.inl ?_)
    obtain ⟨rfl, hc⟩ := hc
    rw [next]
    simp [bind, Option.bind, h, hc]
  · cases hl : levelAdjust level e with
    | ok l =>
      refine .inl ⟨l, cur_ev h (fun h0 => ?_) hl⟩
      cases he : e.isClosingTagFor tag
      · rfl
      · exact absurd ⟨h0, he⟩ hc
    | error x =>
      refine .inr (.inr ?_)
      rw [next]
      by_cases h0 : level = 0
      · subst h0
        have : e.isClosingTagFor tag = false := by
          cases he : e.isClosingTagFor tag
          · rfl
          · exact absurd ⟨rfl, he⟩ hc
        simp only [bind, Option.bind, if_true, h, this, next_peek, decide_true, Bool.and_false, hl]
        exact ⟨_, _, rfl⟩
      · have hp : next env (.peek s none) = some (.ev e, .peek s' none, env') := by
          rw [next, h]
          rfl
        simp only [bind, Option.bind, h0, if_false, decide_false, Bool.false_and, hp, hl]
        exact ⟨_, _, rfl⟩

theorem halts_cur {Post k env s} (h : HaltIn Post k env s) (tag : Identifier) (level : Nat) :
    Halts (PeekHalt Post) (.peek s none :: env) (.curContent tag level) := by
  induction k using Nat.strongRecOn generalizing env s level with
  | _ k ih =>
    have hP : PeekHalt Post (.peek s none :: env) := ⟨_, _, _, rfl, _, h⟩
    cases h.skip with
    | ev k' e n' env' h1 h2 h3 =>
      rcases cur_any (tag := tag) (level := level) h1 with ⟨l, h4⟩ | h4 | ⟨x, env'', h4⟩
      · exact .ev hP h4 (ih k' h2 h3 l)
      · exact .done hP h4 ⟨_, _, _, rfl, _, h3⟩
      · exact .err hP h4
    | done n' env' h1 h2 =>
      obtain ⟨x, env'', h3⟩ := cur_end (tag := tag) (level := level) h1
      exact .err hP h3
    | err e n' env' h1 =>
      obtain ⟨env'', h3⟩ := cur_err (tag := tag) (level := level) h1
      exact .err hP h3

theorem halts_contClose {Post env n} (h : Halts Post env n) (tag : Identifier) :
    Halts Post env (.contClose n tag) := by
  obtain ⟨k, h⟩ := h
  cases h.skip with
  | ev k' e n' env' h1 h2 h3 =>
    cases e with
    | closingTag c =>
      by_cases hc : c.eq tag = true
      · exact .ev h.post (e := .closingTag c) (n' := .dead) (env' := env')
          (by rw [next, h1]; simp only [bind, Option.bind, hc, if_true]) (.dead h3.post)
      · exact .err h.post (e := .unexpectedClose c) (n' := .dead) (env' := env')
          (by rw [next, h1]; simp only [bind, Option.bind, hc]; rfl)
    | _ => exact .err h.post (by rw [next, h1]; rfl)
  | done n' env' h1 h2 => exact .err h.post (by rw [next, h1]; rfl)
  | err e n' env' h1 => exact .err h.post (by rw [next, h1]; rfl)

theorem halts_contents {Post : Env → Prop} {k' : Kind} {b : Prog .gen k'}
    (hb : KeepsHalts b.build) {env n} (h : Halts Post env n) :
    Halts Post env (.contOpen n k' b) := by
  obtain ⟨k, h⟩ := h
  cases h.skip with
  | ev k₁ e n' env' h1 h2 h3 =>
    cases e with
    | openingTag t as =>
      refine .ev h.post (by rw [next, h1]; rfl) ?_
      refine (hosts_contContent t).halts (P := PeekHalt Post) ?_ ?_
        (hb _ _ _ (halts_cur h3 t 0)) rfl
      · rintro _ ⟨s, buf, env, rfl, h⟩
        exact h.post
      · rintro _ ⟨s, buf, env, rfl, h⟩
        exact ⟨_, _, rfl, halts_contClose (halts_peek h buf) t⟩
    | voidTag t as => exact .ev h.post (by rw [next, h1]; rfl) (.dead h3.post)
    | _ => exact .err h.post (by rw [next, h1]; rfl)
  | done n' env' h1 h2 => exact .err h.post (by rw [next, h1]; rfl)
  | err e n' env' h1 => exact .err h.post (by rw [next, h1]; rfl)

/-! ## Collecting -/

theorem halts_repNext {Post : Env → Prop} {es : List Event} {k k' : Kind} {b : Nat → Prog k k'}
    (hb : ∀ i, KeepsHalts (b i).build) (m : Nat) {i n : Nat} (hi : i + m = n) {env : Env}
    (hP : Post env) : Halts Post env (.repNext es i n k k' b) := by
  induction m generalizing i env with
  | zero => exact .done hP (by rw [next, if_neg (by omega)]) hP
  | succ m ih =>
    have hn : next env (.repNext es i n k k' b) =
        some (.ev .noop, .repEmit es (i + 1) n k k' b ((b i).build (.tmpl es 0)), env) := by
      rw [next, if_pos (by omega)]
    refine .ev hP hn ?_
    obtain ⟨j, hj⟩ := hb i Post env _ (halts_tmpl hP es 0)
    clear hn
    generalize (b i).build (.tmpl es 0) = stream at hj
    induction hj with
    | ev hP h h' ih' => exact .ev hP (by rw [next, h]; rfl) (ih' h'.post)
    | quiet h =>
      obtain ⟨n', env', h1, h2⟩ := h.step
      exact .ev h.post (by rw [next, h1]; rfl) (ih (by omega) h2.post)
    | err hP h => exact .err hP (by rw [next, h]; rfl)

/-- Every chain of Api calls makes streams that end. -/
theorem halts_build {a k : Kind} (p : Prog a k) : KeepsHalts p.build := by
  induction p with
  | src => exact fun _ _ _ h => h
  | forget p ih => exact ih
  | apply p q ih1 ih2 => exact fun _ _ _ h => ih2 _ _ _ (ih1 _ _ _ h)
  | fallOk p ih => exact fun _ _ _ h => halts_fallStart (ih _ _ _ h)
  | fallErr e => exact fun _ _ _ h => halts_fallError h.post
  | selectRaw p s direct b ih ihb =>
    intro _ _ _ h
    obtain ⟨k, h⟩ := ih _ _ _ h
    exact halts_scan ihb h
  | selectOnceRaw p s direct b ih ihb =>
    intro _ _ _ h
    obtain ⟨k, h⟩ := ih _ _ _ h
    exact halts_once ihb h
  | remove p ih => exact fun _ _ _ h => halts_remove (ih _ _ _ h)
  | prepend p c ih =>
    intro Post env n h
    refine halts_combFirst (P := fun e => e = env) ?_
      (ends_content (Post := fun e => e = env) rfl c) ?_
    · rintro _ rfl
      exact h.post
    · rintro _ rfl
      exact (ih _ _ _ h).ends
  | append p c ih =>
    intro Post env n h
    exact halts_combFirst (fun _ h => h) (ih _ _ _ h).ends fun _ h => ends_content h c
  | «repeat» p m b ih ihb =>
    intro Post env n h
    have hr := ih _ _ _ h
    obtain ⟨o, ho⟩ := hr.choose_spec.run
    obtain ⟨env', hc, hP⟩ := ho.collect
    rw [Prog.build]
    cases he : o.result with
    | error e => exact .err h.post (by rw [next, hc, he]; rfl)
    | ok es =>
      exact .ev h.post (by rw [next, hc, he]; rfl) (halts_repNext ihb m (by omega) (hP ⟨es, he⟩))
  | orElse p m r q ih ihr ihq =>
    intro Post env n h
    have hr := ih _ _ _ h
    by_cases hm : 0 < m
    · exact .ev h.post (by rw [Prog.build, next, if_pos hm])
        (forwards_orElseRun.halts (ihr _ _ _ hr))
    · exact .ev h.post (by rw [Prog.build, next, if_neg hm])
        (forwards_orElseRun.halts (ihq _ _ _ hr))
  | applyTemplate p g ih =>
    intro Post env n h
    have hr := ih _ _ _ h
    obtain ⟨o, ho⟩ := hr.choose_spec.run
    obtain ⟨env', hc, hP⟩ := ho.collect
    rw [Prog.build]
    cases he : o.result with
    | error e => exact .err h.post (by rw [next, hc, he]; rfl)
    | ok es =>
      cases hg : g ⟨es⟩ with
      | error e =>
        exact .err h.post (by rw [next, hc, he]; simp only [bind, Option.bind, hg]; rfl)
      | ok t =>
        exact .ev h.post (e := .noop) (n' := .applyEmit t.toStream) (env' := env')
          (by rw [next, hc, he]; simp only [bind, Option.bind, hg])
          (forwards_applyEmit.halts (halts_tmpl (hP ⟨es, he⟩) t.events 0))
  | contents p b ih ihb =>
    exact fun _ _ _ h => halts_contents ihb (halts_expand (ih _ _ _ h))
  | attr p op ih => exact fun _ _ _ h => halts_attr (ih _ _ _ h)

/-- Every chain of Api calls on a stored stream has a run. -/
theorem run_exists {a k : Kind} (p : Prog a k) (es : List Event) :
    ∃ o, Run (fun env => env = []) [] (p.build (.tmpl es 0)) o :=
  (halts_build p _ _ _ (halts_tmpl (Post := fun env => env = []) rfl es 0)).choose_spec.run

end Fuser
