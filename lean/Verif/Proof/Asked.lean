import Verif.Spec.Asked
import Verif.Proof.Stateless
import Verif.Proof.Transform
import Verif.Proof.Calls

/-!
# Runs of streams with user code, with the state at their end
-/

namespace Fuser

open Spec

variable {σ : Type}

/-- Shape of a run with user code: pulling the stream `n` in the state `u` yields `o` and ends in the
state `v`. -/
inductive URun : σ → UEnv σ → UNode σ → Out → σ → Prop
  | noop {u env n n' env' u' o v} : nextUser u env n = some (.ev .noop, n', env', u') →
      URun u' env' n' o v → URun u env n o v
  | ev {u env n n' env' u' e o v} : nextUser u env n = some (.ev e, n', env', u') → e ≠ .noop →
      URun u' env' n' o v → URun u env n (.ev e o) v
  | done {u env n n' env' v} : nextUser u env n = some (.done, n', env', v) → URun u env n .done v
  | err {u env n n' env' e v} : nextUser u env n = some (.err e, n', env', v) →
      URun u env n (.err e) v

theorem skipUser_of {u v : σ} {env n r n' env'} (h : nextUser u env n = some (r, n', env', v))
    (hr : r ≠ .ev .noop) : nextSkipNoopUser u env n = some (r, n', env', v) := by
  rw [nextSkipNoopUser, h]
  cases r with
  | ev e => cases e <;> first | rfl | exact absurd rfl hr
  | done => rfl
  | err e => rfl

theorem skipUser_noop {u v : σ} {env n n' env'}
    (h : nextUser u env n = some (.ev .noop, n', env', v)) :
    nextSkipNoopUser u env n = nextSkipNoopUser v env' n' := by
  conv => lhs; rw [nextSkipNoopUser]
  rw [h]
  rfl

theorem URun.collect {u v : σ} {env n o} (h : URun u env n o v) :
    ∃ env', collectUser u env n = some (o.result, env', v) := by
  induction h with
  | noop h _ ih =>
    obtain ⟨env', ih⟩ := ih
    refine ⟨env', ?_⟩
    rw [collectUser, skipUser_noop h, ← ih]
    conv => rhs; rw [collectUser]
  | ev h he _ ih =>
    obtain ⟨env', ih⟩ := ih
    refine ⟨env', ?_⟩
    rw [collectUser, skipUser_of h (by simpa using he)]
    simp only [bind, Option.bind_some, ih, Out.result]
    split <;> rename_i hr <;> simp only [hr]
  | done h => exact ⟨_, by rw [collectUser, skipUser_of h (by simp)]; rfl⟩
  | err h => exact ⟨_, by rw [collectUser, skipUser_of h (by simp)]; rfl⟩

/-! ## Runs from a known first pull -/

theorem Run.at_noop {Post : Env → Prop} {env n o n' env'} (h : Run Post env n o)
    (hn : next env n = some (.ev .noop, n', env')) : Run Post env' n' o := by
  cases h with
  | noop h hr => rw [hn] at h; cases h; exact hr
  | ev h he => rw [hn] at h; cases h; exact absurd rfl he
  | done h => rw [hn] at h; cases h
  | err h => rw [hn] at h; cases h

theorem Run.at_ev {Post : Env → Prop} {env n o n' env' e} (h : Run Post env n o)
    (hn : next env n = some (.ev e, n', env')) (he : e ≠ .noop) :
    ∃ o', o = .ev e o' ∧ Run Post env' n' o' := by
  cases h with
  | noop h hr => rw [hn] at h; cases h; exact absurd rfl he
  | ev h _ hr => rw [hn] at h; cases h; exact ⟨_, rfl, hr⟩
  | done h => rw [hn] at h; cases h
  | err h => rw [hn] at h; cases h

theorem Run.pulls {Post : Env → Prop} {env n o} (h : Run Post env n o) :
    ∃ x, next env n = some x := by
  cases h <;> exact ⟨_, by assumption⟩

theorem Run.at_done {Post : Env → Prop} {env n o n' env'} (h : Run Post env n o)
    (hn : next env n = some (.done, n', env')) : o = .done := by
  cases h with
  | noop h hr => rw [hn] at h; cases h
  | ev h _ hr => rw [hn] at h; cases h
  | done h => rfl
  | err h => rw [hn] at h; cases h

theorem Run.at_err {Post : Env → Prop} {env n o n' env' e} (h : Run Post env n o)
    (hn : next env n = some (.err e, n', env')) : o = .err e := by
  cases h with
  | noop h hr => rw [hn] at h; cases h
  | ev h _ hr => rw [hn] at h; cases h
  | done h => rw [hn] at h; cases h
  | err h => rw [hn] at h; cases h; rfl

/-- Streams whose user code does not use the state run as those without it. -/
theorem Run.beside {Post : Env → Prop} {env n o} (h : Run Post env n o) (u : σ) :
    ∀ {cells m}, List.Forall₂ Beside env cells → Beside n m → URun u cells m o u := by
  induction h with
  | noop h _ ih =>
    intro cells m he hn
    obtain ⟨m', cells', hr, he', hn'⟩ := ((machine_beside σ).1 _ _ _ h).1 u cells m he hn
    exact .noop hr (ih he' hn')
  | ev h hne _ ih =>
    intro cells m he hn
    obtain ⟨m', cells', hr, he', hn'⟩ := ((machine_beside σ).1 _ _ _ h).1 u cells m he hn
    exact .ev hr hne (ih he' hn')
  | done h =>
    intro cells m he hn
    obtain ⟨m', cells', hr, he', hn'⟩ := ((machine_beside σ).1 _ _ _ h).1 u cells m he hn
    exact .done hr
  | err h =>
    intro cells m he hn
    obtain ⟨m', cells', hr, he', hn'⟩ := ((machine_beside σ).1 _ _ _ h).1 u cells m he hn
    exact .err hr

theorem skip_beside {env n p} (h : nextSkipNoop env n = some p) (u : σ) {cells m}
    (he : List.Forall₂ Beside env cells) (hn : Beside n m) :
    ∃ m' cells', nextSkipNoopUser u cells m = some (p.1, m', cells', u) ∧
      List.Forall₂ Beside p.2.2 cells' ∧ Beside p.2.1 m' :=
  ((machine_beside σ).2.2.1 _ _ _ h).1 u cells m he hn

/-- The result with user code, from a run. -/
theorem runUser_of {a k : Kind} {p : UProg σ a k} {es : List Event} {u v : σ} {o : Out}
    (h : URun u [] (p.build (.tmpl es 0)) o v) : runUser p es u = some (o.result, v) := by
  obtain ⟨env', hc⟩ := h.collect
  rw [runUser, hc]
  rfl

/-! ## Fallbacks, functions -/

theorem user_orElse {a k k₁ k₂ : Kind} (p : Prog a k) (more : σ → Bool) (r : σ → Prog k k₁)
    (f : σ → Prog k k₂) (g : σ → σ) (es : List Event) (u : σ) :
    runUser (.orElse (stateless σ p) more (fun v => stateless σ (r v))
        (fun v => stateless σ (f v)) g) es u =
      (run (.orElse p (if more u then 1 else 0) (r u) (f u)) es).map (·, g u) := by
  obtain ⟨o, ho⟩ := run_exists (.orElse p (if more u then 1 else 0) (r u) (f u)) es
  rw [run_of_run ho, Option.map_some]
  refine runUser_of ?_
  rw [Prog.build] at ho
  have hb : Beside (p.build (.tmpl es 0)) ((stateless σ p).build (.tmpl es 0)) := .build p .tmpl
  cases hm : more u with
  | true =>
    rw [hm] at ho
    have hr := ho.at_noop (by rw [next.eq_def]; rfl)
    refine .noop ?_ (hr.beside (g u) .nil (.orElseRun (.build (r u) hb)))
    rw [UProg.build, nextUser.eq_def]
    simp only [hm, if_true]
  | false =>
    rw [hm] at ho
    have hr := ho.at_noop (by rw [next.eq_def]; rfl)
    refine .noop ?_ (hr.beside (g u) .nil (.orElseRun (.build (f u) hb)))
    rw [UProg.build, nextUser.eq_def]
    simp only [hm, Bool.false_eq_true, if_false]

theorem collect_beside {env n p} (h : collect env n = some p) (u : σ) {cells m}
    (he : List.Forall₂ Beside env cells) (hn : Beside n m) :
    ∃ cells', collectUser u cells m = some (p.1, cells', u) ∧ List.Forall₂ Beside p.2 cells' :=
  ((machine_beside σ).2.1 _ _ _ h).1 u cells m he hn

theorem collect_run {a k : Kind} (p : Prog a k) (es : List Event) :
    ∃ r env, collect [] (p.build (.tmpl es 0)) = some (r, env) ∧ run p es = some r := by
  obtain ⟨o, ho⟩ := run_exists p es
  obtain ⟨env', hc, -⟩ := ho.collect
  exact ⟨_, _, hc, run_of_run ho⟩

theorem user_applyTemplate {a k : Kind} (p : Prog a k)
    (f : σ → Template → Except StreamError Template) (g : σ → Template → σ) (es : List Event)
    (u : σ) :
    runUser (.applyTemplate (stateless σ p) f g) es u =
      (run (.applyTemplate p (f u)) es).map
        (·, match run p es with | some (.ok es') => g u ⟨es'⟩ | _ => u) := by
  obtain ⟨o, ho⟩ := run_exists (.applyTemplate p (f u)) es
  rw [run_of_run ho, Option.map_some]
  refine runUser_of ?_
  have hb : Beside (p.build (.tmpl es 0)) ((stateless σ p).build (.tmpl es 0)) := .build p .tmpl
  obtain ⟨r, env, hc, hrun⟩ := collect_run p es
  obtain ⟨cells, hu, he⟩ := collect_beside hc u .nil hb
  rw [hrun]
  rw [Prog.build] at ho
  cases r with
  | error e =>
    obtain rfl := ho.at_err (by rw [next.eq_def]; simp only [bind, hc, Option.bind_some]; rfl)
    exact .err (n' := .dead) (env' := cells)
      (by rw [UProg.build, nextUser.eq_def]; simp only [bind, hu, Option.bind_some])
  | ok es' =>
    cases hf : f u ⟨es'⟩ with
    | error e =>
      obtain rfl := ho.at_err (by rw [next.eq_def]; simp only [bind, hc, Option.bind_some, hf]; rfl)
      exact .err (n' := .dead) (env' := cells)
        (by rw [UProg.build, nextUser.eq_def]; simp only [bind, hu, Option.bind_some, hf])
    | ok t =>
      have hr := ho.at_noop (by rw [next.eq_def]; simp only [bind, hc, Option.bind_some, hf]; rfl)
      exact .noop (n' := .applyEmit (.tmpl t.events 0)) (env' := cells) (u' := g u ⟨es'⟩)
        (by rw [UProg.build, nextUser.eq_def]; simp only [bind, hu, Option.bind_some, hf])
        (hr.beside _ he (.applyEmit .tmpl))

/-! ## User-defined streams -/

theorem Run.congr {Post : Env → Prop} {env n m o} (h : Run Post env n o)
    (hn : next env n = next env m) : Run Post env m o := by
  cases h with
  | noop h hr => exact .noop (hn ▸ h) hr
  | ev h he hr => exact .ev (hn ▸ h) he hr
  | done h hp => exact .done (hn ▸ h) hp
  | err h => exact .err (hn ▸ h)

theorem URun.congr {u u' v : σ} {env n m o} (h : URun u' env m o v)
    (hn : nextUser u env n = nextUser u' env m) : URun u env n o v := by
  cases h with
  | noop h hr => exact .noop (hn.trans h) hr
  | ev h he hr => exact .ev (hn.trans h) he hr
  | done h => exact .done (hn.trans h)
  | err h => exact .err (hn.trans h)

section stream

variable {pull : σ → Except StreamError (Option Event)} {g : σ → σ} {u : σ}

/-- The answers of a stream from the `i`-th state on. -/
def Answers (pull : σ → Except StreamError (Option Event)) (g : σ → σ) (u : σ) (i : Nat)
    (rs : List (Except StreamError (Option Event))) : Prop :=
  ∀ j ≤ rs.length, (rs[j]?).getD (.ok none) = pull (g^[i + j] u)

theorem Answers.tail {i r rs} (h : Answers pull g u i (r :: rs)) :
    Answers pull g u (i + 1) rs := by
  intro j hj
  have := h (j + 1) (by simpa using hj)
  rw [List.getElem?_cons_succ] at this
  rw [this, show i + 1 + j = i + (j + 1) by omega]

theorem Answers.head {i r rs} (h : Answers pull g u i (r :: rs)) : pull (g^[i] u) = r := by
  have := h 0 (Nat.zero_le _)
  simpa using this.symm

theorem Answers.nil {i} (h : Answers pull g u i []) : pull (g^[i] u) = .ok none := by
  have := h 0 (Nat.zero_le _)
  simpa using this.symm

theorem step_state (i : Nat) : g (g^[i] u) = g^[i + 1] u :=
  (Function.iterate_succ_apply' g i u).symm

/-- A pull of a user-defined stream that skips placeholders: an event with the rest of the answers,
or the last answer. -/
theorem skip_stream {env : Env} {cells : UEnv σ} (rs : List (Except StreamError (Option Event))) :
    ∀ {i c}, Answers pull g u i rs →
    (∃ e rest j c', nextSkipNoop env (.script rs) = some (.ev e, .script rest, env) ∧
      nextSkipNoopUser (g^[i] u) cells (.stream c (fun _ => pull) g) =
        some (.ev e, .stream c' (fun _ => pull) g, cells, g^[j] u) ∧ e ≠ .noop ∧
      Answers pull g u j rest ∧ j + answers rest = i + answers rs ∧ rest.length < rs.length) ∨
    (∃ r n' c', nextSkipNoop env (.script rs) = some (r, n', env) ∧
      nextSkipNoopUser (g^[i] u) cells (.stream c (fun _ => pull) g) =
        some (r, .stream c' (fun _ => pull) g, cells, g^[i + answers rs] u) ∧
      ∀ e, r ≠ .ev e) := by
  induction rs with
  | nil =>
    intro i c h
    refine .inr ⟨.done, _, c + 1, nextSkipNoop_of (by rw [next]) (by simp), ?_, by simp⟩
    refine skipUser_of ?_ (by simp)
    rw [nextUser.eq_def]
    simp only [h.nil, step_state]
    rfl
  | cons r rs ih =>
    intro i c h
    rcases r with e | _ | e
    · refine .inr ⟨.err e, _, c + 1, nextSkipNoop_of (by rw [next]) (by simp), ?_, by simp⟩
      refine skipUser_of ?_ (by simp)
      rw [nextUser.eq_def]
      simp only [h.head, step_state]
      rfl
    · refine .inr ⟨.done, _, c + 1, nextSkipNoop_of (by rw [next]) (by simp), ?_, by simp⟩
      refine skipUser_of ?_ (by simp)
      rw [nextUser.eq_def]
      simp only [h.head, step_state]
      rfl
    · have hu : nextUser (g^[i] u) cells (.stream c (fun _ => pull) g) =
          some (.ev e, .stream (c + 1) (fun _ => pull) g, cells, g^[i + 1] u) := by
        rw [nextUser.eq_def]
        simp only [h.head, step_state]
      have ha : i + 1 + answers rs = i + answers (.ok (some e) :: rs) := by
        simp only [answers, List.takeWhile_cons, if_true, List.length_cons]
        omega
      have hn : next env (.script (.ok (some e) :: rs)) = some (.ev e, .script rs, env) := by
        rw [next]
      by_cases he : e = .noop
      · subst he
        rw [nextSkipNoop_noop hn, skipUser_noop hu, ← ha]
        rcases ih h.tail with ⟨e, rest, j, c', h1, h2, h3, h4, h5, h6⟩ | h'
        · exact .inl ⟨e, rest, j, c', h1, h2, h3, h4, h5, by simp only [List.length_cons]; omega⟩
        · exact .inr h'
      · exact .inl ⟨e, rs, i + 1, c + 1, nextSkipNoop_of hn (by simpa using he),
          skipUser_of hu (by simpa using he), he, h.tail, ha, by simp⟩

theorem second_stream {Post : Env → Prop} {env : Env} {cells : UEnv σ} (m : Nat) :
    ∀ {rs i c o}, rs.length ≤ m → Answers pull g u i rs → Run Post env (.combSecond (.script rs)) o →
      URun (g^[i] u) cells (.combSecond (.stream c (fun _ => pull) g)) o (g^[i + answers rs] u) := by
  induction m with
  | zero =>
    intro rs i c o hm h hr
    rcases skip_stream (env := env) (cells := cells) (c := c) rs h with
      ⟨e, rest, j, c', h1, h2, h3, h4, h5, h6⟩ | ⟨r, n', c', h1, h2, h3⟩
    · omega
    · rcases r with e | _ | e
      · exact absurd rfl (h3 e)
      · obtain rfl := hr.at_done (by rw [next, h1]; rfl)
        exact .done (by rw [nextUser, h2]; rfl)
      · obtain rfl := hr.at_err (by rw [next, h1]; rfl)
        exact .err (by rw [nextUser, h2]; rfl)
  | succ m ih =>
    intro rs i c o hm h hr
    rcases skip_stream (env := env) (cells := cells) (c := c) rs h with
      ⟨e, rest, j, c', h1, h2, h3, h4, h5, h6⟩ | ⟨r, n', c', h1, h2, h3⟩
    · obtain ⟨o', rfl, hr'⟩ := hr.at_ev (by rw [next, h1]; rfl) h3
      exact .ev (by rw [nextUser, h2]; rfl) h3 (h5 ▸ ih (by omega) h4 hr')
    · rcases r with e | _ | e
      · exact absurd rfl (h3 e)
      · obtain rfl := hr.at_done (by rw [next, h1]; rfl)
        exact .done (by rw [nextUser, h2]; rfl)
      · obtain rfl := hr.at_err (by rw [next, h1]; rfl)
        exact .err (by rw [nextUser, h2]; rfl)

theorem first_stream {Post : Env → Prop} {env : Env} {cells : UEnv σ} {s : Node} {s' : UNode σ}
    (he : List.Forall₂ Beside env cells) (hs : Beside s s') (m : Nat) :
    ∀ {rs i c o}, rs.length ≤ m → Answers pull g u i rs → Run Post env (.combFirst (.script rs) s) o →
      URun (g^[i] u) cells (.combFirst (.stream c (fun _ => pull) g) s') o
        (g^[i + answers rs] u) := by
  have last : ∀ {rs i c o}, Run Post env (.combFirst (.script rs) s) o →
      (∃ r n' c', nextSkipNoop env (.script rs) = some (r, n', env) ∧
        nextSkipNoopUser (g^[i] u) cells (.stream c (fun _ => pull) g) =
          some (r, .stream c' (fun _ => pull) g, cells, g^[i + answers rs] u) ∧ ∀ e, r ≠ .ev e) →
      URun (g^[i] u) cells (.combFirst (.stream c (fun _ => pull) g) s') o
        (g^[i + answers rs] u) := by
    rintro rs i c o hr ⟨r, n', c', h1, h2, h3⟩
    rcases r with e | _ | e
    · exact absurd rfl (h3 e)
    · have hr := hr.at_noop (by rw [next, h1]; rfl)
      exact .noop (by rw [nextUser, h2]; rfl) (hr.beside _ he (.combSecond hs))
    · obtain rfl := hr.at_err (by rw [next, h1]; rfl)
      exact .err (by rw [nextUser, h2]; rfl)
  induction m with
  | zero =>
    intro rs i c o hm h hr
    rcases skip_stream (env := env) (cells := cells) (c := c) rs h with
      ⟨e, rest, j, c', h1, h2, h3, h4, h5, h6⟩ | h'
    · omega
    · exact last hr h'
  | succ m ih =>
    intro rs i c o hm h hr
    rcases skip_stream (env := env) (cells := cells) (c := c) rs h with
      ⟨e, rest, j, c', h1, h2, h3, h4, h5, h6⟩ | h'
    · obtain ⟨o', rfl, hr'⟩ := hr.at_ev (by rw [next, h1]; rfl) h3
      exact .ev (by rw [nextUser, h2]; rfl) h3 (h5 ▸ ih (by omega) h4 hr')
    · exact last hr h'

theorem before_stream {P Post : Env → Prop} {rs : List (Except StreamError (Option Event))}
    (h : Answers pull g u 0 rs) {os : Out} :
    ∀ {env cells s s' o}, List.Forall₂ Beside env cells → Beside s s' → Run P env s os →
      Run Post env (.combFirst s (.script rs)) o →
      URun u cells (.combFirst s' (.stream 0 (fun _ => pull) g)) o
        (if goesWell (some os.result) then g^[answers rs] u else u) := by
  induction os with
  | done =>
    intro env cells s s' o he hs h1 hr
    obtain ⟨n', env', h2, -⟩ := h1.skip_done
    obtain ⟨m', cells', h3, he', hs'⟩ := skip_beside h2 u he hs
    have hr := hr.at_noop (by rw [next, h2]; rfl)
    have := second_stream (cells := cells') (c := 0) rs.length (Nat.le_refl _) h hr
    rw [Nat.zero_add] at this
    exact .noop (by rw [nextUser, h3]; rfl) this
  | err e =>
    intro env cells s s' o he hs h1 hr
    obtain ⟨n', env', h2⟩ := h1.skip_err
    obtain ⟨m', cells', h3, he', hs'⟩ := skip_beside h2 u he hs
    obtain rfl := hr.at_err (by rw [next, h2]; rfl)
    exact .err (by rw [nextUser, h3]; rfl)
  | ev e os ih =>
    intro env cells s s' o he hs h1 hr
    obtain ⟨n', env', h2, hne, h1'⟩ := h1.skip_ev
    obtain ⟨m', cells', h3, he', hs'⟩ := skip_beside h2 u he hs
    obtain ⟨o', rfl, hr'⟩ := hr.at_ev (by rw [next, h2]; rfl) hne
    have : goesWell (some (Out.ev e os).result) = goesWell (some os.result) := by
      rw [Out.result]
      cases os.result <;> rfl
    rw [this]
    exact .ev (by rw [nextUser, h3]; rfl) hne (ih he' hs' h1' hr')

end stream

theorem user_prepend {a k : Kind} (p : Prog a k) (rs : List (Except StreamError (Option Event)))
    (pull : σ → Except StreamError (Option Event)) (g : σ → σ) (es : List Event) (u : σ)
    (h : Answers pull g u 0 rs) :
    runUser (.prepend (stateless σ p) (.stream (fun _ => pull) g)) es u =
      (run (.prepend p (.script rs)) es).map (·, g^[answers rs] u) := by
  obtain ⟨o, ho⟩ := run_exists (.prepend p (.script rs)) es
  rw [run_of_run ho, Option.map_some]
  refine runUser_of ?_
  have := first_stream (c := 0) .nil (.build p .tmpl) rs.length (Nat.le_refl _) h ho
  rwa [Nat.zero_add] at this

theorem user_append {a k : Kind} (p : Prog a k) (rs : List (Except StreamError (Option Event)))
    (pull : σ → Except StreamError (Option Event)) (g : σ → σ) (es : List Event) (u : σ)
    (h : Answers pull g u 0 rs) :
    runUser (.append (stateless σ p) (.stream (fun _ => pull) g)) es u =
      (run (.append p (.script rs)) es).map
        (·, if goesWell (run p es) then g^[answers rs] u else u) := by
  obtain ⟨o, ho⟩ := run_exists (.append p (.script rs)) es
  obtain ⟨os, hos⟩ := run_exists p es
  rw [run_of_run ho, run_of_run hos, Option.map_some]
  exact runUser_of (before_stream h .nil (.build p .tmpl) hos ho)

/-! ## Repetitions -/

section rep

variable {k k' : Kind} {b : σ → Prog k k'} {g : σ → σ} {u : σ} {more : σ → Bool} {n : Nat}

theorem rep_emit {P Post : Env → Prop} {es : List Event} {i c : Nat} {w v : σ} {oi : Out} {st : Node}
    {env : Env} (hst : Run P env st oi)
    (hok : ∀ env' cells o, goesWell (some oi.result) = true → P env' →
      List.Forall₂ Beside env' cells →
      Run Post env' (.repNext es i n k k' fun i => b (g^[i] u)) o →
      URun w cells (.repNext es c k k' (fun _ => more) (fun _ v => stateless σ (b v)) g) o v)
    (herr : goesWell (some oi.result) = false → v = w) :
    ∀ {cells st' o}, List.Forall₂ Beside env cells → Beside st st' →
      Run Post env (.repEmit es i n k k' (fun i => b (g^[i] u)) st) o →
      URun w cells (.repEmit es c k k' (fun _ => more) (fun _ v => stateless σ (b v)) g st') o v := by
  have he : ∀ e o, goesWell (some (Out.ev e o).result) = goesWell (some o.result) := by
    intro e o
    rw [Out.result]
    cases o.result <;> rfl
  induction hst with
  | noop h _ ih =>
    intro cells st' o hc hs hr
    obtain ⟨m', cells', h3, hc', hs'⟩ := ((machine_beside σ).1 _ _ _ h).1 w _ _ hc hs
    have hr := hr.at_noop (by rw [next, h]; rfl)
    exact .noop (by rw [nextUser, h3]; rfl) (ih hok herr hc' hs' hr)
  | ev h hne _ ih =>
    intro cells st' o hc hs hr
    obtain ⟨m', cells', h3, hc', hs'⟩ := ((machine_beside σ).1 _ _ _ h).1 w _ _ hc hs
    obtain ⟨o', rfl, hr'⟩ := hr.at_ev (by rw [next, h]; rfl) hne
    rw [he] at hok herr
    exact .ev (by rw [nextUser, h3]; rfl) hne (ih hok herr hc' hs' hr')
  | done h hP =>
    intro cells st' o hc hs hr
    obtain ⟨m', cells', h3, hc', hs'⟩ := ((machine_beside σ).1 _ _ _ h).1 w _ _ hc hs
    have hr := hr.at_noop (by rw [next, h]; rfl)
    exact .noop (by rw [nextUser, h3]; rfl) (hok _ _ _ rfl hP hc' hr)
  | err h =>
    intro cells st' o hc hs hr
    obtain ⟨m', cells', h3, hc', hs'⟩ := ((machine_beside σ).1 _ _ _ h).1 w _ _ hc hs
    obtain rfl := hr.at_err (by rw [next, h]; rfl)
    rw [herr rfl]
    exact .err (by rw [nextUser, h3]; rfl)

theorem rep_next {Post : Env → Prop} {es : List Event}
    (hmore : ∀ j ≤ n, more (g^[j] u) = decide (j < n)) (d : Nat) :
    ∀ {i c o}, i + d = n → Run Post [] (.repNext es i n k k' fun i => b (g^[i] u)) o →
      URun (g^[i] u) [] (.repNext es c k k' (fun _ => more) (fun _ v => stateless σ (b v)) g) o
        (g^[i + ((List.range' i d).takeWhile fun j =>
          goesWell (run (b (g^[j] u)) es)).length + 1] u) := by
  induction d with
  | zero =>
    intro i c o hi hr
    obtain rfl : i = n := hi
    obtain rfl := hr.at_done (by rw [next, if_neg (by omega)])
    refine .done (n' := .dead) (env' := []) ?_
    rw [nextUser, hmore i (Nat.le_refl _)]
    simp [step_state]
  | succ d ih =>
    intro i c o hi hr
    have hlt : i < n := by omega
    have hr := hr.at_noop (by rw [next, if_pos hlt])
    obtain ⟨oi, hoi⟩ := run_exists (b (g^[i] u)) es
    refine .noop (n' := .repEmit es (c + 1) k k' (fun _ => more) (fun _ v => stateless σ (b v)) g
      ((stateless σ (b (g^[i] u))).build (.tmpl es 0))) (env' := []) (u' := g^[i + 1] u) ?_ ?_
    · rw [nextUser, hmore i (by omega), ← step_state]
      simp [hlt]
    · refine rep_emit hoi ?_ ?_ .nil (.build _ .tmpl) hr
      · intro env' cells o hok hP hc hr
        obtain rfl : env' = [] := hP
        cases hc
        have := ih (c := c + 1) (by omega) hr
        rw [List.range'_succ, List.takeWhile_cons, run_of_run hoi, hok, if_pos rfl,
          List.length_cons, show ∀ x, i + (x + 1) + 1 = i + 1 + x + 1 by omega]
        exact this
      · intro herr
        rw [List.range'_succ, List.takeWhile_cons, run_of_run hoi, herr]
        rfl

end rep

theorem user_repeat {a k k' : Kind} (p : Prog a k) (n : Nat) (more : σ → Bool) (b : σ → Prog k k')
    (g : σ → σ) (es : List Event) (u : σ)
    (hmore : ∀ j ≤ n, more (g^[j] u) = decide (j < n)) :
    runUser (.repeat (stateless σ p) (fun _ => more) (fun _ v => stateless σ (b v)) g) es u =
      (run (.repeat p n fun i => b (g^[i] u)) es).map
        (·, match run p es with
          | some (.ok es') => g^[asks n fun i => goesWell (run (b (g^[i] u)) es')] u
          | _ => u) := by
  obtain ⟨o, ho⟩ := run_exists (.repeat p n fun i => b (g^[i] u)) es
  obtain ⟨os, hos⟩ := run_exists p es
  obtain ⟨env, hc, hP⟩ := hos.collect
  obtain ⟨cells, hu, he⟩ := collect_beside hc u .nil (.build p .tmpl)
  rw [run_of_run ho, run_of_run hos, Option.map_some]
  refine runUser_of ?_
  rw [Prog.build] at ho
  cases hres : os.result with
  | error e =>
    rw [hres] at hc hu
    obtain rfl := ho.at_err (by rw [next.eq_def]; simp only [bind, hc, Option.bind_some]; rfl)
    exact .err (n' := .dead) (env' := cells)
      (by rw [UProg.build, nextUser.eq_def]; simp only [bind, hu, Option.bind_some])
  | ok es' =>
    obtain rfl : env = [] := hP ⟨_, hres⟩
    cases he
    rw [hres] at hc hu
    have hr := ho.at_noop (by rw [next.eq_def]; simp only [bind, hc, Option.bind_some]; rfl)
    have := rep_next (c := 0) hmore n (Nat.zero_add n) hr
    rw [Nat.zero_add, ← List.range_eq_range'] at this
    exact .noop (u' := u)
      (by rw [UProg.build, nextUser.eq_def]; simp only [bind, hu, Option.bind_some]) this

/-! ## Selections -/

section select

variable {s : Selector} {direct : Bool} {k : Kind} {b : σ → Prog .elem k} {g : σ → σ} {u : σ}

theorem sel_active {P Post : Env → Prop} {count c level : Nat} {w v : σ} {oi : Out} {st : Node}
    {cells : Env} (hst : Run P cells st oi)
    (hok : ∀ src env src' env' o, goesWell (some oi.result) = true → P (src :: env) →
      Beside src src' → List.Forall₂ Beside env env' →
      Run Post env (.selScan src s direct k (fun i => b (g^[i] u)) count level) o →
      URun w env' (.selScan src' s direct k (fun _ v => stateless σ (b v)) g c level) o v)
    (herr : goesWell (some oi.result) = false → v = w) :
    ∀ {src env src' env' st' o}, cells = src :: env → Beside src src' →
      List.Forall₂ Beside env env' → Beside st st' →
      Run Post env (.selActive src s direct k (fun i => b (g^[i] u)) count level st) o →
      URun w env' (.selActive src' s direct k (fun _ v => stateless σ (b v)) g c level st') o v := by
  have he : ∀ e o, goesWell (some (Out.ev e o).result) = goesWell (some o.result) := by
    intro e o
    rw [Out.result]
    cases o.result <;> rfl
  induction hst with
  | @noop _ _ n' env₁ _ h _ ih =>
    rintro src env src' env' st' o rfl hsrc hc hs hr
    obtain ⟨m', cells', h3, hc', hs'⟩ :=
      ((machine_beside σ).1 _ _ _ h).1 w _ _ (.cons hsrc hc) hs
    cases hc' with
    | nil => obtain ⟨x, hx⟩ := hr.pulls; rw [next, h] at hx; cases hx
    | cons hsrc' hc' =>
      have hr := hr.at_noop (by rw [next, h]; rfl)
      exact .noop (by rw [nextUser, h3]; rfl) (ih hok herr rfl hsrc' hc' hs' hr)
  | @ev _ _ n' env₁ _ _ h hne _ ih =>
    rintro src env src' env' st' o rfl hsrc hc hs hr
    obtain ⟨m', cells', h3, hc', hs'⟩ :=
      ((machine_beside σ).1 _ _ _ h).1 w _ _ (.cons hsrc hc) hs
    cases hc' with
    | nil => obtain ⟨x, hx⟩ := hr.pulls; rw [next, h] at hx; cases hx
    | cons hsrc' hc' =>
      obtain ⟨o', rfl, hr'⟩ := hr.at_ev (by rw [next, h]; rfl) hne
      rw [he] at hok herr
      exact .ev (by rw [nextUser, h3]; rfl) hne (ih hok herr rfl hsrc' hc' hs' hr')
  | @done _ _ n' env₁ h hP =>
    rintro src env src' env' st' o rfl hsrc hc hs hr
    obtain ⟨m', cells', h3, hc', hs'⟩ :=
      ((machine_beside σ).1 _ _ _ h).1 w _ _ (.cons hsrc hc) hs
    cases hc' with
    | nil => obtain ⟨x, hx⟩ := hr.pulls; rw [next, h] at hx; cases hx
    | cons hsrc' hc' =>
      have hr := hr.at_noop (by rw [next, h]; rfl)
      exact .noop (by rw [nextUser, h3]; rfl) (hok _ _ _ _ _ rfl hP hsrc' hc' hr)
  | @err _ _ n' env₁ _ h =>
    rintro src env src' env' st' o rfl hsrc hc hs hr
    obtain ⟨m', cells', h3, hc', hs'⟩ :=
      ((machine_beside σ).1 _ _ _ h).1 w _ _ (.cons hsrc hc) hs
    cases hc' with
    | nil => obtain ⟨x, hx⟩ := hr.pulls; rw [next, h] at hx; cases hx
    | cons hsrc' hc' =>
      obtain rfl := hr.at_err (by rw [next, h]; rfl)
      rw [herr rfl]
      exact .err (by rw [nextUser, h3]; rfl)

theorem sel_pass {P Post : Env → Prop} {count c level level' : Nat} {v : σ} {e : Event} {o oo : Out}
    {env : Env} {cells : UEnv σ} {src : Node} {src' : UNode σ}
    (hsrc : Run P env src (.ev e o)) (hb : Beside src src') (hc : List.Forall₂ Beside env cells)
    (hm : (inScope direct level && s.matches e) = false) (hl : levelAdjust level e = .ok level')
    (hr : Run Post env (.selScan src s direct k (fun i => b (g^[i] u)) count level) oo)
    (hk : ∀ env' cells' src₁ src₁' oo', Run P env' src₁ o → Beside src₁ src₁' →
      List.Forall₂ Beside env' cells' →
      Run Post env' (.selScan src₁ s direct k (fun i => b (g^[i] u)) count level') oo' →
      URun (g^[count] u) cells'
        (.selScan src₁' s direct k (fun _ v => stateless σ (b v)) g c level') oo' v) :
    URun (g^[count] u) cells (.selScan src' s direct k (fun _ v => stateless σ (b v)) g c level)
      oo v := by
  obtain ⟨n', env', h1, hne, h2⟩ := hsrc.skip_ev
  obtain ⟨m', cells', h3, hc', hb'⟩ := skip_beside h1 (g^[count] u) hc hb
  have hm' : (restrictInclude direct level && s.matches e) = false := hm
  obtain ⟨o', rfl, hr'⟩ := hr.at_ev
    (by rw [next, h1]; simp only [bind, Option.bind, hm', hl]; rfl) hne
  exact .ev (by rw [nextUser, h3]; simp only [bind, Option.bind, hm', hl]; rfl) hne
    (hk _ _ _ _ _ h2 hb' hc' hr')

theorem sel_match {P Post : Env → Prop} {count c level : Nat} {v : σ} {e : Event} {o oo : Out}
    {env : Env} {cells : UEnv σ} {src : Node} {src' : UNode σ}
    (hsrc : Run P env src (.ev e o)) (hb : Beside src src') (hc : List.Forall₂ Beside env cells)
    (hm : (inScope direct level && s.matches e) = true)
    (hr : Run Post env (.selScan src s direct k (fun i => b (g^[i] u)) count level) oo)
    (hk : ∀ env' cells' src₁ src₁', Run P env' src₁ o → Beside src₁ src₁' →
      List.Forall₂ Beside env' cells' →
      Run Post env' (.selActive src₁ s direct k (fun i => b (g^[i] u)) (count + 1) level
        ((b (g^[count] u)).build (.singleStart e .shared))) oo →
      URun (g^[count + 1] u) cells'
        (.selActive src₁' s direct k (fun _ v => stateless σ (b v)) g (c + 1) level
          ((stateless σ (b (g^[count] u))).build (.singleStart e .shared))) oo v) :
    URun (g^[count] u) cells (.selScan src' s direct k (fun _ v => stateless σ (b v)) g c level)
      oo v := by
  obtain ⟨n', env', h1, hne, h2⟩ := hsrc.skip_ev
  obtain ⟨m', cells', h3, hc', hb'⟩ := skip_beside h1 (g^[count] u) hc hb
  have hm' : (restrictInclude direct level && s.matches e) = true := hm
  have hr' := hr.at_noop (by rw [next, h1]; simp only [bind, Option.bind, hm']; rfl)
  refine .noop ?_ (hk _ _ _ _ h2 hb' hc' hr')
  rw [nextUser, h3]
  simp only [bind, Option.bind, hm', step_state]
  rfl

theorem sel_forest {P Post : Env → Prop} {mean : Nat → Forest → Forest} {v : σ}
    (hb : ∀ i, Builds (b (g^[i] u)).build (mean i)) (f : Forest) (hf : f.WF) {level count c : Nat}
    {o oo : Out} {env : Env} {cells : UEnv σ} {src : Node} {src' : UNode σ}
    (hsrc : Run P env src (f.flat o)) (hbs : Beside src src') (hc : List.Forall₂ Beside env cells)
    (hr : Run Post env (.selScan src s direct k (fun i => b (g^[i] u)) count level) oo)
    (hend : (selectCalls s direct mean level count f).2 = false →
      v = g^[(selectCalls s direct mean level count f).1] u)
    (hk : (selectCalls s direct mean level count f).2 = true →
      ∀ env' cells' src₁ src₁' oo' c, Run P env' src₁ o → Beside src₁ src₁' →
      List.Forall₂ Beside env' cells' →
      Run Post env' (.selScan src₁ s direct k (fun i => b (g^[i] u))
        (selectCalls s direct mean level count f).1 level) oo' →
      URun (g^[(selectCalls s direct mean level count f).1] u) cells'
        (.selScan src₁' s direct k (fun _ v => stateless σ (b v)) g c level) oo' v) :
    URun (g^[count] u) cells (.selScan src' s direct k (fun _ v => stateless σ (b v)) g c level)
      oo v := by
  induction f generalizing level count c o oo env cells src src' with
  | nil => exact hk rfl _ _ _ _ _ _ hsrc hbs hc hr
  | fail e =>
    obtain ⟨n', env', h1⟩ := hsrc.skip_err
    obtain ⟨m', cells', h3, hc', hb'⟩ := skip_beside h1 (g^[count] u) hc hbs
    obtain rfl := hr.at_err (by rw [next, h1]; rfl)
    rw [hend rfl]
    exact .err (by rw [nextUser, h3]; rfl)
  | leaf e rest ih =>
    rw [selectCalls] at hend hk
    by_cases hm : (inScope direct level && s.matches e) = true
    · rw [if_pos hm] at hend hk
      refine sel_match hsrc hbs hc hm hr fun env' cells' src₁ src₁' h1 hb1 hc1 hr1 => ?_
      refine sel_active
        (hb count (fun cells => ∃ c e, cells = c :: e ∧ Run P e c (rest.flat o)) _ _ _
          (single_single e) (single_wf hf.1 hf.2.1 hf.2.2.1)
          (single_leaf hf.1 hf.2.1 ⟨_, _, rfl, h1⟩)) ?_ ?_ rfl hb1 hc1
        (.build _ (.singleStart .shared)) hr1
      · rintro src env src' env' o' hok ⟨_, _, h, hrun⟩ hb2 hc2 hr2
        cases h
        rw [result_flat_done] at hok
        rw [if_pos hok] at hend hk
        exact ih hf.2.2.2 hrun hb2 hc2 hr2 hend hk
      · intro herr
        rw [result_flat_done] at herr
        rw [if_neg (by simp [herr])] at hend
        exact hend rfl
    · rw [if_neg hm] at hend hk
      exact sel_pass hsrc hbs hc (by simpa using hm) (levelAdjust_leaf hf.1) hr
        fun env' cells' src₁ src₁' oo' h1 hb1 hc1 hr1 => ih hf.2.2.2 h1 hb1 hc1 hr1 hend hk
  | elem t as children close rest ih1 ih2 =>
    rw [selectCalls] at hend hk
    simp only at hend hk
    by_cases hm : (inScope direct level && s.matches (.openingTag t as)) = true
    · rw [if_pos hm] at hend hk
      refine sel_match hsrc hbs hc hm hr fun env' cells' src₁ src₁' h1 hb1 hc1 hr1 => ?_
      refine sel_active
        (hb count (fun cells => ∃ c e, cells = c :: e ∧ Run P e c (rest.flat o)) _ _ _
          .elem ⟨hf.1, hf.2.1, hf.2.2.1, trivial⟩ (single_elem hf.2.2.1 hf.1 hf.2.1 h1)) ?_ ?_ rfl
        hb1 hc1 (.build _ (.singleStart .shared)) hr1
      · rintro src env src' env' o' hok ⟨_, _, h, hrun⟩ hb2 hc2 hr2
        cases h
        rw [result_flat_done] at hok
        rw [if_pos hok] at hend hk
        exact ih2 hf.2.2.2 hrun hb2 hc2 hr2 hend hk
      · intro herr
        rw [result_flat_done] at herr
        rw [if_neg (by simp [herr])] at hend
        exact hend rfl
    · rw [if_neg hm] at hend hk
      refine sel_pass hsrc hbs hc (by simpa using hm) rfl hr
        fun env' cells' src₁ src₁' oo' h1 hb1 hc1 hr1 => ?_
      refine ih1 hf.2.2.1 h1 hb1 hc1 hr1 ?_ ?_
      · intro hfail
        rw [if_neg (by simp [hfail])] at hend
        exact hend hfail
      · intro hgo env' cells' src₁ src₁' oo' c h1 hb1 hc1 hr1
        rw [if_pos hgo] at hend hk
        by_cases hcl : (inScope direct (level + 1) && s.matches (.closingTag close)) = true
        · rw [if_pos hcl] at hend
          refine sel_match h1 hb1 hc1 hcl hr1 fun env' cells' src₁ src₁' h1 hb1 hc1 hr1 => ?_
          refine sel_active (hb _ (fun _ => False) (src₁ :: env') _ _
            (single_single (.closingTag close)) trivial single_closing) ?_ (fun _ => hend rfl) rfl
            hb1 hc1 (.build _ (.singleStart .shared)) hr1
          exact fun _ _ _ _ _ _ h => h.elim
        · rw [if_neg hcl] at hend hk
          refine sel_pass h1 hb1 hc1 (by simpa using hcl) (levelAdjust_closing level close) hr1
            fun env' cells' src₁ src₁' oo' h1 hb1 hc1 hr1 => ?_
          exact ih2 hf.2.2.2 h1 hb1 hc1 hr1 hend hk

end select

theorem user_select {a k k' : Kind} (p : Prog a k) (s : Selector) (direct : Bool)
    (b : σ → Prog .elem k') (g : σ → σ) (es : List Event) (u : σ) (he : Page es) (hs : Fit a es)
    (hp : WellNested p) (hb : ∀ v, WellNested (b v)) :
    runUser (.selectRaw (stateless σ p) s direct (fun _ v => stateless σ (b v)) g) es u =
      (run (.selectRaw p s direct fun i => b (g^[i] u)) es).map
        (·, g^[(selectCalls s direct (fun i => meaning (b (g^[i] u))) 0 0
          (meaning p (treeOf es))).1] u) := by
  obtain ⟨o, ho⟩ := run_exists (.selectRaw p s direct fun i => b (g^[i] u)) es
  rw [run_of_run ho, Option.map_some]
  refine runUser_of ?_
  obtain ⟨h1, h2⟩ := treeOf_spec he
  have hr := (refine_build p hp (fun _ => True) [] (.tmpl es 0) _ (fit_shape hs) h1
    (rel_copy trivial (fit_shape hs) h1 (treeOf_events he))).run
  have hw := (meaning_ok p hp _ (fit_shape hs) h1).2
  refine sel_forest (u := u) (count := 0)
    (fun i P env n f hs hf h => (refine_build _ (hb _) P env n f hs hf h).run) _ hw hr
    (.build p .tmpl) .nil ho (fun _ => rfl) ?_
  intro hgo env' cells' src₁ src₁' oo' c h1 hb1 hc1 hr1
  obtain ⟨n', env', h2, -⟩ := h1.skip_done
  obtain ⟨m', cells', h3, hc', hb'⟩ := skip_beside h2 (g^[(selectCalls s direct
    (fun i => meaning (b (g^[i] u))) 0 0 (meaning p (treeOf es))).1] u) hc1 hb1
  obtain rfl := hr1.at_done (by rw [next, h2]; rfl)
  exact .done (by rw [nextUser, h3]; rfl)

/-! ## Selections of one element -/

section once

variable {s : Selector} {direct : Bool} {k : Kind} {b : σ → Prog .elem k} {g : σ → σ} {u : σ}

theorem one_pass {P Post : Env → Prop} {level level' : Nat} {v : σ} {e : Event} {o oo : Out}
    {env : Env} {cells : UEnv σ} {src : Node} {src' : UNode σ}
    (hsrc : Run P env src (.ev e o)) (hb : Beside src src') (hc : List.Forall₂ Beside env cells)
    (hm : (inScope direct level && s.matches e) = false) (hl : levelAdjust level e = .ok level')
    (hr : Run Post env (.onceScan src s direct k (b u) level) oo)
    (hk : ∀ env' cells' src₁ src₁' oo', Run P env' src₁ o → Beside src₁ src₁' →
      List.Forall₂ Beside env' cells' →
      Run Post env' (.onceScan src₁ s direct k (b u) level') oo' →
      URun u cells' (.onceScan src₁' s direct k (fun v => stateless σ (b v)) g level') oo' v) :
    URun u cells (.onceScan src' s direct k (fun v => stateless σ (b v)) g level) oo v := by
  obtain ⟨n', env', h1, hne, h2⟩ := hsrc.skip_ev
  obtain ⟨m', cells', h3, hc', hb'⟩ := skip_beside h1 u hc hb
  have hm' : (restrictInclude direct level && s.matches e) = false := hm
  obtain ⟨o', rfl, hr'⟩ := hr.at_ev
    (by rw [next, h1]; simp only [bind, Option.bind, hm', hl]; rfl) hne
  exact .ev (by rw [nextUser, h3]; simp only [bind, Option.bind, hm', hl]; rfl) hne
    (hk _ _ _ _ _ h2 hb' hc' hr')

theorem one_match {P Post : Env → Prop} {level : Nat} {e : Event} {o oo : Out} {env : Env}
    {cells : UEnv σ} {src : Node} {src' : UNode σ}
    (hsrc : Run P env src (.ev e o)) (hb : Beside src src') (hc : List.Forall₂ Beside env cells)
    (hm : (inScope direct level && s.matches e) = true)
    (hr : Run Post env (.onceScan src s direct k (b u) level) oo) :
    URun u cells (.onceScan src' s direct k (fun v => stateless σ (b v)) g level) oo (g u) := by
  obtain ⟨n', env', h1, hne, h2⟩ := hsrc.skip_ev
  obtain ⟨m', cells', h3, hc', hb'⟩ := skip_beside h1 u hc hb
  have hm' : (restrictInclude direct level && s.matches e) = true := hm
  have hr' := hr.at_noop (by rw [next, h1]; simp only [bind, Option.bind, hm']; rfl)
  exact .noop (by rw [nextUser, h3]; simp only [bind, Option.bind, hm']; rfl)
    (hr'.beside _ hc' (.onceActive hb' (.build _ (.singleStart .shared))))

theorem one_forest {P Post : Env → Prop} {v : σ} (f : Forest) (hf : f.WF) {level : Nat}
    {o oo : Out} {env : Env} {cells : UEnv σ} {src : Node} {src' : UNode σ}
    (hsrc : Run P env src (f.flat o)) (hbs : Beside src src') (hc : List.Forall₂ Beside env cells)
    (hr : Run Post env (.onceScan src s direct k (b u) level) oo)
    (hcall : onceCalled s direct level f = some true → v = g u)
    (hend : onceCalled s direct level f = none → v = u)
    (hk : onceCalled s direct level f = some false →
      ∀ env' cells' src₁ src₁' oo', Run P env' src₁ o → Beside src₁ src₁' →
      List.Forall₂ Beside env' cells' →
      Run Post env' (.onceScan src₁ s direct k (b u) level) oo' →
      URun u cells' (.onceScan src₁' s direct k (fun v => stateless σ (b v)) g level) oo' v) :
    URun u cells (.onceScan src' s direct k (fun v => stateless σ (b v)) g level) oo v := by
  induction f generalizing level o oo env cells src src' with
  | nil => exact hk rfl _ _ _ _ _ hsrc hbs hc hr
  | fail e =>
    obtain ⟨n', env', h1⟩ := hsrc.skip_err
    obtain ⟨m', cells', h3, hc', hb'⟩ := skip_beside h1 u hc hbs
    obtain rfl := hr.at_err (by rw [next, h1]; rfl)
    rw [hend rfl]
    exact .err (by rw [nextUser, h3]; rfl)
  | leaf e rest ih =>
    rw [onceCalled] at hcall hend hk
    by_cases hm : (inScope direct level && s.matches e) = true
    · rw [if_pos hm] at hcall
      rw [hcall rfl]
      exact one_match hsrc hbs hc hm hr
    · rw [if_neg hm] at hcall hend hk
      exact one_pass hsrc hbs hc (by simpa using hm) (levelAdjust_leaf hf.1) hr
        fun env' cells' src₁ src₁' oo' h1 hb1 hc1 hr1 => ih hf.2.2.2 h1 hb1 hc1 hr1 hcall hend hk
  | elem t as children close rest ih1 ih2 =>
    rw [onceCalled] at hcall hend hk
    by_cases hm : (inScope direct level && s.matches (.openingTag t as)) = true
    · rw [if_pos hm] at hcall
      rw [hcall rfl]
      exact one_match hsrc hbs hc hm hr
    · rw [if_neg hm] at hcall hend hk
      refine one_pass hsrc hbs hc (by simpa using hm) rfl hr
        fun env' cells' src₁ src₁' oo' h1 hb1 hc1 hr1 => ?_
      refine ih1 hf.2.2.1 h1 hb1 hc1 hr1 ?_ ?_ ?_
      · intro h
        rw [h] at hcall
        exact hcall rfl
      · intro h
        rw [h] at hend
        exact hend rfl
      · intro hgo env' cells' src₁ src₁' oo' h1 hb1 hc1 hr1
        rw [hgo] at hcall hend hk
        simp only at hcall hend hk
        by_cases hcl : (inScope direct (level + 1) && s.matches (.closingTag close)) = true
        · rw [if_pos hcl] at hcall
          rw [hcall rfl]
          exact one_match h1 hb1 hc1 hcl hr1
        · rw [if_neg hcl] at hcall hend hk
          refine one_pass h1 hb1 hc1 (by simpa using hcl) (levelAdjust_closing level close) hr1
            fun env' cells' src₁ src₁' oo' h1 hb1 hc1 hr1 => ?_
          exact ih2 hf.2.2.2 h1 hb1 hc1 hr1 hcall hend hk

end once

theorem user_selectOnce {a k k' : Kind} (p : Prog a k) (s : Selector) (direct : Bool)
    (b : σ → Prog .elem k') (g : σ → σ) (es : List Event) (u : σ) (he : Page es) (hs : Fit a es)
    (hp : WellNested p) :
    runUser (.selectOnceRaw (stateless σ p) s direct (fun v => stateless σ (b v)) g) es u =
      (run (.selectOnceRaw p s direct (b u)) es).map
        (·, if onceCalled s direct 0 (meaning p (treeOf es)) = some true then g u else u) := by
  obtain ⟨o, ho⟩ := run_exists (.selectOnceRaw p s direct (b u)) es
  rw [run_of_run ho, Option.map_some]
  refine runUser_of ?_
  obtain ⟨h1, h2⟩ := treeOf_spec he
  have hr := (refine_build p hp (fun _ => True) [] (.tmpl es 0) _ (fit_shape hs) h1
    (rel_copy trivial (fit_shape hs) h1 (treeOf_events he))).run
  have hw := (meaning_ok p hp _ (fit_shape hs) h1).2
  refine one_forest (u := u) _ hw hr (.build p .tmpl) .nil ho (fun h => if_pos h)
    (fun h => if_neg (by simp [h])) ?_
  intro hgo env' cells' src₁ src₁' oo' h1 hb1 hc1 hr1
  obtain ⟨n', env', h2, -⟩ := h1.skip_done
  obtain ⟨m', cells', h3, hc', hb'⟩ := skip_beside h2 u hc1 hb1
  obtain rfl := hr1.at_done (by rw [next, h2]; rfl)
  rw [if_neg (by simp [hgo])]
  exact .done (by rw [nextUser, h3]; rfl)

/-! ## Contents -/

theorem user_contents {a k : Kind} (p : Prog a .elem) (b : σ → Prog .gen k) (g : σ → σ)
    (es : List Event) (u : σ) (he : Page es) (hs : Fit a es) (hp : WellNested p) :
    runUser (.contents (stateless σ p) (fun v => stateless σ (b v)) g) es u =
      (run (.contents p (b u)) es).map
        (·, if hasContents (meaning p (treeOf es)) then g u else u) := by
  obtain ⟨o, ho⟩ := run_exists (.contents p (b u)) es
  rw [run_of_run ho, Option.map_some]
  refine runUser_of ?_
  obtain ⟨h1, h2⟩ := treeOf_spec he
  have hr := refine_build p hp (fun _ => True) [] (.tmpl es 0) _ (fit_shape hs) h1
    (rel_copy trivial (fit_shape hs) h1 (treeOf_events he))
  obtain ⟨hsh, hw⟩ := meaning_ok p hp _ (fit_shape hs) h1
  have hx := (del_expand hsh hw hr).run
  have hbx : Beside (.expandStart (p.build (.tmpl es 0)))
      (.expandStart ((stateless σ p).build (.tmpl es 0))) := .expandStart (.build p .tmpl)
  rw [Prog.build] at ho
  rw [UProg.build]
  generalize meaning p (treeOf es) = f at hsh hw hx
  cases hsh with
  | @leaf e he' =>
    cases e with
    | selfClosedTag t as =>
      obtain ⟨n', env', h1, hne, -⟩ := hx.skip_ev
      obtain ⟨m', cells', h3, hc', hb'⟩ := skip_beside h1 u .nil hbx
      obtain ⟨o', rfl, hr'⟩ := ho.at_ev (by rw [next, h1]; rfl) hne
      exact .ev (by rw [nextUser, h3]; rfl) hne
        (hr'.beside _ hc' (.contContent (.peek hb') (.build _ .curContent)))
    | voidTag t as =>
      obtain ⟨n', env', h1, hne, -⟩ := hx.skip_ev
      obtain ⟨m', cells', h3, hc', hb'⟩ := skip_beside h1 u .nil hbx
      obtain ⟨o', rfl, hr'⟩ := ho.at_ev (by rw [next, h1]; rfl) hne
      exact .ev (by rw [nextUser, h3]; rfl) hne (hr'.beside _ hc' .dead)
    | openingTag t as => exact hw.1.elim
    | _ => cases he'
  | elem =>
    obtain ⟨n', env', h1, hne, -⟩ := hx.skip_ev
    obtain ⟨m', cells', h3, hc', hb'⟩ := skip_beside h1 u .nil hbx
    obtain ⟨o', rfl, hr'⟩ := ho.at_ev (by rw [next, h1]; rfl) hne
    exact .ev (by rw [nextUser, h3]; rfl) hne
      (hr'.beside _ hc' (.contContent (.peek hb') (.build _ .curContent)))
  | fail =>
    obtain ⟨n', env', h1⟩ := hx.skip_err
    obtain ⟨m', cells', h3, hc', hb'⟩ := skip_beside h1 u .nil hbx
    obtain rfl := ho.at_err (by rw [next, h1]; rfl)
    exact .err (by rw [nextUser, h3]; rfl)

theorem transformUser_run {k : Kind} (p : UProg σ .gen k) (t : Template) (u : σ) :
    t.transformUser p u = (runUser p t.events u).map fun x => (x.1.map Template.mk, x.2) := by
  rw [Template.transformUser, runUser]
  cases collectUser u [] (p.build (.tmpl t.events 0)) with
  | none => rfl
  | some x =>
    obtain ⟨r, env, v⟩ := x
    cases r <;> rfl

/-! ## Selections without errors -/

theorem goesWell_iff {f : Forest} : goesWell (some f.events) = true ↔ Sound f := by
  rw [sound_iff]
  cases f.events <;> simp [goesWell]

theorem calls_all {s : Selector} {direct : Bool} {b : Nat → Forest → Forest}
    (hb : ∀ i f, Sound (b i f) → Sound f) (f : Forest) : ∀ {level count : Nat},
    ((selectCalls s direct b level count f).2 = true ↔
      Sound (selectTree s direct b level count f).1) ∧
    ((selectCalls s direct b level count f).2 = true →
      (selectCalls s direct b level count f).1 = (selectTree s direct b level count f).2) := by
  induction f with
  | nil => exact fun {_ _} => ⟨⟨fun _ => trivial, fun _ => rfl⟩, fun _ => rfl⟩
  | fail => exact fun {_ _} => ⟨⟨nofun, fun h => h.elim⟩, nofun⟩
  | leaf e rest ih =>
    intro level count
    rw [selectCalls, selectTree]
    split
    · simp only
      rw [sound_append, ← goesWell_iff (f := b count _)]
      split
      next h => rw [h]; exact ⟨by simpa using ih.1, ih.2⟩
      next h => simp [h]
    · exact ih
  | elem t as children close rest ih1 ih2 =>
    intro level count
    rw [selectCalls, selectTree]
    split
    · simp only
      rw [sound_append, ← goesWell_iff (f := b count _)]
      split
      next h => rw [h]; exact ⟨by simpa using ih2.1, ih2.2⟩
      next h => simp [h]
    · simp only
      obtain ⟨h1, h2⟩ := ih1 (level := level + 1) (count := count)
      by_cases hc : (selectCalls s direct b (level + 1) count children).2 = true
      · rw [if_pos hc, h2 hc]
        split
        · refine ⟨⟨nofun, fun h => ?_⟩, nofun⟩
          have := hb _ _ (sound_append.1 h.1).2
          exact this.elim
        · refine ⟨?_, ih2.2⟩
          rw [Sound, ← h1, ih2.1]
          simp [hc]
      · rw [if_neg hc]
        refine ⟨⟨fun h => absurd h hc, fun h => ?_⟩, fun h => absurd h hc⟩
        have hs : Sound (selectTree s direct b (level + 1) count children).1 := by
          split at h
          · exact (sound_append.1 h.1).1
          · exact h.1
        exact h1.2 hs

end Fuser
