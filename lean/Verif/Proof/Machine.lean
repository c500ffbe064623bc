import Verif.Model.Api
import Verif.Spec.Tree

/-!
# The stream machine: runs
-/

namespace Fuser

/-- What a stream yields until it ends, without the `noop` events. -/
inductive Out
  | done
  | err (e : StreamError)
  | ev (e : Event) (rest : Out)

/-- Continue with another stream after the end. -/
def Out.append : Out → Out → Out
  | .done, k => k
  | .err e, _ => .err e
  | .ev e o, k => .ev e (o.append k)

/-- The events, or the error. -/
def Out.result : Out → Except StreamError (List Event)
  | .done => .ok []
  | .err e => .error e
  | .ev e o => match o.result with
    | .ok es => .ok (e :: es)
    | .error x => .error x

/-- Shape of a run: pulling the stream `n` with cells `env` yields `o`, and if the stream ends
without error, `Post` holds of the cells. -/
inductive Run (Post : Env → Prop) : Env → Node → Out → Prop
  | noop {env n n' env' o} : next env n = some (.ev .noop, n', env') → Run Post env' n' o →
      Run Post env n o
  | ev {env n n' env' e o} : next env n = some (.ev e, n', env') → e ≠ .noop →
      Run Post env' n' o → Run Post env n (.ev e o)
  | done {env n n' env'} : next env n = some (.done, n', env') → Post env' → Run Post env n .done
  | err {env n n' env' e} : next env n = some (.err e, n', env') → Run Post env n (.err e)

/-- Runs of element streams: `Post` holds as soon as the last event is out. -/
inductive Del (Post : Env → Prop) : Env → Node → Out → Prop
  | noop {env n n' env' o} : next env n = some (.ev .noop, n', env') → Del Post env' n' o →
      Del Post env n o
  | ev {env n n' env' e o} : next env n = some (.ev e, n', env') → e ≠ .noop →
      Del Post env' n' o → Del Post env n (.ev e o)
  | last {env n n' env' e} : next env n = some (.ev e, n', env') → e ≠ .noop → Post env' →
      Run Post env' n' .done → Del Post env n (.ev e .done)
  | err {env n n' env' e} : next env n = some (.err e, n', env') → Del Post env n (.err e)

theorem Del.run {Post env n o} (h : Del Post env n o) : Run Post env n o := by
  induction h with
  | noop h _ ih => exact .noop h ih
  | ev h he _ ih => exact .ev h he ih
  | last h he _ hr => exact .ev h he hr
  | err h => exact .err h

theorem Run.mono {Post Post' : Env → Prop} (hp : ∀ env, Post env → Post' env) {env n o}
    (h : Run Post env n o) : Run Post' env n o := by
  induction h with
  | noop h _ ih => exact .noop h ih
  | ev h he _ ih => exact .ev h he ih
  | done h hP => exact .done h (hp _ hP)
  | err h => exact .err h

/-- The run relation of a kind of stream. -/
def Rel : Kind → (Env → Prop) → Env → Node → Out → Prop
  | .gen, Post => Run Post
  | .elem, Post => Del Post

theorem Rel.run {k : Kind} {Post env n o} (h : Rel k Post env n o) : Run Post env n o := by
  cases k with
  | gen => exact h
  | elem => exact Del.run h

theorem Rel.noop {k : Kind} {Post env n n' env' o}
    (h : next env n = some (.ev .noop, n', env')) (hr : Rel k Post env' n' o) :
    Rel k Post env n o := by
  cases k with
  | gen => exact Run.noop h hr
  | elem => exact Del.noop h hr

theorem Rel.err {k : Kind} {Post env n n' env' e}
    (h : next env n = some (.err e, n', env')) : Rel k Post env n (.err e) := by
  cases k with
  | gen => exact Run.err h
  | elem => exact Del.err h

/-! ## Skipping -/

theorem nextSkipNoop_of {env n r n' env'} (h : next env n = some (r, n', env'))
    (hr : r ≠ .ev .noop) : nextSkipNoop env n = some (r, n', env') := by
  rw [nextSkipNoop, h]
  cases r with
  | ev e => cases e <;> first | rfl | exact absurd rfl hr
  | done => rfl
  | err e => rfl

theorem nextSkipNoop_noop {env n n' env'} (h : next env n = some (.ev .noop, n', env')) :
    nextSkipNoop env n = nextSkipNoop env' n' := by
  conv => lhs; rw [nextSkipNoop]
  rw [h]
  rfl

theorem Run.skip_ev {Post env n e o} (h : Run Post env n (.ev e o)) :
    ∃ n' env', nextSkipNoop env n = some (.ev e, n', env') ∧ e ≠ .noop ∧ Run Post env' n' o := by
  generalize ho : Out.ev e o = o' at h
  induction h with
  | noop h _ ih =>
    obtain ⟨n', env', h1, h2⟩ := ih ho
    exact ⟨n', env', by rw [nextSkipNoop_noop h, h1], h2⟩
  | ev h he hr _ =>
    cases ho
    exact ⟨_, _, nextSkipNoop_of h (by simpa using he), he, hr⟩
  | done => cases ho
  | err => cases ho

theorem Run.skip_done {Post env n} (h : Run Post env n .done) :
    ∃ n' env', nextSkipNoop env n = some (.done, n', env') ∧ Post env' := by
  generalize ho : Out.done = o' at h
  induction h with
  | noop h _ ih =>
    obtain ⟨n', env', h1, h2⟩ := ih ho
    exact ⟨n', env', by rw [nextSkipNoop_noop h, h1], h2⟩
  | ev => cases ho
  | done h hP => exact ⟨_, _, nextSkipNoop_of h (by simp), hP⟩
  | err => cases ho

theorem Run.skip_err {Post env n e} (h : Run Post env n (.err e)) :
    ∃ n' env', nextSkipNoop env n = some (.err e, n', env') := by
  generalize ho : Out.err e = o' at h
  induction h with
  | noop h _ ih =>
    obtain ⟨n', env', h1⟩ := ih ho
    exact ⟨n', env', by rw [nextSkipNoop_noop h, h1]⟩
  | ev => cases ho
  | done => cases ho
  | err h => cases ho; exact ⟨_, _, nextSkipNoop_of h (by simp)⟩

theorem Del.skip_ev {Post env n e o} (h : Del Post env n (.ev e o)) :
    ∃ n' env', nextSkipNoop env n = some (.ev e, n', env') ∧ e ≠ .noop ∧
      ((o = .done ∧ Post env' ∧ Run Post env' n' .done) ∨ Del Post env' n' o) := by
  generalize ho : Out.ev e o = o' at h
  induction h with
  | noop h _ ih =>
    obtain ⟨n', env', h1, h2⟩ := ih ho
    exact ⟨n', env', by rw [nextSkipNoop_noop h, h1], h2⟩
  | ev h he hr _ =>
    cases ho
    exact ⟨_, _, nextSkipNoop_of h (by simpa using he), he, .inr hr⟩
  | last h he hP hr =>
    cases ho
    exact ⟨_, _, nextSkipNoop_of h (by simpa using he), he, .inl ⟨rfl, hP, hr⟩⟩
  | err => cases ho

theorem Del.not_done {Post env n} : ¬ Del Post env n .done := by
  intro h
  generalize ho : Out.done = o' at h
  induction h with
  | noop _ _ ih => exact ih ho
  | ev => cases ho
  | last => cases ho
  | err => cases ho

/-- More events follow. -/
theorem Del.skip_more {Post env n e o} (h : Del Post env n (.ev e o)) (ho : o ≠ .done) :
    ∃ n' env', nextSkipNoop env n = some (.ev e, n', env') ∧ e ≠ .noop ∧ Del Post env' n' o := by
  obtain ⟨n', env', h1, h2, h3 | h3⟩ := h.skip_ev
  · exact absurd h3.1 ho
  · exact ⟨n', env', h1, h2, h3⟩

theorem Del.skip_last {Post env n e} (h : Del Post env n (.ev e .done)) :
    ∃ n' env', nextSkipNoop env n = some (.ev e, n', env') ∧ e ≠ .noop ∧ Post env' ∧
      Run Post env' n' .done := by
  obtain ⟨n', env', h1, h2, h3 | h3⟩ := h.skip_ev
  · exact ⟨n', env', h1, h2, h3.2⟩
  · exact absurd h3 Del.not_done

/-! ## Dead streams -/

theorem next_dead (env : Env) : next env .dead = some (.done, .dead, env) := by rw [next]

theorem Run.dead {Post : Env → Prop} {env} (h : Post env) : Run Post env .dead .done :=
  .done (next_dead env) h

/-! ## Forwarding streams -/

/-- The stream only forwards. -/
def Forwards (C : Node → Node) : Prop :=
  ∀ env s, next env (C s) = (next env s).map (passthrough C)

theorem forwards_fallEmit : Forwards .fallEmit := by
  intro env s
  rw [next]
  cases next env s <;> rfl

theorem forwards_expandEmit : Forwards .expandEmit := by
  intro env s
  rw [next]
  cases next env s <;> rfl

theorem forwards_oncePass : Forwards .oncePass := by
  intro env s
  rw [next]
  cases next env s <;> rfl

theorem forwards_attrEmit : Forwards .attrEmit := by
  intro env s
  rw [next]
  cases next env s <;> rfl

theorem forwards_orElseRun : Forwards .orElseRun := by
  intro env s
  rw [next]
  cases next env s <;> rfl

theorem forwards_applyEmit : Forwards .applyEmit := by
  intro env s
  rw [next]
  cases next env s <;> rfl

theorem Forwards.run {C : Node → Node} (hC : Forwards C) {Post env n o} (h : Run Post env n o) :
    Run Post env (C n) o := by
  induction h with
  | noop h _ ih => exact .noop (by rw [hC, h]; rfl) ih
  | ev h he _ ih => exact .ev (by rw [hC, h]; rfl) he ih
  | done h hP => exact .done (by rw [hC, h]; rfl) hP
  | err h => exact .err (by rw [hC, h]; rfl)

theorem Forwards.del {C : Node → Node} (hC : Forwards C) {Post env n o} (h : Del Post env n o) :
    Del Post env (C n) o := by
  induction h with
  | noop h _ ih => exact .noop (by rw [hC, h]; rfl) ih
  | ev h he _ ih => exact .ev (by rw [hC, h]; rfl) he ih
  | last h he hP hr => exact .last (by rw [hC, h]; rfl) he hP (hC.run hr)
  | err h => exact .err (by rw [hC, h]; rfl)

theorem Forwards.rel {C : Node → Node} (hC : Forwards C) {k : Kind} {Post env n o}
    (h : Rel k Post env n o) : Rel k Post env (C n) o := by
  cases k with
  | gen => exact hC.run h
  | elem => exact hC.del h

theorem rel_fallStart {k : Kind} {Post env n o} (h : Rel k Post env n o) :
    Rel k Post env (.fallStart n) o :=
  Rel.noop (by rw [next]) (forwards_fallEmit.rel h)

theorem rel_fallError {k : Kind} {Post env e} : Rel k Post env (.fallError e) (.err e) :=
  Rel.err (by rw [next])

/-! ## Collecting and draining -/

theorem Run.collect {Post env n o} (h : Run Post env n o) :
    ∃ env', collect env n = some (o.result, env') ∧ ((∃ es, o.result = .ok es) → Post env') := by
  induction o generalizing env n with
  | done =>
    obtain ⟨n', env', h1, h2⟩ := h.skip_done
    exact ⟨env', by rw [Fuser.collect, h1]; rfl, fun _ => h2⟩
  | err e =>
    obtain ⟨n', env', h1⟩ := h.skip_err
    exact ⟨env', by rw [Fuser.collect, h1]; rfl, fun ⟨_, h⟩ => by cases h⟩
  | ev e o ih =>
    obtain ⟨n', env', h1, h2, h3⟩ := h.skip_ev
    obtain ⟨env'', h4, h5⟩ := ih h3
    refine ⟨env'', ?_, ?_⟩
    · rw [Fuser.collect, h1]
      simp only [bind, Option.bind, h4, Out.result]
      cases o.result <;> rfl
    · rintro ⟨es, hes⟩
      apply h5
      simp only [Out.result] at hes
      cases hr : o.result with
      | ok es => exact ⟨es, rfl⟩
      | error e => rw [hr] at hes; cases hes

theorem Run.drain {Post env n o} (h : Run Post env n o) :
    ∃ n' env', (∃ es, o.result = .ok es ∧ drain env n = some (.done, n', env') ∧ Post env') ∨
      ∃ e, o.result = .error e ∧ drain env n = some (.err e, n', env') := by
  induction h with
  | noop h _ ih =>
    obtain ⟨n', env', ih⟩ := ih
    refine ⟨n', env', ?_⟩
    have : ∀ x, Fuser.drain _ _ = some x → Fuser.drain _ _ = some x := fun x hx => by
      rw [Fuser.drain, h]; exact hx
    rcases ih with ⟨es, h1, h2, h3⟩ | ⟨e, h1, h2⟩
    · exact .inl ⟨es, h1, this _ h2, h3⟩
    · exact .inr ⟨e, h1, this _ h2⟩
  | @ev _ _ _ _ e _ h _ _ ih =>
    obtain ⟨n', env', ih⟩ := ih
    refine ⟨n', env', ?_⟩
    have : ∀ x, Fuser.drain _ _ = some x → Fuser.drain _ _ = some x := fun x hx => by
      rw [Fuser.drain, h]; exact hx
    rcases ih with ⟨es, h1, h2, h3⟩ | ⟨e, h1, h2⟩
    · exact .inl ⟨e :: es, by simp only [Out.result, h1], this _ h2, h3⟩
    · exact .inr ⟨e, by simp only [Out.result, h1], this _ h2⟩
  | done h hP => exact ⟨_, _, .inl ⟨[], rfl, by rw [Fuser.drain, h]; rfl, hP⟩⟩
  | err h => exact ⟨_, _, .inr ⟨_, rfl, by rw [Fuser.drain, h]; rfl⟩⟩

/-- The result of removing. -/
def Out.removed (o : Out) : Out :=
  match o.result with
  | .ok _ => .done
  | .error e => .err e

theorem run_remove {Post env n o} (h : Run Post env n o) :
    Run Post env (.remove n) o.removed := by
  obtain ⟨n', env', ⟨es, h1, h2, h3⟩ | ⟨e, h1, h2⟩⟩ := h.drain
  · rw [Out.removed, h1]
    exact .done (by rw [next, h2]; rfl) h3
  · rw [Out.removed, h1]
    exact .err (by rw [next, h2]; rfl)

/-! ## Combining -/

theorem run_combSecond {Post env n o} (h : Run Post env n o) : Run Post env (.combSecond n) o := by
  induction o generalizing env n with
  | done =>
    obtain ⟨n', env', h1, h2⟩ := h.skip_done
    exact .done (by rw [next, h1]; rfl) h2
  | err e =>
    obtain ⟨n', env', h1⟩ := h.skip_err
    exact .err (by rw [next, h1]; rfl)
  | ev e o ih =>
    obtain ⟨n', env', h1, h2, h3⟩ := h.skip_ev
    exact .ev (by rw [next, h1]; rfl) h2 (ih h3)

theorem run_combFirst {P Post env n m o o'} (h : Run P env n o)
    (h' : ∀ env', P env' → Run Post env' m o') : Run Post env (.combFirst n m) (o.append o') := by
  induction o generalizing env n with
  | done =>
    obtain ⟨n', env', h1, h2⟩ := h.skip_done
    exact .noop (by rw [next, h1]; rfl) (run_combSecond (h' _ h2))
  | err e =>
    obtain ⟨n', env', h1⟩ := h.skip_err
    exact .err (by rw [next, h1]; rfl)
  | ev e o ih =>
    obtain ⟨n', env', h1, h2, h3⟩ := h.skip_ev
    exact .ev (by rw [next, h1]; rfl) h2 (ih h3)

/-! ## Contents and templates -/

/-- The results of a finite stream as an outcome. -/
def Out.ofResults : List (Except StreamError Event) → Out
  | [] => .done
  | .error e :: _ => .err e
  | .ok .noop :: rs => Out.ofResults rs
  | .ok e :: rs => .ev e (Out.ofResults rs)

theorem Out.ofResults_cons {e : Event} (h : e ≠ .noop) (rs) :
    Out.ofResults (.ok e :: rs) = .ev e (Out.ofResults rs) := by
  cases e <;> first | rfl | exact absurd rfl h

theorem run_script {Post : Env → Prop} {env} (h : Post env) (rs) :
    Run Post env (.script rs) (Out.ofResults (Spec.untilEnd rs)) := by
  induction rs with
  | nil => exact .done (by rw [next]) h
  | cons r rs ih =>
    rcases r with e | _ | e
    · exact .err (by rw [next])
    · exact .done (by rw [next]) h
    · rw [Spec.untilEnd]
      by_cases he : e = .noop
      · subst he
        exact .noop (by rw [next]) ih
      · rw [Out.ofResults_cons he]
        exact .ev (by rw [next]) he ih

theorem run_tmpl_drop {Post : Env → Prop} {env} (h : Post env) (es : List Event) (rest i)
    (hi : es.drop i = rest) :
    Run Post env (.tmpl es i) (Out.ofResults (rest.map .ok)) := by
  induction rest generalizing i with
  | nil =>
    have : es[i]? = none := by
      rw [List.getElem?_eq_none_iff]
      exact List.drop_eq_nil_iff.mp hi
    exact .done (by rw [next, this]) h
  | cons e rest ih =>
    have hg : es[i]? = some e := by
      rw [← Nat.add_zero i, ← List.getElem?_drop, hi]
      rfl
    have hd : es.drop (i + 1) = rest := by
      rw [← List.drop_drop, hi]
      rfl
    have hn : next env (.tmpl es i) = some (.ev e, .tmpl es (i + 1), env) := by
      rw [next, hg]
    rw [List.map_cons]
    by_cases he : e = .noop
    · subst he
      exact .noop hn (ih _ hd)
    · rw [Out.ofResults_cons he]
      exact .ev hn he (ih _ hd)

theorem run_tmpl {Post : Env → Prop} {env} (h : Post env) (es : List Event) :
    Run Post env (.tmpl es 0) (Out.ofResults (es.map .ok)) :=
  run_tmpl_drop h es es 0 rfl

theorem del_tmpl_drop {Post : Env → Prop} {env} (h : Post env) (es : List Event) (e rest i)
    (hi : es.drop i = e :: rest) (hn : ∀ x ∈ e :: rest, x ≠ .noop) :
    Del Post env (.tmpl es i) (Out.ofResults ((e :: rest).map .ok)) := by
  induction rest generalizing e i with
  | nil =>
    have hg : es[i]? = some e := by
      rw [← Nat.add_zero i, ← List.getElem?_drop, hi]
      rfl
    have hd : es.drop (i + 1) = [] := by
      rw [← List.drop_drop, hi]
      rfl
    have hx : next env (.tmpl es i) = some (.ev e, .tmpl es (i + 1), env) := by
      rw [next, hg]
    rw [List.map_cons, Out.ofResults_cons (hn e (by simp))]
    exact .last hx (hn e (by simp)) h (run_tmpl_drop h es [] _ hd)
  | cons e' rest ih =>
    have hg : es[i]? = some e := by
      rw [← Nat.add_zero i, ← List.getElem?_drop, hi]
      rfl
    have hd : es.drop (i + 1) = e' :: rest := by
      rw [← List.drop_drop, hi]
      rfl
    have hx : next env (.tmpl es i) = some (.ev e, .tmpl es (i + 1), env) := by
      rw [next, hg]
    rw [List.map_cons, Out.ofResults_cons (hn e (by simp))]
    exact .ev hx (hn e (by simp)) (ih _ _ hd fun x hx => hn x (by simp [hx]))

end Fuser
