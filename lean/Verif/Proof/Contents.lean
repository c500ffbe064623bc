import Verif.Spec.Laws
import Verif.Proof.Machine

/-!
# What the streams of contents give
-/

namespace Fuser

open Spec

theorem visible_cons (e : Event) (rs : List (Except StreamError Event)) :
    visible (.ok e :: rs) = if e = .noop then visible rs else .ok e :: visible rs := by
  rw [visible, List.filter_cons]
  cases e <;> rfl

/-- A pull of the stream of a content: such streams do not look at the cells. -/
def contentStep : Node → Option (Res × Node)
  | .dead => some (.done, .dead)
  | .tmpl es i =>
    match es[i]? with
    | some e => some (.ev e, .tmpl es (i + 1))
    | none => some (.done, .tmpl es i)
  | .once (some d) => some (.ev (.data d), .once none)
  | .once none => some (.done, .once none)
  | .script (.ok (some e) :: rest) => some (.ev e, .script rest)
  | .script (.ok none :: rest) => some (.done, .script rest)
  | .script (.error e :: rest) => some (.err e, .script rest)
  | .script [] => some (.done, .script [])
  | .fallStart s => some (.ev .noop, .fallEmit s)
  | .fallError e => some (.err e, .dead)
  | .fallEmit s =>
    match contentStep s with
    | some (.ev e, s) => some (.ev e, .fallEmit s)
    | some (r, _) => some (r, .dead)
    | none => none
  | _ => none

theorem contentStep_next {n n' : Node} {r : Res} (h : contentStep n = some (r, n')) (env : Env) :
    next env n = some (r, n', env) := by
  fun_induction contentStep n generalizing n' r
  case case12 =>
    rename_i s e s' hs ih
    cases h
    rw [next]
    simp only [bind, ih hs, Option.bind_some, passthrough]
  case case13 =>
    rename_i s r' s' hne hs ih
    cases h
    rw [next]
    simp only [bind, ih hs, Option.bind_some]
    cases r' with
    | ev e => exact absurd rfl (hne e)
    | done => rfl
    | err e => rfl
  all_goals first
    | (cases h; done)
    | (cases h; rw [next]; done)
    | (cases h; rw [next.eq_def]; simp only [*]; done)

/-- The stream gives these results, and then ends unless it failed; placeholders left out. -/
inductive Gives : List (Except StreamError Event) → Node → Prop
  | ev {n n' e rs} : contentStep n = some (.ev e, n') → e ≠ .noop → Gives rs n' →
      Gives (.ok e :: rs) n
  | noop {n n' rs} : contentStep n = some (.ev .noop, n') → Gives rs n' → Gives rs n
  | done {n n'} : contentStep n = some (.done, n') → Gives [] n
  | err {n n' e} : contentStep n = some (.err e, n') → Gives [.error e] n

theorem Gives.emit {rs n} (h : Gives rs n) : Gives rs (.fallEmit n) := by
  induction h with
  | ev h he _ ih => exact .ev (by simp only [contentStep, h]) he ih
  | noop h _ ih => exact .noop (by simp only [contentStep, h]) ih
  | done h => exact .done (n' := .dead) (by simp only [contentStep, h])
  | err h => exact .err (n' := .dead) (by simp only [contentStep, h])

theorem gives_template (es : List Event) : ∀ i, i ≤ es.length →
    Gives (visible ((es.drop i).map .ok)) (.tmpl es i) := by
  intro i hi
  induction h : es.length - i generalizing i with
  | zero =>
    have : i = es.length := by omega
    subst this
    simp only [List.drop_length, List.map_nil]
    exact .done (n' := .tmpl es es.length) (by simp only [contentStep, List.getElem?_eq_none (Nat.le_refl _)])
  | succ m ih =>
    have hlt : i < es.length := by omega
    have hget : es[i]? = some es[i] := List.getElem?_eq_getElem hlt
    rw [List.drop_eq_getElem_cons hlt, List.map_cons, visible_cons]
    have := ih (i + 1) (by omega) (by omega)
    by_cases he : es[i] = .noop
    · rw [he, if_pos rfl]
      exact .noop (n' := .tmpl es (i + 1)) (by simp only [contentStep, hget, he]) this
    · rw [if_neg (by simpa using he)]
      exact .ev (n' := .tmpl es (i + 1)) (by simp only [contentStep, hget]) he this

theorem gives_script (rs : List (Except StreamError (Option Event))) :
    Gives (visible (untilEnd rs)) (.script rs) := by
  induction rs with
  | nil => exact .done (n' := .script []) rfl
  | cons r rs ih =>
    rcases r with e | _ | e
    · exact .err (n' := .script rs) rfl
    · exact .done (n' := .script rs) rfl
    · rw [untilEnd, visible_cons]
      by_cases he : e = .noop
      · rw [he, if_pos rfl]
        exact .noop (n' := .script rs) rfl ih
      · rw [if_neg (by simpa using he)]
        exact .ev (n' := .script rs) rfl he ih

theorem gives_content (c : Content) : Gives (visible (results c)) c.intoStream := by
  induction c with
  | data d => exact .ev (n' := .once none) rfl (by simp) (.done (n' := .once none) rfl)
  | template t => exact gives_template t.events 0 (Nat.zero_le _)
  | script rs => exact gives_script rs
  | resultOk c ih => exact .noop (n' := .fallEmit c.intoStream) rfl ih.emit
  | resultErr e => exact .err (n' := .dead) rfl

/-- What a pull without placeholders gives, and what the stream gives afterwards. -/
def Pulled (env : Env) (p : Pull) : List (Except StreamError Event) → Prop
  | [] => p.1 = .done ∧ p.2.2 = env
  | .error e :: _ => p.1 = .err e ∧ p.2.2 = env
  | .ok e :: rs => p.1 = .ev e ∧ Gives rs p.2.1 ∧ p.2.2 = env

theorem Gives.skip {rs n} (h : Gives rs n) (env : Env) :
    ∃ p, nextSkipNoop env n = some p ∧ Pulled env p rs := by
  induction h with
  | @ev n n' e rs h he hg _ =>
    refine ⟨(.ev e, n', env), ?_, rfl, hg, rfl⟩
    rw [nextSkipNoop]
    simp only [bind, contentStep_next h, Option.bind_some]
    cases e <;> first
      | rfl
      | exact absurd rfl he
  | @noop n n' rs h _ ih =>
    obtain ⟨p, hp, hd⟩ := ih
    refine ⟨p, ?_, hd⟩
    rw [nextSkipNoop]
    simp only [bind, contentStep_next h, Option.bind_some, hp]
  | @done n n' h =>
    refine ⟨(.done, n', env), ?_, rfl, rfl⟩
    rw [nextSkipNoop]
    simp only [bind, contentStep_next h, Option.bind_some]
  | @err n n' e h =>
    refine ⟨(.err e, n', env), ?_, rfl, rfl⟩
    rw [nextSkipNoop]
    simp only [bind, contentStep_next h, Option.bind_some]

end Fuser
