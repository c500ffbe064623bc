import Verif.Proof.Faults
import Verif.Proof.Chain

/-!
# How the contents of an element end
-/

namespace Fuser

open Spec

/-- What comes out of the inside of an element and its closing tag. -/
def Out.inside (n : Identifier) : Nat → Out → Out
  | _, .done => .err (.missingClose n)
  | _, .err x => .err x
  | 0, .ev (.closingTag c) _ =>
    if c.eq n = true then .ev (.closingTag c) .done else .err (.missingClose n)
  | d + 1, .ev (.closingTag c) o => .ev (.closingTag c) (o.inside n d)
  | d, .ev (.openingTag t as) o => .ev (.openingTag t as) (o.inside n (d + 1))
  | d, .ev e o => .ev e (o.inside n d)

theorem inside_ev {n d e o} (hc : e.closingTagName = none) (ho : e.openingTagName = none) :
    Out.inside n d (.ev e o) = .ev e (o.inside n d) := by
  cases e <;> first | rfl | (cases hc; done) | cases ho

/-- What the buffer gives when it has been filled. -/
theorem content_filled {n : Identifier} {d : Nat} {e : Event} {s s' : Node} {env env' : Env}
    (h : nextSkipNoop env s = some (.ev e, s', env'))
    (hn : ¬ (d = 0 ∧ e.isClosingTagFor n = true)) :
    next (.peek s none :: env) (.curContent n d) =
      match levelAdjust d e with
      | .ok d' => some (.ev e, .curContent n d', .peek s' none :: env')
      | .error _ => some (.err (.missingClose n), .dead, .peek s' none :: env') := by
  rw [next]
  by_cases hd : d = 0
  · subst hd
    have hf : e.isClosingTagFor n = false := by simpa using hn
    simp only [if_true, h, bind, Option.bind_some, hf, Bool.and_false]
    rw [if_neg (by simp)]
    have : next env' (.peek s' (some e)) = some (.ev e, .peek s' none, env') := by rw [next]
    rw [this]
    rfl
  · rw [if_neg hd]
    simp only [bind, Option.bind_some, hd, decide_false, Bool.false_and]
    rw [if_neg (by simp)]
    have : next env (.peek s none) = some (.ev e, .peek s' none, env') := by
      rw [next]
      simp only [h, bind, Option.bind_some]
    rw [this]
    rfl

theorem content_done {n : Identifier} {d : Nat} {s s' : Node} {env env' : Env}
    (h : nextSkipNoop env s = some (.done, s', env')) :
    ∃ c, next (.peek s none :: env) (.curContent n d) =
      some (.err (.missingClose n), .dead, c :: env') := by
  rw [next]
  by_cases hd : d = 0
  · subst hd
    simp only [if_true, h, bind, Option.bind_some]
    exact ⟨_, rfl⟩
  · rw [if_neg hd]
    simp only [bind, Option.bind_some, hd, decide_false, Bool.false_and]
    rw [if_neg (by simp)]
    have : next env (.peek s none) = some (.done, .peek s' none, env') := by
      rw [next]
      simp only [h, bind, Option.bind_some]
    rw [this]
    exact ⟨_, rfl⟩

theorem content_err {n : Identifier} {d : Nat} {x : StreamError} {s s' : Node} {env env' : Env}
    (h : nextSkipNoop env s = some (.err x, s', env')) :
    ∃ c, next (.peek s none :: env) (.curContent n d) = some (.err x, .dead, c :: env') := by
  rw [next]
  by_cases hd : d = 0
  · subst hd
    simp only [if_true, h, bind, Option.bind_some]
    exact ⟨_, rfl⟩
  · rw [if_neg hd]
    simp only [bind, Option.bind_some, hd, decide_false, Bool.false_and]
    rw [if_neg (by simp)]
    have : next env (.peek s none) = some (.err x, .peek s' none, env') := by
      rw [next]
      simp only [h, bind, Option.bind_some]
    rw [this]
    exact ⟨_, rfl⟩

theorem content_close {n : Identifier} {e : Event} {s s' : Node} {env env' : Env}
    (h : nextSkipNoop env s = some (.ev e, s', env')) (hn : e.isClosingTagFor n = true) :
    next (.peek s none :: env) (.curContent n 0) =
      some (.done, .dead, .peek s' (some e) :: env') := by
  rw [next]
  simp only [if_true, h, bind, Option.bind_some, hn, decide_true, Bool.and_self]

/-- The contents, unchanged, of an element that is open. -/
theorem run_content {n : Identifier} {o : Out} : ∀ {d : Nat} {s : Node} {env : Env},
    Run (fun _ => True) env s o →
    Run (fun _ => True) env (.contContent (.peek s none) (.curContent n d) n) (o.inside n d) := by
  induction o with
  | done =>
    intro d s env h
    obtain ⟨s', env', h1, -⟩ := h.skip_done
    obtain ⟨c, h2⟩ := content_done (n := n) (d := d) h1
    have : Out.inside n d .done = .err (.missingClose n) := by cases d <;> rfl
    rw [this]
    refine .err (n' := .dead) (env' := env') ?_
    rw [next, h2]
    rfl
  | err x =>
    intro d s env h
    obtain ⟨s', env', h1⟩ := h.skip_err
    obtain ⟨c, h2⟩ := content_err (n := n) (d := d) h1
    have : Out.inside n d (.err x) = .err x := by cases d <;> rfl
    rw [this]
    refine .err (n' := .dead) (env' := env') ?_
    rw [next, h2]
    rfl
  | ev e o ih =>
    intro d s env h
    obtain ⟨s', env', h1, he, h3⟩ := h.skip_ev
    by_cases hcl : d = 0 ∧ e.isClosingTagFor n = true
    · obtain ⟨rfl, hcl⟩ := hcl
      have h2 := content_close h1 hcl
      cases e with
      | closingTag c =>
        have hc : c.eq n = true := hcl
        have : Out.inside n 0 (.ev (.closingTag c) o) = .ev (.closingTag c) .done := by
          rw [Out.inside, if_pos hc]
        rw [this]
        refine .noop (n' := .contClose (.peek s' (some (.closingTag c))) n) (env' := env') ?_
          (.ev (n' := .dead) (env' := env') ?_ nofun (.dead trivial))
        · rw [next, h2]
          rfl
        · have h4 : next env' (.peek s' (some (.closingTag c))) =
              some (.ev (.closingTag c), .peek s' none, env') := by rw [next]
          rw [next, nextSkipNoop_of h4 nofun]
          simp only [bind, Option.bind_some, hc, if_true]
      | _ => cases hcl
    · have h2 := content_filled h1 hcl
      have step : ∀ d', levelAdjust d e = .ok d' →
          Run (fun _ => True) env (.contContent (.peek s none) (.curContent n d) n)
            (.ev e (o.inside n d')) := by
        intro d' hl
        refine .ev (n' := .contContent (.peek s' none) (.curContent n d') n) (env' := env') ?_ he (ih h3)
        rw [next, h2, hl]
        rfl
      cases hc : e.closingTagName with
      | some c =>
        cases e with
        | closingTag c =>
          cases d with
          | zero =>
            have hf : ¬ c.eq n = true := fun h => hcl ⟨rfl, h⟩
            rw [Out.inside, if_neg hf]
            refine .err (n' := .dead) (env' := env') ?_
            rw [next, h2]
            rfl
          | succ d => exact step d rfl
        | _ => cases hc
      | none =>
        cases ho : e.openingTagName with
        | some t =>
          cases e with
          | openingTag t as =>
            have : Out.inside n d (.ev (.openingTag t as) o) =
                .ev (.openingTag t as) (o.inside n (d + 1)) := by cases d <;> rfl
            rw [this]
            exact step (d + 1) rfl
          | _ => cases ho
        | none =>
          rw [inside_ev hc ho]
          exact step d (by rw [levelAdjust, ho, hc])

/-- The contents, unchanged. -/
theorem run_contents_src {n : Identifier} {as : List Attribute} {o : Out} {s : Node} {env : Env}
    (h : Run (fun _ => True) env s (.ev (.openingTag n as) o)) :
    Run (fun _ => True) env ((Prog.contents .src (.src : Prog .gen .gen) : Prog .elem .elem).build s)
      (.ev (.openingTag n as) (o.inside n 0)) := by
  obtain ⟨s', env', h1, -, h3⟩ := h.skip_ev
  refine .ev (n' := .contContent (.peek (.expandEmit s') none) (.curContent n 0) n) (env' := env') ?_
    nofun (run_content (forwards_expandEmit.run h3))
  have h2 : next env (.expandStart s) = some (.ev (.openingTag n as), .expandEmit s', env') := by
    rw [next, h1]
    rfl
  change next env (.contOpen (.expandStart s) .gen .src) = _
  rw [next, nextSkipNoop_of h2 nofun]
  rfl

/-- The events and the reported error of the inside of an element. -/
theorem inside_result {n : Identifier} (hn : Ascii n.str) : ∀ (es : List Event) (d : Nat),
    ((Out.ofResults (es.map .ok)).inside n d).result =
      match ending n d es with
      | .closed inner c => .ok (inner ++ [.closingTag c])
      | .stray _ => .error (.missingClose n)
      | .unended => .error (.missingClose n) := by
  intro es
  induction es with
  | nil => intro d; cases d <;> rfl
  | cons e es ih =>
    intro d
    have step : ∀ e d, (Out.ev e ((Out.ofResults (es.map .ok)).inside n d)).result =
      match (ending n d es).after e with
      | .closed inner c => .ok (inner ++ [.closingTag c])
      | .stray _ => .error (.missingClose n)
      | .unended => .error (.missingClose n) := by
      intro e d
      rw [Out.result, ih d]
      cases ending n d es <;> rfl
    cases e with
    | noop =>
      have : ending n d (.noop :: es) = ending n d es := by cases d <;> rfl
      rw [this, ← ih d]
      rfl
    | closingTag c =>
      cases d with
      | succ d => exact step _ d
      | zero =>
        rw [ending]
        change (Out.inside n 0 (.ev (.closingTag c) _)).result = _
        rw [Out.inside]
        by_cases h : SameName c.str n.str
        · rw [if_pos h, if_pos (show c.eq n = true from (identifierEq_right hn).2 h)]
          rfl
        · rw [if_neg h, if_neg (show ¬ c.eq n = true from fun h' => h ((identifierEq_right hn).1 h'))]
          rfl
    | openingTag t as =>
      have : ending n d (.openingTag t as :: es) = (ending n (d + 1) es).after (.openingTag t as) := by
        cases d <;> rfl
      rw [this]
      change (Out.inside n d (.ev (.openingTag t as) _)).result = _
      have : ∀ o, Out.inside n d (.ev (.openingTag t as) o) =
          .ev (.openingTag t as) (o.inside n (d + 1)) := by cases d <;> exact fun _ => rfl
      rw [this]
      exact step _ _
    | _ =>
      have : ∀ e, e.closingTagName = none → e.openingTagName = none → e ≠ .noop →
          ((Out.ofResults ((e :: es).map .ok)).inside n d).result =
            match ending n d (e :: es) with
            | .closed inner c => .ok (inner ++ [.closingTag c])
            | .stray _ => .error (.missingClose n)
            | .unended => .error (.missingClose n) := by
        intro e h1 h2 h3
        have h : ((Out.ofResults ((e :: es).map .ok)).inside n d).result =
            (Out.ev e ((Out.ofResults (es.map .ok)).inside n d)).result ∧
          ending n d (e :: es) = (ending n d es).after e := by
          cases e <;>
            first
              | exact absurd rfl h3
              | (cases h1; done)
              | (cases h2; done)
              | (cases d <;> exact ⟨rfl, rfl⟩)
        rw [h.1, h.2]
        exact step _ _
      refine this _ ?_ ?_ ?_
      · rfl
      · rfl
      · exact nofun

theorem run_contents_ending {n : Identifier} (hn : Ascii n.str) (as : List Attribute)
    (es : List Event) :
    run (.contents .src (.src : Prog .gen .gen) : Prog .elem .elem) (.openingTag n as :: es) =
      some (reported n as (ending n 0 es)) := by
  have h := run_tmpl (Post := fun _ => True) (env := []) trivial (.openingTag n as :: es)
  have h' := run_of_run (p := (.contents .src (.src : Prog .gen .gen) : Prog .elem .elem))
    (run_contents_src h)
  rw [h', Out.result, inside_result hn]
  cases ending n 0 es <;> rfl

end Fuser
