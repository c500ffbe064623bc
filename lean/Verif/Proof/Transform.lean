import Verif.Spec.Rewrite
import Verif.Proof.Halt
import Verif.Proof.Canonical

/-!
# Lemmas for the transform properties
-/

namespace Fuser

open Spec

theorem andThen_eq (a b : Outcome) : andThen a b = joinResult a b := by
  cases a <;> cases b <;> rfl

theorem andThen_assoc (a b c : Outcome) : andThen (andThen a b) c = andThen a (andThen b c) := by
  simp only [andThen_eq, joinResult_assoc]

theorem andThen_nil (a : Outcome) : andThen a (.ok []) = a := by
  cases a <;> simp [andThen_eq, joinResult]

theorem nil_andThen (a : Outcome) : andThen (.ok []) a = a := by
  cases a <;> simp [andThen_eq, joinResult]

theorem andThen_ok (a b : List Event) : andThen (.ok a) (.ok b) = .ok (a ++ b) := rfl

/-! ## Runs -/

theorem run_of_run {a k : Kind} {p : Prog a k} {es : List Event} {P : Env → Prop} {o : Out}
    (h : Run P [] (p.build (.tmpl es 0)) o) : run p es = some o.result := by
  obtain ⟨env', hc, -⟩ := h.collect
  rw [run, hc]
  rfl

theorem run_total {a k : Kind} (p : Prog a k) (es : List Event) :
    ∃ o, Run (fun env => env = []) [] (p.build (.tmpl es 0)) o ∧ run p es = some o.result := by
  obtain ⟨o, h⟩ := run_exists p es
  exact ⟨o, h, run_of_run h⟩

theorem transform_run {k : Kind} (p : Prog .gen k) (t : Template) :
    t.transform p = (run p t.events).map (·.map Template.mk) := by
  rw [Template.transform, run, Template.toStream]
  cases collect [] (p.build (.tmpl t.events 0)) with
  | none => rfl
  | some x =>
    obtain ⟨r, env⟩ := x
    cases r <;> rfl

theorem result_append (a b : Out) : (a.append b).result = andThen a.result b.result := by
  rw [andThen_eq]
  induction a with
  | done => simp only [Out.append, Out.result]; cases b.result <;> rfl
  | err e => rfl
  | ev e o ih => rw [Out.append, result_ev, ih, result_ev, joinResult_assoc]

theorem result_outcome (rs : List (Except StreamError Event)) :
    (Out.ofResults rs).result = outcome rs := by
  induction rs with
  | nil => rfl
  | cons r rs ih =>
    cases r with
    | error e => rfl
    | ok e =>
      by_cases he : e = .noop
      · subst he
        rw [outcome, if_pos rfl, nil_andThen]
        exact ih
      · rw [Out.ofResults_cons he, result_ev, ih, outcome, if_neg he, andThen_eq]

/-! ## Forests of event lists -/

theorem append_assoc (f g h : Forest) : (f.append g).append h = f.append (g.append h) := by
  induction f with
  | nil => rfl
  | leaf e rest ih => simp only [Forest.append, ih]
  | elem t as children close rest _ ih => simp only [Forest.append, ih]
  | fail e => rfl

theorem grow_nests {n : Nat} {es : List Event} (h : Nests n es)
    (rs : List (Except StreamError Event)) :
    grow (es.map .ok ++ rs) = ((treeOf es).append (grow rs).1, (grow rs).2) := by
  induction h generalizing rs with
  | nil => rfl
  | @leaf n e es he _ ih =>
    have h1 := ih rs
    have h2 : treeOf (e :: es) = if e = .noop then treeOf es else .leaf e (treeOf es) := by
      unfold treeOf tree
      rw [List.map_cons]
      rcases hg : grow (es.map .ok) with ⟨f, st⟩
      cases e <;> first | (simp only [grow, hg]; rfl) | exact he.elim
    rw [h2, List.map_cons, List.cons_append]
    cases e <;> first | (simp only [grow, h1]; rfl) | exact he.elim
  | @element n t as c inner es hc _ _ ih1 ih2 =>
    have h1 : ∀ rs, grow ((Event.openingTag t as :: (inner ++ .closingTag c :: es)).map .ok ++ rs) =
        (.elem t as (treeOf inner) c ((treeOf es).append (grow rs).1), (grow rs).2) := by
      intro rs
      have : ((Event.openingTag t as :: (inner ++ .closingTag c :: es)).map Except.ok ++ rs :
          List (Except StreamError Event)) =
        .ok (.openingTag t as) :: (inner.map .ok ++ (.ok (.closingTag c) :: (es.map .ok ++ rs))) := by
        simp
      rw [this]
      have h2 : grow (.ok (.closingTag c) :: (es.map .ok ++ rs)) =
          (.nil, (c, (treeOf es).append (grow rs).1) :: (grow rs).2) := by
        simp only [grow, ih2 rs]
      have h3 := ih1 (.ok (.closingTag c) :: (es.map .ok ++ rs))
      rw [h2, append_nil] at h3
      simp only [grow, h3]
    have h4 : treeOf (.openingTag t as :: (inner ++ .closingTag c :: es)) =
        .elem t as (treeOf inner) c (treeOf es) := by
      have := h1 []
      rw [List.append_nil] at this
      unfold treeOf tree
      rw [this]
      simp only [grow]
      rw [append_nil]
      rfl
    rw [h1 rs, h4]
    rfl

theorem treeOf_append {a b : List Event} (h : Balanced a) :
    treeOf (a ++ b) = (treeOf a).append (treeOf b) := by
  obtain ⟨n, h⟩ := h
  have := grow_nests h (b.map .ok)
  unfold treeOf tree
  rw [List.map_append, this]
  rfl

theorem treeOf_pair {t as c} {inner : List Event} (hc : SameName c.str t.str)
    (h : Balanced inner) :
    treeOf (.openingTag t as :: (inner ++ [.closingTag c])) = .elem t as (treeOf inner) c .nil := by
  obtain ⟨n, h⟩ := h
  have h2 := grow_nests h (.ok (.closingTag c) :: [])
  have h1 : grow [.ok (.closingTag c)] = (.nil, [(c, .nil)]) := rfl
  rw [h1, append_nil] at h2
  unfold treeOf tree
  have : ((Event.openingTag t as :: (inner ++ [.closingTag c])).map Except.ok :
      List (Except StreamError Event)) =
      .ok (.openingTag t as) :: (inner.map .ok ++ [.ok (.closingTag c)]) := by simp
  rw [this]
  simp only [grow, h2]
  rfl

/-- A forest is determined by its events. -/
theorem treeOf_of_events {f : Forest} (hf : f.WF) {es : List Event} (h : f.events = .ok es) :
    treeOf es = f := by
  induction f generalizing es with
  | nil => cases h; rfl
  | leaf e rest ih =>
    rw [events_leaf] at h
    cases hr : rest.events with
    | error e'' => rw [hr] at h; cases h
    | ok es' =>
      rw [hr] at h; cases h
      have hb : Balanced [e] := ⟨0, .leaf hf.1 .nil⟩
      have : treeOf [e] = .leaf e .nil := by
        have h1 := hf.1
        have h2 := hf.2.1
        cases e <;> first | rfl | exact h1.elim | exact absurd rfl h2
      rw [treeOf_append hb, this, ih hf.2.2.2 hr]
      rfl
  | elem t as children close rest ih1 ih2 =>
    rw [events_elem] at h
    cases hc : children.events with
    | error e'' => rw [hc] at h; cases h
    | ok es =>
      rw [hc] at h
      cases hr : rest.events with
      | error e'' => rw [hr] at h; cases h
      | ok es' =>
        rw [hr] at h; cases h
        have hb := (wf_balanced hf.2.2.1 hc).1
        have he : [Event.openingTag t as] ++ (es ++ ([.closingTag close] ++ es')) =
            (.openingTag t as :: (es ++ [.closingTag close])) ++ es' := by simp
        have hbe : Balanced (.openingTag t as :: (es ++ [.closingTag close])) := by
          obtain ⟨n, hb⟩ := hb
          exact ⟨n + 1, .element hf.1 hb .nil⟩
        rw [he, treeOf_append hbe, treeOf_pair hf.1 hb, ih1 hf.2.2.1 hc, ih2 hf.2.2.2 hr]
        rfl
  | fail e => cases h

theorem element_balanced {m : List Event} (h : Element m) : Balanced m := by
  cases h with
  | selfClosed t as => exact ⟨0, .leaf trivial .nil⟩
  | void t as => exact ⟨0, .leaf trivial .nil⟩
  | pair hc hi =>
    obtain ⟨n, hi⟩ := hi
    exact ⟨n + 1, .element hc hi .nil⟩

theorem element_single {m : List Event} (h : Element m) : Single (treeOf m) := by
  cases h with
  | selfClosed t as => exact .leaf rfl
  | void t as => exact .leaf rfl
  | pair hc hi => rw [treeOf_pair hc hi]; exact .elem

theorem single_element {f : Forest} (hs : Single f) (hf : f.WF) {es : List Event}
    (h : f.events = .ok es) : Element es := by
  cases hs with
  | @leaf e he =>
    rw [events_leaf] at h
    cases h
    cases e with
    | selfClosedTag t as => exact .selfClosed t as
    | voidTag t as => exact .void t as
    | openingTag t as => exact hf.1.elim
    | _ => cases he
  | @elem t as children close =>
    rw [events_elem] at h
    cases hc : children.events with
    | error e => rw [hc] at h; cases h
    | ok es' =>
      rw [hc] at h
      cases h
      exact .pair hf.1 (wf_balanced hf.2.2.1 hc).1
  | fail => cases h

theorem fit_shape {a : Kind} {es : List Event} (h : Fit a es) : Shape a (treeOf es) := by
  cases a with
  | gen => trivial
  | elem => exact element_single h

/-- A chain of calls on a page computes its meaning. -/
theorem run_meaning {a k : Kind} (p : Prog a k) (hp : WellNested p) {es : List Event}
    (he : Page es) (hs : Fit a es) : run p es = some (meaning p (treeOf es)).events := by
  obtain ⟨h1, h2⟩ := treeOf_spec he
  have hr := refine_build p hp (fun _ => True) [] (.tmpl es 0) _ (fit_shape hs) h1
    (rel_copy trivial (fit_shape hs) h1 (treeOf_events he))
  rw [run_of_run hr.run, result_flat_done]

/-- The same for the forest of a page. -/
theorem run_forest {a k : Kind} (p : Prog a k) (hp : WellNested p) {f : Forest} (hs : Shape a f)
    (hf : f.WF) {es : List Event} (h : f.events = .ok es) :
    run p es = some (meaning p f).events := by
  have := run_meaning p hp (wf_page hf h) (a := a) (by
    cases a with
    | gen => trivial
    | elem => exact single_element hs hf h)
  rwa [treeOf_of_events hf h] at this

end Fuser
