import Verif.Proof.Refine

/-!
# The stream machine computes the tree rewriting: contents, attributes, repetition
-/

namespace Fuser

open Spec

/-! ## Opening self-closed elements -/

/-- A stream of an element as given by `Expand`. -/
def expanded : Forest → Forest
  | .leaf (.selfClosedTag t as) .nil => .elem t as .nil t .nil
  | f => f

theorem flat_ne_done {f : Forest} {e : Event} {o : Out} : f.flat (.ev e o) ≠ .done := by
  cases f <;> simp [Forest.flat]

theorem del_expand {Post : Env → Prop} {env : Env} {n : Node} {f : Forest} (hs : Single f)
    (hf : f.WF) (h : Del Post env n (f.flat .done)) :
    Del Post env (.expandStart n) ((expanded f).flat .done) := by
  cases hs with
  | @leaf e he =>
    obtain ⟨n', env', h1, h2, h3, h4⟩ := Del.skip_last h
    cases e with
    | selfClosedTag t as =>
      refine Del.ev (e := .openingTag t as) (n' := .expandClose t) (env' := env')
        (by rw [next, h1]; rfl) (by simp) ?_
      exact Del.last (n' := .dead) (env' := env') (by rw [next]) (by simp) h3 (Run.dead h3)
    | voidTag t as =>
      exact Del.last (n' := .dead) (env' := env') (by rw [next, h1]; rfl) (by simp) h3 (Run.dead h3)
    | openingTag t as => exact hf.1.elim
    | _ => cases he
  | elem =>
    obtain ⟨n', env', h1, h2, h3⟩ := Del.skip_more h flat_ne_done
    exact Del.ev (by rw [next, h1]; rfl) h2 (forwards_expandEmit.del h3)
  | fail =>
    obtain ⟨n', env', h1⟩ := (Del.run h).skip_err
    exact Del.err (by rw [next, h1]; rfl)

/-! ## The contents of an element -/

theorem next_peek {env : Env} {s : Node} {e : Event} :
    next env (.peek s (some e)) = some (.ev e, .peek s none, env) := by
  rw [next]

/-- Before the end of the contents, an event is forwarded. -/
theorem cur_ev {env : Env} {s s' : Node} {e : Event} {env' : Env} {tag : Identifier}
    {level level' : Nat} (h : nextSkipNoop env s = some (.ev e, s', env'))
    (hc : level = 0 → e.isClosingTagFor tag = false)
    (hl : levelAdjust level e = .ok level') :
    next (.peek s none :: env) (.curContent tag level) =
      some (.ev e, .curContent tag level', .peek s' none :: env') := by
  rw [next]
  by_cases h0 : level = 0
  · subst h0
    simp only [bind, Option.bind, if_true, h, hc rfl, next_peek, decide_true, Bool.and_false, hl]
    rfl
  · have hp : next env (.peek s none) = some (.ev e, .peek s' none, env') := by
      rw [next, h]
      rfl
    simp only [bind, Option.bind, h0, if_false, decide_false, Bool.false_and, hp, hl]
    rfl

theorem cur_err {env : Env} {s s' : Node} {e : StreamError} {env' : Env} {tag : Identifier}
    {level : Nat} (h : nextSkipNoop env s = some (.err e, s', env')) :
    ∃ env'', next (.peek s none :: env) (.curContent tag level) = some (.err e, .dead, env'') := by
  rw [next]
  by_cases h0 : level = 0
  · subst h0
    simp only [bind, Option.bind, if_true, h]
    exact ⟨_, rfl⟩
  · have hp : next env (.peek s none) = some (.err e, .peek s' none, env') := by
      rw [next, h]
      rfl
    simp only [bind, Option.bind, h0, if_false, decide_false, Bool.false_and, hp]
    exact ⟨_, rfl⟩

theorem cur_done {env : Env} {s s' : Node} {c : Identifier} {env' : Env} {tag : Identifier}
    (h : nextSkipNoop env s = some (.ev (.closingTag c), s', env')) (hc : c.eq tag = true) :
    next (.peek s none :: env) (.curContent tag 0) =
      some (.done, .dead, .peek s' (some (.closingTag c)) :: env') := by
  rw [next]
  simp [bind, Option.bind, h, Event.isClosingTagFor, hc]

theorem cur_forest {Post P : Env → Prop} {tag : Identifier} (f : Forest) (hf : f.WF)
    {level : Nat} {e : Event} {o o' : Out} {env : Env} {s : Node}
    (h : Del Post env s (f.flat (.ev e o)))
    (hk : ∀ env' s', Del Post env' s' (.ev e o) →
      Run P (.peek s' none :: env') (.curContent tag level) o') :
    Run P (.peek s none :: env) (.curContent tag level) (f.flat o') := by
  induction f generalizing level e o o' env s with
  | nil => exact hk _ _ h
  | fail err =>
    obtain ⟨n', env', h1⟩ := (Del.run h).skip_err
    obtain ⟨env'', h2⟩ := cur_err (tag := tag) (level := level) h1
    exact .err h2
  | leaf e' rest ih =>
    obtain ⟨n', env', h1, h2, h3⟩ := Del.skip_more h flat_ne_done
    refine .ev (cur_ev h1 ?_ (levelAdjust_leaf hf.1)) h2 (ih hf.2.2.2 h3 hk)
    intro _
    have := hf.1
    cases e' <;> first | rfl | exact this.elim
  | elem t as children close rest ih1 ih2 =>
    obtain ⟨n', env', h1, h2, h3⟩ := Del.skip_more h flat_ne_done
    refine .ev (cur_ev h1 (fun _ => rfl) (level' := level + 1) rfl) h2 ?_
    refine ih1 hf.2.2.1 h3 fun env'' s'' hd => ?_
    obtain ⟨n3, env3, h4, h5, h6⟩ := Del.skip_more hd flat_ne_done
    exact .ev (cur_ev h4 (fun h => by omega) (levelAdjust_closing level close)) h5
      (ih2 hf.2.2.2 h6 hk)

theorem cur_content {Post : Env → Prop} {tag close : Identifier} {f : Forest} (hf : f.WF)
    (hc : SameName close.str tag.str) (ht : Ascii tag.str) {env : Env} {s : Node}
    (h : Del Post env s (f.flat (.ev (.closingTag close) .done))) :
    Run (fun cells => ∃ s' env', cells = .peek s' (some (.closingTag close)) :: env' ∧ Post env')
      (.peek s none :: env) (.curContent tag 0) (f.flat .done) := by
  refine cur_forest f hf h fun env' s' hd => ?_
  obtain ⟨n', env'', h1, -, h2, -⟩ := Del.skip_last hd
  exact .done (cur_done h1 ((identifierEq_right ht).2 hc)) ⟨_, _, rfl, h2⟩

/-- What builders do on streams that are not known to be elements. -/
def BuildsGen (build : Node → Node) (mean : Forest → Forest) : Prop :=
  ∀ (P : Env → Prop) (env : Env) (n : Node) (f : Forest), f.WF →
    Run P env n (f.flat .done) → Run P env (build n) ((mean f).flat .done)

theorem del_contents {Post : Env → Prop} {k : Kind} {b : Prog .gen k} {mean : Forest → Forest}
    (hb : BuildsGen b.build mean) {env : Env} {n : Node} {f : Forest} (hs : Single f) (hf : f.WF)
    (h : Del Post env n (f.flat .done)) :
    Del Post env (.contOpen (.expandStart n) k b) ((onChildren mean f).flat .done) := by
  have key : ∀ t as children close, SameName close.str t.str → Ascii t.str → children.WF →
      Del Post env (.expandStart n) ((Forest.elem t as children close .nil).flat .done) →
      Del Post env (.contOpen (.expandStart n) k b)
        ((Forest.elem t as (mean children) close .nil).flat .done) := by
    intro t as children close h1 h2 h3 hd
    obtain ⟨n', env', h4, h5, h6⟩ := Del.skip_more hd flat_ne_done
    refine Del.ev (by rw [next, h4]; rfl) h5 ?_
    have hr := hb _ _ _ _ h3 (cur_content h3 h1 h2 h6)
    simp only [Forest.flat]
    rw [← flat_done_then]
    refine (hosts_contContent t).run (k := .elem) ?_ hr rfl
    rintro cells ⟨s', env'', rfl, hP⟩
    refine ⟨_, _, rfl, ?_⟩
    refine Del.last (n' := .dead) (env' := env'') ?_ (by simp) hP (Run.dead hP)
    rw [next, nextSkipNoop_of next_peek (by simp)]
    have : close.eq t = true := (identifierEq_right h2).2 h1
    simp [bind, Option.bind, this]
  have hd := del_expand hs hf h
  cases hs with
  | @leaf e he =>
    cases e with
    | selfClosedTag t as => exact key t as .nil t (.refl _) (hf.2.2.1 t rfl) trivial hd
    | voidTag t as =>
      obtain ⟨n', env', h1, h2, h3, h4⟩ := Del.skip_last hd
      exact Del.last (n' := .dead) (env' := env') (by rw [next, h1]; rfl) (by simp) h3 (Run.dead h3)
    | openingTag t as => exact hf.1.elim
    | _ => cases he
  | @elem t as children close => exact key t as children close hf.1 hf.2.1 hf.2.2.1 hd
  | fail =>
    obtain ⟨n', env', h1⟩ := (Del.run hd).skip_err
    exact Del.err (by rw [next, h1]; rfl)

/-! ## Attributes -/

theorem del_attr {Post : Env → Prop} {op : AttrOp} {env : Env} {n : Node} {f : Forest}
    (hs : Single f) (hf : f.WF) (h : Del Post env n (f.flat .done)) :
    Del Post env (.attrStart op n) ((onAttributes op.apply f).flat .done) := by
  cases hs with
  | @leaf e he =>
    obtain ⟨n', env', h1, h2, h3, h4⟩ := Del.skip_last h
    cases e with
    | selfClosedTag t as =>
      exact Del.last (n' := .dead) (env' := env') (by rw [next, h1]; rfl) (by simp) h3 (Run.dead h3)
    | voidTag t as =>
      exact Del.last (n' := .dead) (env' := env') (by rw [next, h1]; rfl) (by simp) h3 (Run.dead h3)
    | openingTag t as => exact hf.1.elim
    | _ => cases he
  | elem =>
    obtain ⟨n', env', h1, h2, h3⟩ := Del.skip_more h flat_ne_done
    exact Del.ev (by rw [next, h1]; rfl) (by simp) (forwards_attrEmit.del h3)
  | fail =>
    obtain ⟨n', env', h1⟩ := (Del.run h).skip_err
    exact Del.err (by rw [next, h1]; rfl)

/-! ## Repetition -/

theorem run_repEmit {P Post : Env → Prop} {es : List Event} {i n : Nat} {k k' : Kind}
    {b : Nat → Prog k k'} {o o' : Out}
    (hk : ∀ env, P env → Run Post env (.repNext es i n k k' b) o')
    {env : Env} {stream : Node} (h : Run P env stream o) :
    Run Post env (.repEmit es i n k k' b stream) (o.append o') := by
  induction h with
  | noop h _ ih => exact .noop (by rw [next, h]; rfl) ih
  | ev h he _ ih => exact .ev (by rw [next, h]; rfl) he ih
  | done h hP => exact .noop (by rw [next, h]; rfl) (hk _ hP)
  | err h => exact .err (by rw [next, h]; rfl)

theorem run_repNext {Post : Env → Prop} {es : List Event} {k k' : Kind} {b : Nat → Prog k k'}
    {out : Nat → Forest}
    (hb : ∀ i env, Post env → Run Post env ((b i).build (.tmpl es 0)) ((out i).flat .done))
    (m : Nat) {i n : Nat} (hi : i + m = n) {env : Env} (hP : Post env) :
    Run Post env (.repNext es i n k k' b) ((copies out i m).flat .done) := by
  induction m generalizing i env with
  | zero =>
    refine .done (n' := .dead) (env' := env) ?_ hP
    rw [next, if_neg (by omega)]
  | succ m ih =>
    have hn : next env (.repNext es i n k k' b) =
        some (.ev .noop, .repEmit es (i + 1) n k k' b ((b i).build (.tmpl es 0)), env) := by
      rw [next, if_pos (by omega)]
    refine .noop hn ?_
    rw [copies, flat_append, ← flat_done_then]
    exact run_repEmit (fun env hP => ih (by omega) hP) (hb i env hP)

/-- The stored copies of a stream. -/
theorem rel_copy {k : Kind} {P : Env → Prop} {env : Env} (hP : P env) {f : Forest} {es : List Event}
    (hs : Shape k f) (hf : f.WF) (he : f.events = .ok es) :
    Rel k P env (.tmpl es 0) (f.flat .done) := by
  cases k with
  | gen =>
    rw [flat_ok_done hf he]
    exact run_tmpl hP es
  | elem =>
    rw [flat_ok_done hf he]
    have hn := wf_noop hf he
    cases es with
    | nil =>
      cases hs with
      | leaf => rw [events_leaf] at he; cases he
      | @elem t as children close =>
        rw [events_elem] at he
        cases hc : children.events with
        | ok es => rw [hc] at he; cases he
        | error e => rw [hc] at he; cases he
      | fail => cases he
    | cons e es => exact del_tmpl_drop hP _ e es 0 rfl hn

/-! ## The refinement -/

theorem content_run {Post : Env → Prop} {env : Env} (h : Post env) (c : Content) :
    Run Post env c.intoStream (Out.ofResults (results c)) := by
  induction c with
  | data d =>
    exact .ev (by rw [Content.intoStream, next]) (by simp) (.done (by rw [next]) h)
  | template t => exact run_tmpl h t.events
  | script rs => exact run_script h rs
  | resultOk c ih => exact rel_fallStart (k := .gen) ih
  | resultErr e => exact rel_fallError (k := .gen)

theorem removed_flat (f : Forest) : (f.flat .done).removed = (removed f).flat .done := by
  rw [Out.removed, result_flat_done, removed]
  cases f.events <;> rfl

theorem refine_build {a k : Kind} (p : Prog a k) (hp : WellNested p) (Post : Env → Prop)
    (env : Env) (n : Node) (f : Forest) (hs : Shape a f) (hf : f.WF)
    (h : Rel a Post env n (f.flat .done)) :
    Rel k Post env (p.build n) ((meaning p f).flat .done) := by
  induction p generalizing Post env n f with
  | src => exact h
  | forget p ih => exact (ih hp Post env n f hs hf h).run
  | apply p q ih1 ih2 =>
    obtain ⟨h1, h2⟩ := meaning_ok p hp.1 f hs hf
    exact ih2 hp.2 _ _ _ _ h1 h2 (ih1 hp.1 _ _ _ _ hs hf h)
  | fallOk p ih => exact rel_fallStart (ih hp _ _ _ _ hs hf h)
  | fallErr e => exact rel_fallError
  | @selectRaw _ k k' p s direct b ih ihb =>
    obtain ⟨h1, h2⟩ := meaning_ok p hp.1 f hs hf
    refine scan_forest (fun i P env n g hg hw hd => ?_) _ h2 (ih hp.1 _ _ _ _ hs hf h).run
      fun env' src' hr => scan_done hr
    exact (ihb i (hp.2 i) P env n g hg hw hd).run
  | selectOnceRaw p s direct b ih ihb =>
    obtain ⟨h1, h2⟩ := meaning_ok p hp.1 f hs hf
    refine once_forest (fun P env n g hg hw hd => ?_) _ h2 (ih hp.1 _ _ _ _ hs hf h).run
      (fun _ => rfl) fun _ env' src' hr => once_done hr
    exact (ihb hp.2 P env n g hg hw hd).run
  | remove p ih =>
    have := run_remove (ih hp _ _ _ _ hs hf h).run
    rw [removed_flat] at this
    exact this
  | prepend p c ih =>
    simp only [meaning, Prog.build]
    have hr := (ih hp.1 _ _ _ _ hs hf h).run
    rw [flat_append, ← flat_done_then, (tree_spec hp.2.1 hp.2.2).2]
    exact run_combFirst (P := fun e => e = env) (content_run (Post := fun e => e = env) rfl c) fun env' he => he ▸ hr
  | append p c ih =>
    simp only [meaning, Prog.build]
    have hr := (ih hp.1 _ _ _ _ hs hf h).run
    rw [flat_append, ← flat_done_then, (tree_spec hp.2.1 hp.2.2).2]
    exact run_combFirst hr fun env' hP => content_run hP c
  | @«repeat» _ k k' p m b ih ihb =>
    obtain ⟨h1, h2⟩ := meaning_ok p hp.1 f hs hf
    have hr := (ih hp.1 _ _ _ _ hs hf h).run
    obtain ⟨env', hc, hP⟩ := hr.collect
    rw [result_flat_done] at hc hP
    simp only [meaning, Prog.build, repeated]
    cases he : (meaning p f).events with
    | error e =>
      rw [he] at hc
      exact Run.err (by rw [next, hc]; rfl)
    | ok es =>
      rw [he] at hc hP
      refine Run.noop (by rw [next, hc]; rfl) ?_
      refine run_repNext (fun i env'' hP => ?_) m (by omega) (hP ⟨es, rfl⟩)
      exact (ihb i (hp.2 i) _ _ _ _ h1 h2 (rel_copy hP h1 h2 he)).run
  | orElse p m r q ih ihr ihq =>
    obtain ⟨h1, h2⟩ := meaning_ok p hp.1 f hs hf
    have hr := ih hp.1 _ _ _ _ hs hf h
    simp only [meaning, Prog.build]
    by_cases hm : 0 < m
    · rw [if_pos hm]
      exact Run.noop (by rw [next, if_pos hm])
        (forwards_orElseRun.run (ihr hp.2.1 _ _ _ _ h1 h2 hr).run)
    · rw [if_neg hm]
      exact Run.noop (by rw [next, if_neg hm])
        (forwards_orElseRun.run (ihq hp.2.2 _ _ _ _ h1 h2 hr).run)
  | applyTemplate p g ih =>
    obtain ⟨h1, h2⟩ := meaning_ok p hp.1 f hs hf
    have hr := (ih hp.1 _ _ _ _ hs hf h).run
    obtain ⟨env', hc, hP⟩ := hr.collect
    rw [result_flat_done] at hc hP
    simp only [meaning, Prog.build, applied]
    cases he : (meaning p f).events with
    | error e =>
      rw [he] at hc
      exact Run.err (by rw [next, hc]; rfl)
    | ok es =>
      rw [he] at hc hP
      simp only
      cases hg : g ⟨es⟩ with
      | error e => exact Run.err (by rw [next, hc]; simp only [bind, Option.bind, hg]; rfl)
      | ok t =>
        refine Run.noop (n' := .applyEmit t.toStream) (env' := env')
          (by rw [next, hc]; simp only [bind, Option.bind, hg]) ?_
        rw [(treeOf_spec (hp.2 _ _ (wf_page h2 he) hg)).2]
        exact forwards_applyEmit.run (run_tmpl (hP ⟨es, rfl⟩) t.events)
  | contents p b ih ihb =>
    obtain ⟨h1, h2⟩ := meaning_ok p hp.1 f hs hf
    exact del_contents (fun P env n g hg hr => (ihb hp.2 P env n g trivial hg hr).run) h1 h2
      (ih hp.1 _ _ _ _ hs hf h)
  | attr p op ih =>
    obtain ⟨h1, h2⟩ := meaning_ok p hp f hs hf
    exact del_attr h1 h2 (ih hp _ _ _ _ hs hf h)

/-- Transforms compute the tree rewriting. -/
theorem transform_eq {k : Kind} (p : Prog .gen k) (hp : WellNested p) (t : Template)
    (ht : Page t.events) :
    t.transform p = some ((meaning p (treeOf t.events)).events.map Template.mk) := by
  obtain ⟨h1, h2⟩ := treeOf_spec ht
  have hr := (refine_build p hp (fun _ => True) [] t.toStream _ trivial h1
    (by rw [h2]; exact run_tmpl trivial t.events)).run
  obtain ⟨env', hc, -⟩ := hr.collect
  rw [result_flat_done] at hc
  unfold Template.transform
  rw [hc]
  cases (meaning p (treeOf t.events)).events <;> rfl

end Fuser
