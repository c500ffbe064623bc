import Verif.Proof.Rewrite

/-!
# Lemmas on single calls
-/

namespace Fuser

open Spec

/-! ## Outcomes -/

theorem Run.no_noop {P : Env → Prop} {env n o} (h : Run P env n o) {es : List Event}
    (hr : o.result = .ok es) : .noop ∉ es := by
  induction h generalizing es with
  | noop _ _ ih => exact ih hr
  | @ev _ _ _ _ e o _ he _ ih =>
    rw [result_ev] at hr
    cases ho : o.result with
    | error x => rw [ho] at hr; cases hr
    | ok es' =>
      rw [ho] at hr
      cases hr
      have := ih ho
      simp [this, Ne.symm he]
  | done => cases hr; simp
  | err => cases hr

theorem out_of_result {o : Out} {es : List Event} (h : o.result = .ok es) (hn : .noop ∉ es) :
    o = Out.ofResults (es.map .ok) := by
  induction o generalizing es with
  | done => cases h; rfl
  | err e => cases h
  | ev e o ih =>
    rw [result_ev] at h
    cases ho : o.result with
    | error x => rw [ho] at h; cases h
    | ok es' =>
      rw [ho] at h
      cases h
      simp only [List.cons_append, List.nil_append, List.mem_cons, not_or] at hn
      simp only [List.cons_append, List.nil_append, List.map_cons]
      rw [Out.ofResults_cons (Ne.symm hn.1), ih ho hn.2]

/-- A successful run, as a sequence of events. -/
theorem run_ok {a k : Kind} {p : Prog a k} {es m : List Event} (h : run p es = some (.ok m)) :
    .noop ∉ m ∧ Run (fun env => env = []) [] (p.build (.tmpl es 0)) (Out.ofResults (m.map .ok)) := by
  obtain ⟨o, hr, ho⟩ := run_total p es
  rw [h] at ho
  have ho : o.result = .ok m := by injection ho with ho; exact ho.symm
  have hn := hr.no_noop ho
  exact ⟨hn, out_of_result ho hn ▸ hr⟩

theorem outcome_ok (es : List Event) :
    outcome (es.map .ok) = .ok (es.filter (· ≠ .noop)) := by
  induction es with
  | nil => rfl
  | cons e es ih =>
    rw [List.map_cons, outcome, ih, andThen_ok]
    by_cases he : e = .noop <;> simp [he]

theorem outcome_ok' {es : List Event} (h : .noop ∉ es) : outcome (es.map .ok) = .ok es := by
  rw [outcome_ok]
  congr 1
  rw [List.filter_eq_self]
  intro e he
  simp only [ne_eq, decide_not, Bool.not_eq_eq_eq_not, Bool.not_true, decide_eq_false_iff_not]
  rintro rfl
  exact h he

theorem run_src {a : Kind} (es : List Event) :
    run (.src : Prog a a) es = some (.ok (es.filter (· ≠ .noop))) := by
  have : Run (fun env => env = []) [] ((.src : Prog a a).build (.tmpl es 0)) _ :=
    run_tmpl (Post := fun env => env = []) rfl es
  rw [run_of_run this, result_outcome, outcome_ok]

/-! ## Selecting without matches -/

theorem once_plain {s : Selector} {direct : Bool} {k : Kind} {b : Prog .elem k}
    {Post : Env → Prop} {n : Nat} {es : List Event} (h : Nests n es) (hn : .noop ∉ es)
    (hm : ∀ e ∈ es, s.matches e = false) {level : Nat} {env : Env} {src : Node} {o o' : Out}
    (hr : Run Post env src ((Out.ofResults (es.map .ok)).append o))
    (hk : ∀ env' src', Run Post env' src' o →
      Run Post env' (.onceScan src' s direct k b level) o') :
    Run Post env (.onceScan src s direct k b level)
      ((Out.ofResults (es.map .ok)).append o') := by
  induction h generalizing level env src o o' with
  | nil => exact hk _ _ hr
  | @leaf n e es he _ ih =>
    simp only [List.mem_cons, not_or] at hn
    have hne : e ≠ .noop := fun h => hn.1 h.symm
    simp only [List.mem_cons, forall_eq_or_imp] at hm
    rw [List.map_cons, Out.ofResults_cons hne] at hr ⊢
    exact once_pass hr (by simp [hm.1]) (levelAdjust_leaf he)
      fun env' src' hr => ih hn.2 hm.2 hr hk
  | @element n t as c inner es hc _ _ ih1 ih2 =>
    simp only [List.mem_cons, List.mem_append, not_or] at hn
    simp only [List.mem_cons, List.mem_append, or_imp, forall_and, forall_eq] at hm
    rw [ofResults_element] at hr ⊢
    refine once_pass hr (by simp [hm.1]) (level' := level + 1) rfl fun env' src' hr => ?_
    refine ih1 hn.2.1 hm.2.1 hr fun env' src' hr => ?_
    refine once_pass hr (by simp [hm.2.2.1]) (levelAdjust_closing level c) fun env' src' hr => ?_
    exact ih2 hn.2.2.2 hm.2.2.2 hr hk

theorem run_select_plain {a k k' : Kind} {p : Prog a k} {s : Selector} {direct : Bool}
    {b : Nat → Prog .elem k'} {es m : List Event} (h : run p es = some (.ok m)) (hb : Balanced m)
    (hm : ∀ e ∈ m, s.matches e = false) : run (.selectRaw p s direct b) es = some (.ok m) := by
  obtain ⟨hn, hr⟩ := run_ok h
  obtain ⟨n, hb⟩ := hb
  have := scan_plain (s := s) (direct := direct) (b := b) (level := 0) (count := 0) (o' := .done)
    hb hn hm (by rw [Out.append_done]; exact hr) fun env' src' hr => scan_done hr
  rw [Out.append_done] at this
  rw [run_of_run (p := .selectRaw p s direct b) this, result_outcome, outcome_ok' hn]

theorem run_once_plain {a k k' : Kind} {p : Prog a k} {s : Selector} {direct : Bool}
    {b : Prog .elem k'} {es m : List Event} (h : run p es = some (.ok m)) (hb : Balanced m)
    (hm : ∀ e ∈ m, s.matches e = false) :
    run (.selectOnceRaw p s direct b) es = some (.ok m) := by
  obtain ⟨hn, hr⟩ := run_ok h
  obtain ⟨n, hb⟩ := hb
  have := once_plain (s := s) (direct := direct) (b := b) (level := 0) (o' := .done)
    hb hn hm (by rw [Out.append_done]; exact hr) fun env' src' hr => once_done hr
  rw [Out.append_done] at this
  rw [run_of_run (p := .selectOnceRaw p s direct b) this, result_outcome, outcome_ok' hn]

/-! ## Calls on any stream -/

section calls

variable {a k : Kind} (p : Prog a k) (es : List Event)

theorem run_fallOk : run (.fallOk p) es = run p es := by
  obtain ⟨o, h, hr⟩ := run_total p es
  rw [hr, run_of_run (p := .fallOk p) (rel_fallStart (k := .gen) h)]

theorem run_fallErr (e : StreamError) : run (.fallErr e : Prog a k) es = some (.error e) := by
  rw [run_of_run (P := fun _ => True) (p := (.fallErr e : Prog a k)) (o := .err e)
    (rel_fallError (k := .gen))]
  rfl

theorem run_prepend (c : Content) :
    run (.prepend p c) es = (run p es).map (andThen (outcome (results c))) := by
  obtain ⟨o, h, hr⟩ := run_total p es
  have : Run (fun env => env = []) [] ((Prog.prepend p c).build (.tmpl es 0))
      ((Out.ofResults (results c)).append o) :=
    run_combFirst (content_run (Post := fun e => e = []) rfl c) (by rintro _ rfl; exact h)
  rw [run_of_run this, hr, result_append, result_outcome]
  rfl

theorem run_append (c : Content) :
    run (.append p c) es = (run p es).map fun r => andThen r (outcome (results c)) := by
  obtain ⟨o, h, hr⟩ := run_total p es
  have : Run (fun env => env = []) [] ((Prog.append p c).build (.tmpl es 0))
      (o.append (Out.ofResults (results c))) :=
    run_combFirst h (by rintro _ rfl; exact content_run (Post := fun e => e = []) rfl c)
  rw [run_of_run this, hr, result_append, result_outcome]
  rfl

theorem run_removed : run (.remove p) es = (run p es).map fun r => r.map fun _ => [] := by
  obtain ⟨o, h, hr⟩ := run_total p es
  have : Run (fun env => env = []) [] ((Prog.remove p).build (.tmpl es 0)) o.removed :=
    run_remove h
  rw [run_of_run this, hr, Out.removed]
  cases o.result <;> rfl

theorem run_replace (c : Content) : run (p.replace c) es =
    (run p es).map fun r => andThen (outcome (results c)) (r.map fun _ => []) := by
  rw [Prog.replace, run_prepend, run_removed]
  cases run p es <;> rfl

theorem run_repeatError {n : Nat} {k' : Kind} {b : Nat → Prog k k'} {e : StreamError}
    (h : run p es = some (.error e)) : run (.repeat p n b) es = some (.error e) := by
  obtain ⟨o, hr, ho⟩ := run_total p es
  obtain ⟨env', hc, -⟩ := hr.collect
  rw [h] at ho
  have ho : o.result = .error e := by injection ho with ho; exact ho.symm
  have : Run (fun _ => True) [] ((Prog.repeat p n b).build (.tmpl es 0)) (.err e) :=
    .err (by rw [Prog.build, next, hc, ho]; rfl)
  rw [run_of_run this]
  rfl

theorem run_repNext' {es : List Event} {k k' : Kind} {b : Nat → Prog k k'} {out : Nat → Out}
    (hb : ∀ i, Run (fun env => env = []) [] ((b i).build (.tmpl es 0)) (out i))
    (m : Nat) {i n : Nat} (hi : i + m = n) :
    Run (fun env => env = []) [] (.repNext es i n k k' b)
      ((List.range' i m).foldr (fun i o => (out i).append o) .done) := by
  induction m generalizing i with
  | zero => exact .done (n' := .dead) (env' := []) (by rw [next, if_neg (by omega)]) rfl
  | succ m ih =>
    rw [List.range'_succ, List.foldr_cons]
    refine .noop (by rw [next, if_pos (by omega)]) ?_
    exact run_repEmit (by rintro _ rfl; exact ih (by omega)) (hb i)

theorem run_repeat {n : Nat} {k' : Kind} {b : Nat → Prog k k'} {m : List Event}
    (h : run p es = some (.ok m)) {rs : Nat → Outcome} (hb : ∀ i < n, run (b i) m = some (rs i)) :
    run (.repeat p n b) es = some (inOrder ((List.range n).map rs)) := by
  obtain ⟨o, hr, ho⟩ := run_total p es
  obtain ⟨env', hc, hP⟩ := hr.collect
  rw [h] at ho
  have ho : o.result = .ok m := by injection ho with ho; exact ho.symm
  obtain rfl : env' = [] := hP ⟨m, ho⟩
  choose out hout hres using fun i => run_total (b i) m
  have : Run (fun env => env = []) [] ((Prog.repeat p n b).build (.tmpl es 0))
      ((List.range' 0 n).foldr (fun i o => (out i).append o) .done) :=
    .noop (by rw [Prog.build, next, hc, ho]; rfl) (run_repNext' hout n (by omega))
  rw [run_of_run this, List.range_eq_range']
  have hj : ∀ l : List Nat, (∀ i ∈ l, i < n) →
      (l.foldr (fun i o => (out i).append o) Out.done).result = inOrder (l.map rs) := by
    intro l hl
    induction l with
    | nil => rfl
    | cons i l ih =>
      rw [List.foldr_cons, result_append, ih fun j hj => hl j (by simp [hj])]
      have := hb i (hl i (by simp))
      rw [hres i] at this
      injection this with this
      rw [this]
      rfl
  rw [hj _ fun i hi => by simpa using hi]

theorem run_orElse {n : Nat} {k₁ k₂ : Kind} {r : Prog k k₁} {q : Prog k k₂} :
    run (.orElse p n r q) es =
      if 0 < n then run (.apply p r) es else run (.apply p q) es := by
  split
  · next hn =>
    obtain ⟨o, h, hr⟩ := run_total (.apply p r) es
    have : Run (fun env => env = []) [] ((Prog.orElse p n r q).build (.tmpl es 0)) o :=
      .noop (n' := .orElseRun _) (by
        change next [] (.orElseStart _ _ _) = _
        rw [next, if_pos hn]
        rfl) (forwards_orElseRun.run h)
    rw [run_of_run this, hr]
  · next hn =>
    obtain ⟨o, h, hr⟩ := run_total (.apply p q) es
    have : Run (fun env => env = []) [] ((Prog.orElse p n r q).build (.tmpl es 0)) o :=
      .noop (n' := .orElseRun _) (by
        change next [] (.orElseStart _ _ _) = _
        rw [next, if_neg hn]
        rfl) (forwards_orElseRun.run h)
    rw [run_of_run this, hr]

theorem run_applyTemplate (g : Template → Except StreamError Template) :
    run (.applyTemplate p g) es = (run p es).map fun r =>
      match r with
      | .error e => .error e
      | .ok m => (g ⟨m⟩).map fun t => t.events.filter (· ≠ .noop) := by
  obtain ⟨o, hr, ho⟩ := run_total p es
  obtain ⟨env', hc, hP⟩ := hr.collect
  rw [ho]
  simp only [Option.map_some]
  cases hres : o.result with
  | error e =>
    have : Run (fun _ => True) [] ((Prog.applyTemplate p g).build (.tmpl es 0)) (.err e) :=
      .err (by rw [Prog.build, next, hc, hres]; rfl)
    rw [run_of_run this]
    rfl
  | ok m =>
    cases hg : g ⟨m⟩ with
    | error e =>
      have : Run (fun _ => True) [] ((Prog.applyTemplate p g).build (.tmpl es 0)) (.err e) :=
        .err (by rw [Prog.build, next, hc, hres]; simp only [bind, Option.bind, hg]; rfl)
      rw [run_of_run this]
      simp only [hg]
      rfl
    | ok t =>
      have hn : next [] ((Prog.applyTemplate p g).build (.tmpl es 0)) =
          some (.ev .noop, .applyEmit t.toStream, env') := by
        rw [Prog.build, next, hc, hres]; simp only [bind, Option.bind, hg]
      have : Run (fun _ => True) [] ((Prog.applyTemplate p g).build (.tmpl es 0))
          (Out.ofResults (t.events.map .ok)) :=
        .noop hn (forwards_applyEmit.run (run_tmpl trivial t.events))
      rw [run_of_run this, result_outcome, outcome_ok]
      simp only [hg]
      rfl

end calls

/-! ## Chains -/

theorem run_apply {a k k' : Kind} (p : Prog a k) (q : Prog k k') (hp : WellNested p)
    (hq : WellNested q) {es m : List Event} (he : Page es) (hs : Fit a es)
    (h : run p es = some (.ok m)) : run (.apply p q) es = run q m ∧ Page m ∧ Fit k m := by
  have h1 := run_meaning p hp he hs
  rw [h] at h1
  have h1 : (meaning p (treeOf es)).events = .ok m := by injection h1 with h1; exact h1.symm
  obtain ⟨hw, -⟩ := treeOf_spec he
  obtain ⟨hsh, hf⟩ := meaning_ok p hp (treeOf es) (fit_shape hs) hw
  refine ⟨?_, wf_page hf h1, ?_⟩
  · rw [run_meaning (.apply p q) ⟨hp, hq⟩ he hs, run_forest q hq hsh hf h1]
    rfl
  · cases k with
    | gen => trivial
    | elem => exact single_element hsh hf h1

/-! ## Calls on elements -/

theorem page_inner {t as c} {inner : List Event} (hc : SameName c.str t.str) (hb : Balanced inner)
    (hp : Page (.openingTag t as :: (inner ++ [.closingTag c]))) : Page inner :=
  ⟨hb, fun e he => hp.2.1 e (by simp [he]), fun h => hp.2.2 (by simp [h])⟩

theorem run_contents_pair {k : Kind} {b : Prog .gen k} (hw : WellNested b) {t as c}
    {inner : List Event} (hc : SameName c.str t.str) (hb : Balanced inner)
    (hp : Page (.openingTag t as :: (inner ++ [.closingTag c]))) :
    run (.contents .src b) (.openingTag t as :: (inner ++ [.closingTag c])) =
      (run b inner).map fun r =>
        andThen (.ok [.openingTag t as]) (andThen r (.ok [.closingTag c])) := by
  rw [run_meaning (.contents .src b) ⟨trivial, hw⟩ hp (.pair hc hb),
    run_meaning b hw (page_inner hc hb hp) trivial, treeOf_pair hc hb]
  simp only [meaning, onChildren, Option.map_some]
  rw [events_elem]
  simp only [andThen_eq]
  rfl

theorem run_contents_selfClosed {k : Kind} {b : Prog .gen k} (hw : WellNested b) {t as}
    (hp : Page [.selfClosedTag t as]) :
    run (.contents .src b) [.selfClosedTag t as] =
      (run b []).map fun r =>
        andThen (.ok [.openingTag t as]) (andThen r (.ok [.closingTag t])) := by
  have he : Page ([] : List Event) := ⟨⟨0, .nil⟩, by simp [AsciiNames], by simp⟩
  rw [run_meaning (.contents .src b) ⟨trivial, hw⟩ hp (.selfClosed t as),
    run_meaning b hw he trivial]
  change some (Forest.elem t as (meaning b .nil) t .nil).events = some (andThen _ (andThen _ _))
  rw [events_elem]
  simp only [andThen_eq]
  rfl

theorem run_contents_void {k : Kind} {b : Prog .gen k} (hw : WellNested b) {t as}
    (hp : Page [.voidTag t as]) :
    run (.contents .src b) [.voidTag t as] = some (.ok [.voidTag t as]) := by
  rw [run_meaning (.contents .src b) ⟨trivial, hw⟩ hp (.void t as)]
  rfl

/-! ## Errors -/

theorem sound_iff {f : Forest} : Sound f ↔ ∃ es, f.events = .ok es := by
  induction f with
  | nil => exact ⟨fun _ => ⟨[], rfl⟩, fun _ => trivial⟩
  | leaf x f ih =>
    rw [Sound, ih, events_leaf]
    cases f.events <;> simp [joinResult]
  | elem t as g c f ih1 ih2 =>
    rw [Sound, ih1, ih2, events_elem]
    cases g.events <;> cases f.events <;> simp [joinResult]
  | fail x => exact ⟨fun h => h.elim, fun ⟨_, h⟩ => by cases h⟩

theorem events_error {f : Forest} {e : StreamError} : f.events = .error e ↔ FirstError e f := by
  induction f with
  | nil => exact ⟨fun h => (by cases h), fun h => (by cases h)⟩
  | leaf x f ih =>
    rw [events_leaf]
    constructor
    · intro h
      refine .leaf (ih.1 ?_)
      cases hf : f.events <;> rw [hf] at h <;> cases h
      rfl
    · intro h
      cases h with
      | leaf h => rw [ih.2 h]; rfl
  | elem t as g c f ih1 ih2 =>
    rw [events_elem]
    constructor
    · intro h
      cases hg : g.events with
      | error y =>
        rw [hg] at h
        cases h
        exact .inside (ih1.1 hg)
      | ok es =>
        refine .after (sound_iff.2 ⟨es, hg⟩) (ih2.1 ?_)
        rw [hg] at h
        cases hf : f.events <;> rw [hf] at h <;> cases h
        rfl
    · intro h
      cases h with
      | inside h => rw [ih1.2 h]; rfl
      | after h1 h2 =>
        obtain ⟨es, h1⟩ := sound_iff.1 h1
        rw [h1, ih2.2 h2]
        rfl
  | fail x =>
    constructor
    · intro h; cases h; exact .here
    · intro h; cases h; rfl

/-- The error is somewhere in the forest. -/
def Holds (e : StreamError) : Forest → Prop
  | .nil => False
  | .leaf _ rest => Holds e rest
  | .elem _ _ children _ rest => Holds e children ∨ Holds e rest
  | .fail x => x = e

theorem holds_events {f : Forest} {e : StreamError} (h : f.events = .error e) : Holds e f := by
  rw [events_error] at h
  induction h with
  | here => rfl
  | leaf _ ih => exact ih
  | inside _ ih => exact .inl ih
  | after _ _ ih => exact .inr ih

theorem holds_append {e : StreamError} {f g : Forest} (h : Holds e (f.append g)) :
    Holds e f ∨ Holds e g := by
  induction f with
  | nil => exact .inr h
  | leaf x f ih => exact ih h
  | elem t as g' c f _ ih =>
    rcases h with h | h
    · exact .inl (.inl h)
    · exact (ih h).imp .inr id
  | fail x => exact .inl h

theorem holds_grow {e : StreamError} (rs : List (Except StreamError Event)) :
    (Holds e (grow rs).1 ∨ ∃ x ∈ (grow rs).2, Holds e x.2) → .error e ∈ rs := by
  induction rs with
  | nil => rintro (h | ⟨x, hx, -⟩); exacts [h.elim, by cases hx]
  | cons r rs ih =>
    cases r with
    | error y =>
      rintro (h | ⟨x, hx, -⟩)
      · cases h; simp
      · cases hx
    | ok y =>
      intro h
      refine List.mem_cons_of_mem _ (ih ?_)
      rcases hg : grow rs with ⟨f, st⟩
      cases y with
      | noop => simpa only [grow, hg] using h
      | closingTag c =>
        simp only [grow, hg] at h
        rcases h with h | ⟨x, hx, h⟩
        · exact h.elim
        · rcases List.mem_cons.1 hx with rfl | hx
          · exact .inl h
          · exact .inr ⟨x, hx, h⟩
      | openingTag t as =>
        cases st with
        | nil =>
          simp only [grow, hg] at h
          rcases h with (h | h) | ⟨x, hx, h⟩
          · exact .inl h
          · exact h.elim
          · cases hx
        | cons y st =>
          simp only [grow, hg] at h
          rcases h with (h | h) | ⟨x, hx, h⟩
          · exact .inl h
          · exact .inr ⟨y, by simp, h⟩
          · exact .inr ⟨x, by simp [hx], h⟩
      | _ => simpa only [grow, hg, Holds] using h

theorem holds_single {e : StreamError} {x : Event} (h : isStart x = true) : ¬ Holds e (single x) := by
  rw [single, if_pos h]
  exact id

theorem holds_select {e : StreamError} {s : Selector} (hs : OnlyStarts s) {direct : Bool}
    {b : Nat → Forest → Forest} {R : Prop} (hb : ∀ i f, Holds e (b i f) → Holds e f ∨ R)
    {f : Forest} {level count : Nat} (h : Holds e (selectTree s direct b level count f).1) :
    Holds e f ∨ R := by
  induction f generalizing level count with
  | nil => exact .inl h
  | fail x => exact .inl h
  | leaf x f ih =>
    rw [selectTree] at h
    split at h
    · next hm =>
      have hst := hs x (by simpa using (Bool.and_eq_true_iff.1 hm).2)
      rcases holds_append h with h | h
      · exact .inr ((hb _ _ h).resolve_left (holds_single hst))
      · exact ih h
    · exact ih h
  | elem t as g c f ih1 ih2 =>
    rw [selectTree] at h
    simp only [onlyStarts_closing hs, Bool.and_false, Bool.false_eq_true, if_false] at h
    split at h
    · rcases holds_append h with h | h
      · rcases hb _ _ h with h | h
        · exact .inl (.inl (h.resolve_right id))
        · exact .inr h
      · exact (ih2 h).imp .inr id
    · rcases h with h | h
      · exact (ih1 h).imp .inl id
      · exact (ih2 h).imp .inr id

theorem holds_once {e : StreamError} {s : Selector} (hs : OnlyStarts s) {direct : Bool}
    {b : Forest → Forest} {R : Prop} (hb : ∀ f, Holds e (b f) → Holds e f ∨ R)
    {f : Forest} {level : Nat} (h : Holds e (selectOnceTree s direct b level f).1) :
    Holds e f ∨ R := by
  induction f generalizing level with
  | nil => exact .inl h
  | fail x => exact .inl h
  | leaf x f ih =>
    rw [selectOnceTree] at h
    split at h
    · next hm =>
      have hst := hs x (by simpa using (Bool.and_eq_true_iff.1 hm).2)
      rcases holds_append h with h | h
      · exact .inr ((hb _ h).resolve_left (holds_single hst))
      · exact .inl h
    · exact ih h
  | elem t as g c f ih1 ih2 =>
    rw [selectOnceTree] at h
    simp only [onlyStarts_closing hs, Bool.and_false, Bool.false_eq_true, if_false] at h
    split at h
    · rcases holds_append h with h | h
      · rcases hb _ h with h | h
        · exact .inl (.inl (h.resolve_right id))
        · exact .inr h
      · exact .inl (.inr h)
    · split at h
      · rcases h with h | h
        · exact (ih1 h).imp .inl id
        · exact .inl (.inr h)
      · rcases h with h | h
        · exact (ih1 h).imp .inl id
        · exact (ih2 h).imp .inr id

theorem holds_treeOf {e : StreamError} {es : List Event} : ¬ Holds e (treeOf es) := by
  intro h
  have := holds_grow _ (.inl h)
  simp at this

/-- Errors come from the input or are written in the calls. -/
theorem holds_meaning {a k : Kind} (p : Prog a k) (hp : StartSelectors p) {e : StreamError}
    {f : Forest} (h : Holds e (meaning p f)) : Holds e f ∨ Raises p e := by
  induction p generalizing f with
  | src => exact .inl h
  | forget p ih => exact ih hp h
  | apply p q ih1 ih2 =>
    rcases ih2 hp.2 h with h | h
    · exact (ih1 hp.1 h).imp id .inl
    · exact .inr (.inr h)
  | fallOk p ih => exact ih hp h
  | fallErr x => exact .inr (Eq.symm h)
  | selectRaw p s direct b ih ihb =>
    rcases holds_select (R := ∃ i, Raises (b i) e) hp.2.1
      (fun i f h => (ihb i (hp.2.2 i) h).imp id fun h => ⟨i, h⟩) h with h | h
    · exact (ih hp.1 h).imp id .inl
    · exact .inr (.inr h)
  | selectOnceRaw p s direct b ih ihb =>
    rcases holds_once (R := Raises b e) hp.2.1 (fun f h => ihb hp.2.2 h) h with h | h
    · exact (ih hp.1 h).imp id .inl
    · exact .inr (.inr h)
  | remove p ih =>
    rw [meaning, removed] at h
    cases hr : (meaning p f).events with
    | ok es => rw [hr] at h; exact h.elim
    | error x =>
      rw [hr] at h
      cases h
      exact ih hp (holds_events hr)
  | prepend p c ih =>
    rcases holds_append h with h | h
    · exact .inr (.inr (holds_grow _ (.inl h)))
    · exact (ih hp h).imp id .inl
  | append p c ih =>
    rcases holds_append h with h | h
    · exact (ih hp h).imp id .inl
    · exact .inr (.inr (holds_grow _ (.inl h)))
  | «repeat» p n b ih ihb =>
    rw [meaning, repeated] at h
    cases hr : (meaning p f).events with
    | error x =>
      rw [hr] at h
      cases h
      exact (ih hp.1 (holds_events hr)).imp id .inl
    | ok es =>
      rw [hr] at h
      have : ∀ i m, Holds e (copies (fun i => meaning (b i) (meaning p f)) i m) →
          Holds e (meaning p f) ∨ ∃ i, Raises (b i) e := by
        intro i m hc
        induction m generalizing i with
        | zero => exact hc.elim
        | succ m ihm =>
          rcases holds_append hc with hc | hc
          · exact (ihb i (hp.2 i) hc).imp id fun h => ⟨i, h⟩
          · exact ihm _ hc
      rcases this _ _ h with h | h
      · exact (ih hp.1 h).imp id .inl
      · exact .inr (.inr h)
  | orElse p n r q ih ihr ihq =>
    rw [meaning] at h
    split at h
    · rcases ihr hp.2.1 h with h | h
      · exact (ih hp.1 h).imp id .inl
      · exact .inr (.inr (.inl h))
    · rcases ihq hp.2.2 h with h | h
      · exact (ih hp.1 h).imp id .inl
      · exact .inr (.inr (.inr h))
  | applyTemplate p g ih =>
    rw [meaning, applied] at h
    cases hr : (meaning p f).events with
    | error x =>
      rw [hr] at h
      cases h
      exact (ih hp (holds_events hr)).imp id .inl
    | ok es =>
      rw [hr] at h
      simp only at h
      cases hg : g ⟨es⟩ with
      | error x =>
        rw [hg] at h
        cases h
        exact .inr (.inr ⟨_, hg⟩)
      | ok t =>
        rw [hg] at h
        exact (holds_treeOf h).elim
  | contents p b ih ihb =>
    rw [meaning] at h
    have : Holds e (meaning p f) ∨ Raises b e := by
      generalize meaning p f = g at h
      cases g with
      | nil => exact h.elim
      | fail x => exact .inl h
      | elem t as g c r =>
        rcases h with h | h
        · exact (ihb hp.2 h).imp .inl id
        · exact .inl (.inr h)
      | leaf x r =>
        cases x with
        | selfClosedTag t as =>
          rcases h with h | h
          · exact .inr ((ihb hp.2 h).resolve_left id)
          · exact .inl h
        | _ => exact .inl h
    rcases this with h | h
    · exact (ih hp.1 h).imp id .inl
    · exact .inr (.inr h)
  | attr p op ih =>
    rw [meaning] at h
    have : Holds e (meaning p f) := by
      generalize meaning p f = g at h
      cases g with
      | nil => exact h.elim
      | fail x => exact h
      | elem t as g c r => exact h
      | leaf x r => cases x <;> exact h
    exact ih hp this

/-! ## Errors are never lost -/

theorem sound_append {f g : Forest} : Sound (f.append g) ↔ Sound f ∧ Sound g := by
  rw [sound_iff, sound_iff, sound_iff, events_append]
  cases f.events <;> cases g.events <;> simp [joinResult]

theorem sound_select {s : Selector} {direct : Bool} {b : Nat → Forest → Forest}
    (hb : ∀ i f, Sound (b i f) → Sound f) {f : Forest} {level count : Nat}
    (h : Sound (selectTree s direct b level count f).1) : Sound f := by
  induction f generalizing level count with
  | nil => exact h
  | fail x => exact h
  | leaf x f ih =>
    rw [selectTree] at h
    split at h
    · exact ih (sound_append.1 h).2
    · exact ih h
  | elem t as g c f ih1 ih2 =>
    rw [selectTree] at h
    split at h
    · have h := sound_append.1 h
      exact ⟨(hb _ _ h.1).1, ih2 h.2⟩
    · split at h
      · exact ⟨ih1 (sound_append.1 h.1).1, ih2 h.2⟩
      · exact ⟨ih1 h.1, ih2 h.2⟩

theorem sound_once {s : Selector} {direct : Bool} {b : Forest → Forest}
    (hb : ∀ f, Sound (b f) → Sound f) {f : Forest} {level : Nat}
    (h : Sound (selectOnceTree s direct b level f).1) : Sound f := by
  induction f generalizing level with
  | nil => exact h
  | fail x => exact h
  | leaf x f ih =>
    rw [selectOnceTree] at h
    split at h
    · exact (sound_append.1 h).2
    · exact ih h
  | elem t as g c f ih1 ih2 =>
    rw [selectOnceTree] at h
    split at h
    · have h := sound_append.1 h
      exact ⟨(hb _ h.1).1, h.2⟩
    · simp only at h
      split at h
      · exact ⟨ih1 h.1, h.2⟩
      · split at h
        · exact ⟨ih1 (sound_append.1 h.1).1, h.2⟩
        · exact ⟨ih1 h.1, ih2 h.2⟩

/-- A chain of calls never loses an error of its input. -/
theorem sound_meaning {a k : Kind} (p : Prog a k) {f : Forest} (h : Sound (meaning p f)) :
    Sound f := by
  induction p generalizing f with
  | src => exact h
  | forget p ih => exact ih h
  | apply p q ih1 ih2 => exact ih1 (ih2 h)
  | fallOk p ih => exact ih h
  | fallErr x => exact h.elim
  | selectRaw p s direct b ih ihb => exact ih (sound_select (fun i f h => ihb i h) h)
  | selectOnceRaw p s direct b ih ihb => exact ih (sound_once (fun f h => ihb h) h)
  | remove p ih =>
    rw [meaning, removed] at h
    refine ih (sound_iff.2 ?_)
    cases hr : (meaning p f).events with
    | ok es => exact ⟨es, rfl⟩
    | error x => rw [hr] at h; exact h.elim
  | prepend p c ih => exact ih (sound_append.1 h).2
  | append p c ih => exact ih (sound_append.1 h).1
  | «repeat» p n b ih ihb =>
    rw [meaning, repeated] at h
    refine ih (sound_iff.2 ?_)
    cases hr : (meaning p f).events with
    | ok es => exact ⟨es, rfl⟩
    | error x => rw [hr] at h; exact h.elim
  | orElse p n r q ih ihr ihq =>
    rw [meaning] at h
    split at h
    · exact ih (ihr h)
    · exact ih (ihq h)
  | applyTemplate p g ih =>
    rw [meaning, applied] at h
    refine ih (sound_iff.2 ?_)
    cases hr : (meaning p f).events with
    | ok es => exact ⟨es, rfl⟩
    | error x => rw [hr] at h; exact h.elim
  | contents p b ih ihb =>
    rw [meaning] at h
    refine ih ?_
    generalize meaning p f = g at h
    cases g with
    | nil => trivial
    | fail x => exact h
    | elem t as g c r => exact ⟨ihb h.1, h.2⟩
    | leaf x r =>
      cases x with
      | selfClosedTag t as => exact h.2
      | _ => exact h
  | attr p op ih =>
    rw [meaning] at h
    refine ih ?_
    generalize meaning p f = g at h
    cases g with
    | nil => trivial
    | fail x => exact h
    | elem t as g c r => exact h
    | leaf x r => cases x <;> exact h

/-! ## Parsed templates -/

theorem canonical_names {es : List Event} (h : Canonical es) :
    AsciiNames es ∧ .noop ∉ es := by
  have key : ∀ {e : Event}, Writable e → e ≠ .noop ∧ ∀ t, startName e = some t → Ascii t.str := by
    intro e he
    cases e with
    | noop => exact he.elim
    | openingTag t as => exact ⟨by simp, by rintro _ ⟨⟩; exact he.1.1.ascii⟩
    | selfClosedTag t as => exact ⟨by simp, by rintro _ ⟨⟩; exact he.1.1.ascii⟩
    | voidTag t as => exact ⟨by simp, by rintro _ ⟨⟩; exact he.1.1.ascii⟩
    | _ => exact ⟨by simp, by rintro _ ⟨⟩⟩
  induction h with
  | nil => exact ⟨by simp [AsciiNames], by simp⟩
  | @plain e es hw _ _ _ ih =>
    obtain ⟨h1, h2⟩ := key hw
    refine ⟨?_, by simp [ih.2, Ne.symm h1]⟩
    intro x hx
    rcases List.mem_cons.1 hx with rfl | hx
    · exact h2
    · exact ih.1 x hx
  | @raw t as c n es hw _ _ _ _ ih =>
    obtain ⟨h1, h2⟩ := key hw
    refine ⟨?_, by simpa using ih.2⟩
    intro x hx
    rcases List.mem_cons.1 hx with rfl | hx
    · exact h2
    · rcases List.mem_cons.1 hx with rfl | hx
      · rintro _ ⟨⟩
      · exact ih.1 x hx

/-- Parsed templates are well nested pages. -/
theorem parsed_page {s : Str} {o : Options} {t : Template}
    (h : Template.fromStr s o = .ok (.ok t)) : Page t.events := by
  rw [fromStr_ok, parseEvents_ok] at h
  obtain ⟨-, d, -, he, hr, ho⟩ := h
  have hc := canonical_names (reads_canonical hr rfl ho)
  rw [← he] at hc
  exact ⟨he ▸ (opens_iff.1 ho).1, hc⟩

end Fuser
