import Verif.Proof.Length
import Verif.Proof.Tree

/-!
# The stream machine computes the tree rewriting
-/

namespace Fuser

open Spec

/-! ## Streams that run a builder on a shared cell -/

/-- The outcome of a pull of a stream that runs another stream with its source as shared cell. -/
def onCell (W : Node → Node → Node) (K : Node → Node) : Pull → Option Pull
  | (_, _, []) => none
  | (.done, _, source :: env) => some (.ev .noop, K source, env)
  | (.ev e, stream, source :: env) => some (.ev e, W source stream, env)
  | (.err e, _, _ :: env) => some (.err e, .dead, env)

/-- `W source stream` runs `stream` with `source` as shared cell and goes on as `K source`. -/
def Hosts (W : Node → Node → Node) (K : Node → Node) : Prop :=
  ∀ env source stream,
    next env (W source stream) = (next (source :: env) stream).bind (onCell W K)

theorem hosts_selActive (s : Selector) (direct : Bool) (k : Kind) (b : Nat → Prog .elem k)
    (count level : Nat) :
    Hosts (fun source stream => .selActive source s direct k b count level stream)
      (fun source => .selScan source s direct k b count level) := by
  intro env source stream
  simp only
  rw [next]
  rcases next (source :: env) stream with _ | ⟨r, n, _ | ⟨c, e⟩⟩
  · rfl
  · rfl
  · cases r <;> rfl

theorem hosts_onceActive : Hosts .onceActive .oncePass := by
  intro env source stream
  rw [next]
  rcases next (source :: env) stream with _ | ⟨r, n, _ | ⟨c, e⟩⟩
  · rfl
  · rfl
  · cases r <;> rfl

theorem hosts_contContent (tag : Identifier) :
    Hosts (fun source stream => .contContent source stream tag)
      (fun source => .contClose source tag) := by
  intro env source stream
  simp only
  rw [next]
  rcases next (source :: env) stream with _ | ⟨r, n, _ | ⟨c, e⟩⟩
  · rfl
  · rfl
  · cases r <;> rfl

theorem Hosts.run {W : Node → Node → Node} {K : Node → Node} (hW : Hosts W K) {k : Kind}
    {P Post : Env → Prop} {o' : Out}
    (hK : ∀ cells, P cells → ∃ c e, cells = c :: e ∧ Rel k Post e (K c) o')
    {cells : Env} {stream : Node} {o : Out} (h : Run P cells stream o) :
    ∀ {source env}, cells = source :: env → Rel k Post env (W source stream) (o.append o') := by
  induction h with
  | noop h _ ih =>
    rintro source env rfl
    obtain ⟨c, e, rfl⟩ := next_cons h
    exact Rel.noop (by rw [hW, h]; rfl) (ih rfl)
  | @ev _ n n' _ e o h he _ ih =>
    rintro source env rfl
    obtain ⟨c, e', rfl⟩ := next_cons h
    have hn : next env (W source n) = some (.ev e, W c n', e') := by rw [hW, h]; rfl
    cases k with
    | gen => exact Run.ev hn he (ih rfl)
    | elem => exact Del.ev hn he (ih rfl)
  | done h hP =>
    rintro source env rfl
    obtain ⟨c, e, rfl, hr⟩ := hK _ hP
    exact Rel.noop (by rw [hW, h]; rfl) hr
  | err h =>
    rintro source env rfl
    obtain ⟨c, e, rfl⟩ := next_cons h
    exact Rel.err (by rw [hW, h]; rfl)

/-! ## The element given to a builder -/

theorem next_shared {env : Env} {cell : Node} {r n' env'} (h : next env cell = some (r, n', env')) :
    next (cell :: env) .shared = some (r, .shared, n' :: env') := by
  rw [next]
  simp only [h]
  rfl

theorem next_until_ev {env : Env} {cell : Node} {e n' env'} (tag : Identifier) (level : Nat)
    (h : next env cell = some (.ev e, n', env')) :
    next (cell :: env) (.singleUntil tag .shared level) =
      some (.ev e, singleUntilStep tag level e .shared, n' :: env') := by
  rw [next, next_shared h]
  rfl

theorem next_until_err {env : Env} {cell : Node} {e n' env'} (tag : Identifier) (level : Nat)
    (h : next env cell = some (.err e, n', env')) :
    next (cell :: env) (.singleUntil tag .shared level) = some (.err e, .dead, n' :: env') := by
  rw [next, next_shared h]
  rfl

theorem single_step {Post P : Env → Prop} {tag : Identifier} {level : Nat} {e : Event} {o o' : Out}
    {env : Env} {src : Node} (h : Run Post env src (.ev e o))
    (hk : ∀ env' src', Run Post env' src' o →
      (Del P (src' :: env') (singleUntilStep tag level e .shared) o' ∨
        (o' = .done ∧ P (src' :: env') ∧
          Run P (src' :: env') (singleUntilStep tag level e .shared) .done))) :
    Del P (src :: env) (.singleUntil tag .shared level) (.ev e o') := by
  generalize ho : Out.ev e o = x at h
  induction h with
  | noop h _ ih =>
    exact Del.noop (next_until_ev tag level h) (ih ho)
  | ev h he hr _ =>
    cases ho
    have hn2 := next_until_ev tag level h
    rcases hk _ _ hr with h1 | ⟨rfl, h1, h2⟩
    · exact Del.ev hn2 he h1
    · exact Del.last hn2 he h1 h2
  | done => cases ho
  | err => cases ho

theorem single_err {Post P : Env → Prop} {tag : Identifier} {level : Nat} {e : StreamError}
    {env : Env} {src : Node} (h : Run Post env src (.err e)) :
    Del P (src :: env) (.singleUntil tag .shared level) (.err e) := by
  generalize ho : Out.err e = x at h
  induction h with
  | noop h _ ih =>
    exact Del.noop (next_until_ev tag level h) (ih ho)
  | err h =>
    cases ho
    exact Del.err (next_until_err tag level h)
  | done => cases ho
  | ev => cases ho

theorem singleUntilStep_leaf {tag : Identifier} {level : Nat} {e : Event} {n : Node}
    (he : Leaf e) : singleUntilStep tag level e n = .singleUntil tag n level := by
  cases e <;> first | rfl | exact he.elim

theorem ident_eq_congr {a b c : Identifier} (h : SameName a.str b.str) (hb : Ascii b.str) :
    a.eq c = b.eq c :=
  identifierEq_congr ((identifierEq_right hb).2 h) c.str

theorem single_forest {Post P : Env → Prop} {tag : Identifier} (f : Forest) (hf : f.WF)
    {level : Nat} {o o' : Out} {env : Env} {src : Node} (h : Run Post env src (f.flat o))
    (hk : ∀ env' src', Run Post env' src' o →
      Del P (src' :: env') (.singleUntil tag .shared level) o') :
    Del P (src :: env) (.singleUntil tag .shared level) (f.flat o') := by
  induction f generalizing level o o' env src with
  | nil => exact hk _ _ h
  | fail e => exact single_err h
  | leaf e rest ih =>
    refine single_step h fun env' src' hr => .inl ?_
    rw [singleUntilStep_leaf hf.1]
    exact ih hf.2.2.2 hr hk
  | elem t as children close rest ih1 ih2 =>
    have hc := ident_eq_congr (c := tag) hf.1 hf.2.1
    refine single_step h fun env' src' hr => .inl ?_
    have h1 : singleUntilStep tag level (.openingTag t as) .shared =
        .singleUntil tag .shared (if t.eq tag then level + 1 else level) := by
      simp only [singleUntilStep, Event.isOpeningTagFor, Event.openingTagName, Option.map,
        Option.getD, Event.isClosingTagFor]
      split <;> rename_i hq <;> simp [hq]
    rw [h1]
    refine ih1 hf.2.2.1 hr fun env'' src'' hr' => ?_
    refine single_step hr' fun env3 src3 hr3 => .inl ?_
    have h2 : singleUntilStep tag (if t.eq tag then level + 1 else level) (.closingTag close)
        .shared = .singleUntil tag .shared level := by
      simp only [singleUntilStep, Event.isOpeningTagFor, Event.openingTagName, Option.map,
        Option.getD, Event.isClosingTagFor, hc]
      split
      · next h => cases h
      · split <;> simp_all
    rw [h2]
    exact ih2 hf.2.2.2 hr3 hk

/-- The stream of the children and the closing tag. -/
theorem single_until {Post : Env → Prop} {tag : Identifier} {f : Forest} (hf : f.WF)
    {close : Identifier} (hc : SameName close.str tag.str) (ht : Ascii tag.str) {o : Out}
    {env : Env} {src : Node} (h : Run Post env src (f.flat (.ev (.closingTag close) o))) :
    Del (fun cells => ∃ c e, cells = c :: e ∧ Run Post e c o) (src :: env)
      (.singleUntil tag .shared 0) (f.flat (.ev (.closingTag close) .done)) := by
  refine single_forest f hf h fun env' src' hr => ?_
  refine single_step hr fun env'' src'' hr' => .inr ?_
  have h2 : singleUntilStep tag 0 (.closingTag close) .shared = .dead := by
    have hc' : close.eq tag = true := (identifierEq_right ht).2 hc
    simp [singleUntilStep, Event.isOpeningTagFor, Event.openingTagName, Event.isClosingTagFor, hc']
  rw [h2]
  exact ⟨rfl, ⟨_, _, rfl, hr'⟩, Run.dead ⟨_, _, rfl, hr'⟩⟩

/-- What a builder gets for a matched event without inside. -/
theorem single_leaf {P : Env → Prop} {e : Event} (he : Leaf e) (hn : e ≠ .noop) {cells : Env}
    (h : P cells) : Del P cells (.singleStart e .shared) ((single e).flat .done) := by
  unfold single
  cases e with
  | openingTag => exact he.elim
  | closingTag => exact he.elim
  | noop => exact absurd rfl hn
  | selfClosedTag t as => exact .last (by rw [next]) (by simp) h (Run.dead h)
  | voidTag t as => exact .last (by rw [next]) (by simp) h (Run.dead h)
  | doctype => exact .err (by rw [next] <;> simp)
  | comment => exact .err (by rw [next] <;> simp)
  | data => exact .err (by rw [next] <;> simp)
  | rawData => exact .err (by rw [next] <;> simp)

theorem single_closing {P : Env → Prop} {c : Identifier} {cells : Env} :
    Del P cells (.singleStart (.closingTag c) .shared) ((single (.closingTag c)).flat .done) :=
  .err (by rw [next] <;> simp)

theorem single_elem {Post : Env → Prop} {tag : Identifier} {as : Attributes} {f : Forest}
    (hf : f.WF) {close : Identifier} (hc : SameName close.str tag.str) (ht : Ascii tag.str)
    {o : Out} {env : Env} {src : Node}
    (h : Run Post env src (f.flat (.ev (.closingTag close) o))) :
    Del (fun cells => ∃ c e, cells = c :: e ∧ Run Post e c o) (src :: env)
      (.singleStart (.openingTag tag as) .shared)
      ((Forest.elem tag as f close .nil).flat .done) :=
  .ev (by rw [next]) (by simp) (single_until hf hc ht h)

/-- What builders do: the refinement to be proved, for element streams. -/
def Builds (build : Node → Node) (mean : Forest → Forest) : Prop :=
  ∀ (P : Env → Prop) (env : Env) (n : Node) (f : Forest), Single f → f.WF →
    Del P env n (f.flat .done) → Run P env (build n) ((mean f).flat .done)

/-! ## Selecting -/

theorem levelAdjust_leaf {level : Nat} {e : Event} (he : Leaf e) :
    levelAdjust level e = .ok level := by
  cases e <;> first | rfl | exact he.elim

theorem levelAdjust_closing (level : Nat) (c : Identifier) :
    levelAdjust (level + 1) (.closingTag c) = .ok level := rfl

section scan

variable {s : Selector} {direct : Bool} {k : Kind} {b : Nat → Prog .elem k}
  {Post : Env → Prop}

theorem scan_err {count level : Nat} {env : Env} {src : Node} {e : StreamError}
    (h : Run Post env src (.err e)) :
    Run Post env (.selScan src s direct k b count level) (.err e) := by
  obtain ⟨n', env', h1⟩ := h.skip_err
  exact .err (by rw [next, h1]; rfl)

theorem scan_pass {count level level' : Nat} {env : Env} {src : Node} {e : Event} {o o' : Out}
    (h : Run Post env src (.ev e o))
    (hm : (inScope direct level && s.matches e) = false)
    (hl : levelAdjust level e = .ok level')
    (hk : ∀ env' src', Run Post env' src' o →
      Run Post env' (.selScan src' s direct k b count level') o') :
    Run Post env (.selScan src s direct k b count level) (.ev e o') := by
  obtain ⟨n', env', h1, h2, h3⟩ := h.skip_ev
  refine .ev ?_ h2 (hk _ _ h3)
  have hm' : (restrictInclude direct level && s.matches e) = false := hm
  rw [next, h1]
  simp only [bind, Option.bind, hm', hl]
  rfl

theorem scan_match {count level : Nat} {env : Env} {src : Node} {e : Event} {o o' : Out}
    (h : Run Post env src (.ev e o))
    (hm : (inScope direct level && s.matches e) = true)
    (hk : ∀ env' src', Run Post env' src' o →
      Run Post env' (.selActive src' s direct k b (count + 1) level
        ((b count).build (.singleStart e .shared))) o') :
    Run Post env (.selScan src s direct k b count level) o' := by
  obtain ⟨n', env', h1, h2, h3⟩ := h.skip_ev
  refine .noop ?_ (hk _ _ h3)
  have hm' : (restrictInclude direct level && s.matches e) = true := hm
  rw [next, h1]
  simp only [bind, Option.bind, hm']
  rfl

theorem scan_forest {mean : Nat → Forest → Forest} (hb : ∀ i, Builds (b i).build (mean i))
    (f : Forest) (hf : f.WF) {level count : Nat} {o o' : Out} {env : Env} {src : Node}
    (h : Run Post env src (f.flat o))
    (hk : ∀ env' src', Run Post env' src' o → Run Post env'
      (.selScan src' s direct k b (selectTree s direct mean level count f).2 level) o') :
    Run Post env (.selScan src s direct k b count level)
      ((selectTree s direct mean level count f).1.flat o') := by
  induction f generalizing level count o o' env src with
  | nil => exact hk _ _ h
  | fail e => exact scan_err h
  | leaf e rest ih =>
    rw [selectTree] at hk ⊢
    simp only at hk ⊢
    by_cases hm : (inScope direct level && s.matches e) = true
    · rw [if_pos hm] at hk ⊢
      refine scan_match h hm fun env' src' hr => ?_
      rw [flat_append, ← flat_done_then]
      refine (hosts_selActive s direct k b (count + 1) level).run (k := .gen)
        (P := fun cells => ∃ c e, cells = c :: e ∧ Run Post e c (rest.flat o)) ?_
        (hb count _ _ _ _ (single_single e) (single_wf hf.1 hf.2.1 hf.2.2.1)
          (single_leaf hf.1 hf.2.1 ⟨_, _, rfl, hr⟩)) rfl
      rintro cells ⟨c, e', rfl, hr'⟩
      exact ⟨c, e', rfl, ih hf.2.2.2 hr' hk⟩
    · rw [if_neg hm] at hk ⊢
      exact scan_pass h (by simpa using hm) (levelAdjust_leaf hf.1)
        fun env' src' hr => ih hf.2.2.2 hr hk
  | elem t as children close rest ih1 ih2 =>
    rw [selectTree] at hk ⊢
    simp only at hk ⊢
    by_cases hm : (inScope direct level && s.matches (.openingTag t as)) = true
    · rw [if_pos hm] at hk ⊢
      refine scan_match h hm fun env' src' hr => ?_
      rw [flat_append, ← flat_done_then]
      refine (hosts_selActive s direct k b (count + 1) level).run (k := .gen)
        (P := fun cells => ∃ c e, cells = c :: e ∧ Run Post e c (rest.flat o)) ?_
        (hb count _ _ _ _ .elem ⟨hf.1, hf.2.1, hf.2.2.1, trivial⟩
          (single_elem hf.2.2.1 hf.1 hf.2.1 hr)) rfl
      rintro cells ⟨c, e', rfl, hr'⟩
      exact ⟨c, e', rfl, ih2 hf.2.2.2 hr' hk⟩
    · rw [if_neg hm] at hk ⊢
      have hm'' : (inScope direct level && s.matches (.openingTag t as)) = false := by
        simpa using hm
      by_cases hcl : (inScope direct (level + 1) && s.matches (.closingTag close)) = true
      · rw [if_pos hcl]
        refine scan_pass h hm'' rfl fun env' src' hr => ?_
        rw [flat_append]
        refine ih1 hf.2.2.1 hr fun env' src' hr => ?_
        refine scan_match hr hcl fun env' src' hr => ?_
        have hrun := hb (selectTree s direct mean (level + 1) count children).2
          (fun _ => False) (src' :: env') _ _ (single_single (.closingTag close)) trivial
          single_closing
        rw [← flat_done_then]
        exact (hosts_selActive s direct k b _ _).run (k := .gen) (P := fun _ => False)
          (fun _ h => h.elim) hrun rfl
      · rw [if_neg hcl] at hk ⊢
        refine scan_pass h hm'' rfl fun env' src' hr => ?_
        refine ih1 hf.2.2.1 hr fun env' src' hr => ?_
        refine scan_pass hr (by simpa using hcl) (levelAdjust_closing level close)
            fun env' src' hr => ?_
        exact ih2 hf.2.2.2 hr hk

theorem scan_done {count level : Nat} {env : Env} {src : Node} (h : Run Post env src .done) :
    Run Post env (.selScan src s direct k b count level) .done := by
  obtain ⟨n', env', h1, h2⟩ := h.skip_done
  exact .done (by rw [next, h1]; rfl) h2

end scan

section once

variable {s : Selector} {direct : Bool} {k : Kind} {b : Prog .elem k} {Post : Env → Prop}

theorem once_err {level : Nat} {env : Env} {src : Node} {e : StreamError}
    (h : Run Post env src (.err e)) :
    Run Post env (.onceScan src s direct k b level) (.err e) := by
  obtain ⟨n', env', h1⟩ := h.skip_err
  exact .err (by rw [next, h1]; rfl)

theorem once_pass {level level' : Nat} {env : Env} {src : Node} {e : Event} {o o' : Out}
    (h : Run Post env src (.ev e o))
    (hm : (inScope direct level && s.matches e) = false)
    (hl : levelAdjust level e = .ok level')
    (hk : ∀ env' src', Run Post env' src' o →
      Run Post env' (.onceScan src' s direct k b level') o') :
    Run Post env (.onceScan src s direct k b level) (.ev e o') := by
  obtain ⟨n', env', h1, h2, h3⟩ := h.skip_ev
  refine .ev ?_ h2 (hk _ _ h3)
  have hm' : (restrictInclude direct level && s.matches e) = false := hm
  rw [next, h1]
  simp only [bind, Option.bind, hm', hl]
  rfl

theorem once_match {level : Nat} {env : Env} {src : Node} {e : Event} {o o' : Out}
    (h : Run Post env src (.ev e o))
    (hm : (inScope direct level && s.matches e) = true)
    (hk : ∀ env' src', Run Post env' src' o →
      Run Post env' (.onceActive src' (b.build (.singleStart e .shared))) o') :
    Run Post env (.onceScan src s direct k b level) o' := by
  obtain ⟨n', env', h1, h2, h3⟩ := h.skip_ev
  refine .noop ?_ (hk _ _ h3)
  have hm' : (restrictInclude direct level && s.matches e) = true := hm
  rw [next, h1]
  simp only [bind, Option.bind, hm']
  rfl

theorem once_done {level : Nat} {env : Env} {src : Node} (h : Run Post env src .done) :
    Run Post env (.onceScan src s direct k b level) .done := by
  obtain ⟨n', env', h1, h2⟩ := h.skip_done
  exact .done (by rw [next, h1]; rfl) h2

theorem once_forest {mean : Forest → Forest} (hb : Builds b.build mean)
    (f : Forest) (hf : f.WF) {level : Nat} {o o' : Out} {env : Env} {src : Node}
    (h : Run Post env src (f.flat o))
    (ho : (selectOnceTree s direct mean level f).2 = true → o' = o)
    (hk : (selectOnceTree s direct mean level f).2 = false → ∀ env' src', Run Post env' src' o →
      Run Post env' (.onceScan src' s direct k b level) o') :
    Run Post env (.onceScan src s direct k b level)
      ((selectOnceTree s direct mean level f).1.flat o') := by
  induction f generalizing level o o' env src with
  | nil => exact hk rfl _ _ h
  | fail e => exact once_err h
  | leaf e rest ih =>
    rw [selectOnceTree] at hk ho ⊢
    simp only at hk ho ⊢
    by_cases hm : (inScope direct level && s.matches e) = true
    · rw [if_pos hm] at ho ⊢
      rw [ho rfl]
      refine once_match h hm fun env' src' hr => ?_
      rw [flat_append, ← flat_done_then]
      refine hosts_onceActive.run (k := .gen)
        (P := fun cells => ∃ c e, cells = c :: e ∧ Run Post e c (rest.flat o)) ?_
        (hb _ _ _ _ (single_single e) (single_wf hf.1 hf.2.1 hf.2.2.1)
          (single_leaf hf.1 hf.2.1 ⟨_, _, rfl, hr⟩)) rfl
      rintro cells ⟨c, e', rfl, hr'⟩
      exact ⟨c, e', rfl, forwards_oncePass.run hr'⟩
    · rw [if_neg hm] at hk ho ⊢
      exact once_pass h (by simpa using hm) (levelAdjust_leaf hf.1)
        fun env' src' hr => ih hf.2.2.2 hr ho hk
  | elem t as children close rest ih1 ih2 =>
    rw [selectOnceTree] at hk ho ⊢
    simp only at hk ho ⊢
    by_cases hm : (inScope direct level && s.matches (.openingTag t as)) = true
    · rw [if_pos hm] at ho ⊢
      rw [ho rfl]
      refine once_match h hm fun env' src' hr => ?_
      rw [flat_append, ← flat_done_then]
      refine hosts_onceActive.run (k := .gen)
        (P := fun cells => ∃ c e, cells = c :: e ∧ Run Post e c (rest.flat o)) ?_
        (hb _ _ _ _ .elem ⟨hf.1, hf.2.1, hf.2.2.1, trivial⟩
          (single_elem hf.2.2.1 hf.1 hf.2.1 hr)) rfl
      rintro cells ⟨c, e', rfl, hr'⟩
      exact ⟨c, e', rfl, forwards_oncePass.run hr'⟩
    · rw [if_neg hm] at hk ho ⊢
      have hm'' : (inScope direct level && s.matches (.openingTag t as)) = false := by
        simpa using hm
      by_cases hfound : (selectOnceTree s direct mean (level + 1) children).2 = true
      · rw [if_pos hfound] at ho ⊢
        rw [ho rfl]
        refine once_pass h hm'' rfl fun env' src' hr => ?_
        exact ih1 hf.2.2.1 hr (fun _ => rfl) (fun h => by rw [hfound] at h; cases h)
      · rw [if_neg hfound] at hk ho ⊢
        by_cases hcl : (inScope direct (level + 1) && s.matches (.closingTag close)) = true
        · rw [if_pos hcl]
          refine once_pass h hm'' rfl fun env' src' hr => ?_
          rw [flat_append]
          refine ih1 hf.2.2.1 hr (fun h => absurd h hfound) fun _ env' src' hr => ?_
          refine once_match hr hcl fun env' src' hr => ?_
          have hrun := hb (fun _ => False) (src' :: env') _ _ (single_single (.closingTag close))
            trivial single_closing
          rw [← flat_done_then]
          exact hosts_onceActive.run (k := .gen) (P := fun _ => False)
            (fun _ h => h.elim) hrun rfl
        · rw [if_neg hcl] at hk ho ⊢
          refine once_pass h hm'' rfl fun env' src' hr => ?_
          refine ih1 hf.2.2.1 hr (fun h => absurd h hfound) fun _ env' src' hr => ?_
          refine once_pass hr (by simpa using hcl) (levelAdjust_closing level close)
            fun env' src' hr => ?_
          exact ih2 hf.2.2.2 hr ho hk

end once

end Fuser
