import Verif.Spec.Tree
import Verif.Proof.Attr
import Verif.Proof.Machine

/-!
# Lemmas on forests
-/

namespace Fuser

open Spec

/-- The stream of a forest, followed by `k`. -/
def Spec.Forest.flat : Forest → Out → Out
  | .nil, k => k
  | .leaf e rest, k => .ev e (rest.flat k)
  | .elem t as children close rest, k =>
    .ev (.openingTag t as) (children.flat (.ev (.closingTag close) (rest.flat k)))
  | .fail e, _ => .err e

/-- The forest represents a well nested stream. -/
def Spec.Forest.WF : Forest → Prop
  | .nil => True
  | .fail _ => True
  | .leaf e rest => Leaf e ∧ e ≠ .noop ∧ (∀ t, startName e = some t → Ascii t.str) ∧ rest.WF
  | .elem t _ children close rest =>
    SameName close.str t.str ∧ Ascii t.str ∧ children.WF ∧ rest.WF

/-- A single element, or a failure. -/
inductive Single : Forest → Prop
  | leaf {e} : isStart e = true → Single (.leaf e .nil)
  | elem {t as children close} : Single (.elem t as children close .nil)
  | fail {e} : Single (.fail e)

/-- The forests of the kinds of streams. -/
def Shape : Kind → Forest → Prop
  | .gen, _ => True
  | .elem, f => Single f

theorem Out.append_assoc (a b c : Out) : (a.append b).append c = a.append (b.append c) := by
  induction a with
  | done => rfl
  | err e => rfl
  | ev e o ih => simp only [Out.append, ih]

theorem Out.append_done (a : Out) : a.append .done = a := by
  induction a with
  | done => rfl
  | err e => rfl
  | ev e o ih => simp only [Out.append, ih]

theorem flat_append (f g : Forest) (k : Out) : (f.append g).flat k = f.flat (g.flat k) := by
  induction f generalizing k with
  | nil => rfl
  | leaf e rest ih => simp only [Forest.append, Forest.flat, ih]
  | elem t as children close rest _ ih => simp only [Forest.append, Forest.flat, ih]
  | fail e => rfl

theorem flat_then (f : Forest) (k k' : Out) : (f.flat k).append k' = f.flat (k.append k') := by
  induction f generalizing k with
  | nil => rfl
  | leaf e rest ih => simp only [Out.append, Forest.flat, ih]
  | elem t as children close rest ih1 ih2 => simp only [Out.append, Forest.flat, ih1, ih2]
  | fail e => rfl

theorem flat_done_then (f : Forest) (k : Out) : (f.flat .done).append k = f.flat k := flat_then f _ k

theorem append_nil (f : Forest) : f.append .nil = f := by
  induction f with
  | nil => rfl
  | leaf e rest ih => simp only [Forest.append, ih]
  | elem t as children close rest _ ih => simp only [Forest.append, ih]
  | fail e => rfl

/-- The events of `f` followed by those of an outcome. -/
def joinResult (a b : Except StreamError (List Event)) : Except StreamError (List Event) :=
  match a, b with
  | .ok x, .ok y => .ok (x ++ y)
  | .error e, _ => .error e
  | .ok _, .error e => .error e

theorem events_leaf (e : Event) (f : Forest) :
    (Forest.leaf e f).events = joinResult (.ok [e]) f.events := by
  simp only [Forest.events, bind, Except.bind, pure, Except.pure]
  cases f.events <;> rfl

theorem events_elem (t as f c g) :
    (Forest.elem t as f c g).events = joinResult (.ok [.openingTag t as])
      (joinResult f.events (joinResult (.ok [.closingTag c]) g.events)) := by
  simp only [Forest.events, bind, Except.bind, pure, Except.pure]
  cases f.events <;> cases g.events <;> rfl

theorem result_ev (e : Event) (o : Out) : (Out.ev e o).result = joinResult (.ok [e]) o.result := by
  simp only [Out.result]
  cases o.result <;> rfl

theorem joinResult_assoc (a b c) :
    joinResult (joinResult a b) c = joinResult a (joinResult b c) := by
  cases a <;> cases b <;> cases c <;> simp [joinResult]

theorem result_flat (f : Forest) (k : Out) :
    (f.flat k).result = joinResult f.events k.result := by
  induction f generalizing k with
  | nil => simp only [Forest.flat, Forest.events]; cases k.result <;> rfl
  | leaf e rest ih =>
    rw [Forest.flat, result_ev, ih, events_leaf, joinResult_assoc]
  | elem t as children close rest ih1 ih2 =>
    rw [Forest.flat, result_ev, ih1, result_ev, ih2, events_elem]
    simp only [joinResult_assoc]
  | fail e => rfl

theorem result_flat_done (f : Forest) : (f.flat .done).result = f.events := by
  rw [result_flat]
  simp only [Out.result]
  cases f.events <;> simp [joinResult]

theorem events_append (f g : Forest) : (f.append g).events = joinResult f.events g.events := by
  rw [← result_flat_done, flat_append, result_flat, result_flat_done]

/-! ## Well formed forests -/

theorem wf_append {f g : Forest} (hf : f.WF) (hg : g.WF) : (f.append g).WF := by
  induction f with
  | nil => exact hg
  | leaf e rest ih => exact ⟨hf.1, hf.2.1, hf.2.2.1, ih hf.2.2.2⟩
  | elem t as children close rest _ ih => exact ⟨hf.1, hf.2.1, hf.2.2.1, ih hf.2.2.2⟩
  | fail e => trivial

/-- Without failures, the stream of a forest is the list of its events. -/
theorem flat_ok {f : Forest} (hf : f.WF) {es : List Event} (h : f.events = .ok es)
    (rs : List (Except StreamError Event)) :
    f.flat (Out.ofResults rs) = Out.ofResults (es.map .ok ++ rs) := by
  induction f generalizing es rs with
  | nil => cases h; rfl
  | leaf e rest ih =>
    rw [events_leaf] at h
    cases hr : rest.events with
    | error e'' => rw [hr] at h; cases h
    | ok es =>
      rw [hr] at h; cases h
      rw [Forest.flat, ih hf.2.2.2 hr]
      exact (Out.ofResults_cons hf.2.1 _).symm
  | elem t as children close rest ih1 ih2 =>
    rw [events_elem] at h
    cases hc : children.events with
    | error e'' => rw [hc] at h; cases h
    | ok es =>
      rw [hc] at h
      cases hr : rest.events with
      | error e'' => rw [hr] at h; cases h
      | ok es' =>
        rw [hr] at h; cases h
        have h1 := ih2 hf.2.2.2 hr rs
        have h2 := ih1 hf.2.2.1 hc (.ok (.closingTag close) :: (es'.map .ok ++ rs))
        rw [Out.ofResults_cons (by simp), ← h1] at h2
        rw [Forest.flat, h2]
        simp only [List.singleton_append, List.map_cons, List.map_append, List.append_assoc,
          List.cons_append]
        exact (Out.ofResults_cons (by simp) _).symm
  | fail e => cases h

theorem flat_ok_done {f : Forest} (hf : f.WF) {es : List Event} (h : f.events = .ok es) :
    f.flat .done = Out.ofResults (es.map .ok) := by
  have := flat_ok hf h []
  rwa [List.append_nil] at this

theorem wf_noop {f : Forest} (hf : f.WF) {es : List Event} (h : f.events = .ok es) :
    ∀ e ∈ es, e ≠ .noop := by
  induction f generalizing es with
  | nil => cases h; simp
  | leaf e rest ih =>
    rw [events_leaf] at h
    cases hr : rest.events with
    | error e'' => rw [hr] at h; cases h
    | ok es =>
      rw [hr] at h; cases h
      intro x hx
      rcases List.mem_cons.1 hx with rfl | hx
      · exact hf.2.1
      · exact ih hf.2.2.2 hr x hx
  | elem t as children close rest ih1 ih2 =>
    rw [events_elem] at h
    cases hc : children.events with
    | error e'' => rw [hc] at h; cases h
    | ok es =>
      rw [hc] at h
      cases hr : rest.events with
      | error e'' => rw [hr] at h; cases h
      | ok es' =>
        rw [hr] at h; cases h
        intro x hx
        simp only [List.mem_cons, List.mem_append, List.nil_append, List.cons_append] at hx
        rcases hx with rfl | hx | rfl | hx
        · simp
        · exact ih1 hf.2.2.1 hc x hx
        · simp
        · exact ih2 hf.2.2.2 hr x hx
  | fail e => cases h

theorem nests_mono {n m : Nat} {es : List Event} (h : Nests n es) (hm : n ≤ m) : Nests m es := by
  induction h generalizing m with
  | nil => exact .nil
  | leaf he _ ih => exact .leaf he (ih hm)
  | element hc _ _ ih1 ih2 =>
    obtain ⟨m, rfl⟩ : ∃ m', m = m' + 1 := ⟨m - 1, by omega⟩
    exact .element hc (ih1 (by omega)) (ih2 hm)

theorem wf_balanced {f : Forest} (hf : f.WF) {es : List Event} (h : f.events = .ok es) :
    Balanced es ∧ AsciiNames es := by
  induction f generalizing es with
  | nil => cases h; exact ⟨⟨0, .nil⟩, by intro e he; cases he⟩
  | leaf e rest ih =>
    rw [events_leaf] at h
    cases hr : rest.events with
    | error e'' => rw [hr] at h; cases h
    | ok es =>
      rw [hr] at h; cases h
      obtain ⟨⟨n, hn⟩, ha⟩ := ih hf.2.2.2 hr
      refine ⟨⟨n, .leaf hf.1 hn⟩, ?_⟩
      intro x hx
      rcases List.mem_cons.1 hx with rfl | hx
      · exact hf.2.2.1
      · exact ha x hx
  | elem t as children close rest ih1 ih2 =>
    rw [events_elem] at h
    cases hc : children.events with
    | error e'' => rw [hc] at h; cases h
    | ok es =>
      rw [hc] at h
      cases hr : rest.events with
      | error e'' => rw [hr] at h; cases h
      | ok es' =>
        rw [hr] at h; cases h
        obtain ⟨⟨n, hn⟩, ha⟩ := ih1 hf.2.2.1 hc
        obtain ⟨⟨m, hm⟩, hb⟩ := ih2 hf.2.2.2 hr
        refine ⟨⟨max n m + 1, ?_⟩, ?_⟩
        · exact .element hf.1 (nests_mono hn (by omega)) (nests_mono hm (by omega))
        · intro x hx
          simp only [List.mem_cons, List.mem_append, List.nil_append, List.cons_append] at hx
          rcases hx with rfl | hx | rfl | hx
          · intro u hu
            cases hu
            exact hf.2.1
          · exact ha x hx
          · intro u hu; cases hu
          · exact hb x hx
  | fail e => cases h

/-- The events of a well formed forest are a page. -/
theorem wf_page {f : Forest} (hf : f.WF) {es : List Event} (h : f.events = .ok es) : Page es :=
  ⟨(wf_balanced hf h).1, (wf_balanced hf h).2, fun hn => wf_noop hf h _ hn rfl⟩

/-! ## From streams to forests -/

/-- The stream of a forest with closing tags still to be matched. -/
def flatOpen : Forest → List (Identifier × Forest) → Out → Out
  | f, [], k => f.flat k
  | f, (c, g) :: st, k => f.flat (.ev (.closingTag c) (flatOpen g st k))

/-- The closing tags fit the open elements, or the stream fails before. -/
inductive Match : List Identifier → List (Identifier × Forest) → Prop
  | nil {st} : Match st []
  | cons {st t c g fr} : SameName c.str t.str → g.WF → Match st fr →
      Match (t :: st) ((c, g) :: fr)

/-- Names of element starts. -/
def AsciiResults (rs : List (Except StreamError Event)) : Prop :=
  ∀ e t, .ok e ∈ rs → startName e = some t → Ascii t.str

theorem AsciiResults.tail {r rs} (h : AsciiResults (r :: rs)) : AsciiResults rs :=
  fun e t he ht => h e t (List.mem_cons_of_mem _ he) ht

theorem grow_spec {st : List Identifier} {rs : List (Except StreamError Event)}
    (h : Nested st rs) (ha : AsciiResults rs) :
    (grow rs).1.WF ∧ Match st (grow rs).2 ∧
      flatOpen (grow rs).1 (grow rs).2 .done = Out.ofResults rs ∧
      ((grow rs).2.length = st.length ∨
        ∀ k k', flatOpen (grow rs).1 (grow rs).2 k = flatOpen (grow rs).1 (grow rs).2 k') := by
  induction h with
  | done => exact ⟨trivial, .nil, rfl, .inl rfl⟩
  | fail => exact ⟨trivial, .nil, rfl, .inr fun k k' => rfl⟩
  | @leaf st e rs he _ ih =>
    obtain ⟨h1, h2, h3, h4⟩ := ih ha.tail
    by_cases hn : e = .noop
    · subst hn
      exact ⟨h1, h2, h3, h4⟩
    · have hg : grow (.ok e :: rs) = (.leaf e (grow rs).1, (grow rs).2) := by
        cases e <;> first | rfl | exact absurd rfl hn | exact he.elim
      have hf : ∀ k, flatOpen (.leaf e (grow rs).1) (grow rs).2 k =
          .ev e (flatOpen (grow rs).1 (grow rs).2 k) := by
        intro k
        cases (grow rs).2 <;> rfl
      rw [hg, Out.ofResults_cons hn]
      simp only [hf, h3]
      refine ⟨⟨he, hn, fun t ht => ha e t (by simp) ht, h1⟩, h2, trivial, ?_⟩
      rcases h4 with h4 | h4
      · exact .inl h4
      · exact .inr fun k k' => by rw [h4 k k']
  | @opening st t as rs _ ih =>
    obtain ⟨h1, h2, h3, h4⟩ := ih ha.tail
    have hat : Ascii t.str := ha _ t (List.mem_cons_self ..) rfl
    rw [Out.ofResults_cons (by simp)]
    rcases hg : grow rs with ⟨f, fr⟩
    rw [hg] at h1 h2 h3 h4
    simp only at h1 h2 h3 h4
    cases h2 with
    | nil =>
      have : grow (.ok (.openingTag t as) :: rs) = (.elem t as f t .nil, []) := by
        simp only [grow, hg]
      rw [this]
      have h4 : ∀ k k', f.flat k = f.flat k' := by
        rcases h4 with h4 | h4
        · simp at h4
        · exact h4
      refine ⟨⟨.refl _, hat, h1, trivial⟩, .nil, ?_, .inr ?_⟩
      · simp only [flatOpen, Forest.flat]
        rw [h4 _ .done]
        rw [flatOpen] at h3
        rw [h3]
      · intro k k'
        simp only [flatOpen, Forest.flat]
        rw [h4 _ .done, h4 (.ev _ k') .done]
    | @cons _ _ c g fr hc hgw hm =>
      have : grow (.ok (.openingTag t as) :: rs) = (.elem t as f c g, fr) := by
        simp only [grow, hg]
      rw [this]
      have hf : ∀ k, flatOpen (.elem t as f c g) fr k =
          .ev (.openingTag t as) (flatOpen f ((c, g) :: fr) k) := by
        intro k
        cases fr <;> rfl
      simp only [hf, h3]
      refine ⟨⟨hc, hat, h1, hgw⟩, hm, trivial, ?_⟩
      rcases h4 with h4 | h4
      · exact .inl (by simpa using h4)
      · exact .inr fun k k' => by rw [h4 k k']
  | @closing st t c rs hc _ ih =>
    obtain ⟨h1, h2, h3, h4⟩ := ih ha.tail
    rw [Out.ofResults_cons (by simp)]
    rcases hg : grow rs with ⟨f, fr⟩
    rw [hg] at h1 h2 h3 h4
    simp only at h1 h2 h3 h4
    have : grow (.ok (.closingTag c) :: rs) = (.nil, (c, f) :: fr) := by
      simp only [grow, hg]
    rw [this]
    refine ⟨trivial, .cons hc h1 h2, ?_, ?_⟩
    · simp only [flatOpen, Forest.flat, h3]
    · rcases h4 with h4 | h4
      · exact .inl (by simp [h4])
      · exact .inr fun k k' => by simp only [flatOpen, Forest.flat]; rw [h4 k k']

theorem tree_spec {rs : List (Except StreamError Event)} (h : Nested [] rs)
    (ha : AsciiResults rs) : (tree rs).WF ∧ (tree rs).flat .done = Out.ofResults rs := by
  obtain ⟨h1, h2, h3, -⟩ := grow_spec h ha
  rcases hg : grow rs with ⟨f, fr⟩
  rw [hg] at h1 h2 h3
  simp only at h1 h2 h3
  cases h2
  unfold tree
  rw [hg]
  exact ⟨h1, h3⟩

theorem nests_nested {n : Nat} {es : List Event} (h : Nests n es) {st rs}
    (hr : Nested st rs) : Nested st (es.map .ok ++ rs) := by
  induction h generalizing st rs with
  | nil => exact hr
  | leaf he _ ih => exact .leaf he (ih hr)
  | element hc _ _ ih1 ih2 =>
    simp only [List.map_cons, List.map_append, List.cons_append, List.append_assoc]
    exact .opening (ih1 (.closing hc (ih2 hr)))

theorem page_nested {es : List Event} (h : Page es) :
    Nested [] (es.map .ok) ∧ AsciiResults (es.map .ok) := by
  obtain ⟨⟨n, hn⟩, ha, -⟩ := h
  refine ⟨?_, ?_⟩
  · have := nests_nested hn (.done)
    rwa [List.append_nil] at this
  · intro e t he ht
    obtain ⟨e', he', h⟩ := List.mem_map.1 he
    cases h
    exact ha e he' t ht

theorem treeOf_spec {es : List Event} (h : Page es) :
    (treeOf es).WF ∧ (treeOf es).flat .done = Out.ofResults (es.map .ok) :=
  tree_spec (page_nested h).1 (page_nested h).2

theorem result_ofResults (es : List Event) :
    (Out.ofResults (es.map .ok)).result = .ok (es.filter (· ≠ .noop)) := by
  induction es with
  | nil => rfl
  | cons e es ih =>
    by_cases he : e = .noop
    · subst he
      simpa [Out.ofResults] using ih
    · rw [List.map_cons, Out.ofResults_cons he, result_ev, ih]
      simp [he, joinResult]

/-- The forest of a page has the events of the page. -/
theorem treeOf_events {es : List Event} (h : Page es) : (treeOf es).events = .ok es := by
  rw [← result_flat_done, (treeOf_spec h).2, result_ofResults]
  congr 1
  rw [List.filter_eq_self]
  intro e he
  simp only [decide_eq_true_eq]
  rintro rfl
  exact h.2.2 he

/-! ## The meaning keeps forests well formed -/

theorem single_wf {e : Event} (h1 : Leaf e) (h2 : e ≠ .noop)
    (h3 : ∀ t, startName e = some t → Ascii t.str) : (single e).WF := by
  unfold single
  split
  · exact ⟨h1, h2, h3, trivial⟩
  · trivial

theorem single_single (e : Event) : Single (single e) := by
  unfold single
  split
  · next h => exact .leaf h
  · exact .fail

theorem select_wf {s : Selector} {direct : Bool} {b : Nat → Forest → Forest}
    (hb : ∀ i f, Single f → f.WF → (b i f).WF) (f : Forest) (hf : f.WF) (level count : Nat) :
    (selectTree s direct b level count f).1.WF := by
  induction f generalizing level count with
  | nil => trivial
  | fail e => trivial
  | leaf e rest ih =>
    rw [selectTree]
    split
    · exact wf_append (hb _ _ (single_single e) (single_wf hf.1 hf.2.1 hf.2.2.1)) (ih hf.2.2.2 _ _)
    · exact ⟨hf.1, hf.2.1, hf.2.2.1, ih hf.2.2.2 _ _⟩
  | elem t as children close rest ih1 ih2 =>
    rw [selectTree]
    split
    · exact wf_append (hb _ _ .elem ⟨hf.1, hf.2.1, hf.2.2.1, trivial⟩) (ih2 hf.2.2.2 _ _)
    · simp only
      split
      · exact ⟨hf.1, hf.2.1, wf_append (ih1 hf.2.2.1 _ _) (hb _ _ (single_single _) trivial),
          ih2 hf.2.2.2 _ _⟩
      · exact ⟨hf.1, hf.2.1, ih1 hf.2.2.1 _ _, ih2 hf.2.2.2 _ _⟩

theorem selectOnce_wf {s : Selector} {direct : Bool} {b : Forest → Forest}
    (hb : ∀ f, Single f → f.WF → (b f).WF) (f : Forest) (hf : f.WF) (level : Nat) :
    (selectOnceTree s direct b level f).1.WF := by
  induction f generalizing level with
  | nil => trivial
  | fail e => trivial
  | leaf e rest ih =>
    rw [selectOnceTree]
    split
    · exact wf_append (hb _ (single_single e) (single_wf hf.1 hf.2.1 hf.2.2.1)) hf.2.2.2
    · exact ⟨hf.1, hf.2.1, hf.2.2.1, ih hf.2.2.2 _⟩
  | elem t as children close rest ih1 ih2 =>
    rw [selectOnceTree]
    split
    · exact wf_append (hb _ .elem ⟨hf.1, hf.2.1, hf.2.2.1, trivial⟩) hf.2.2.2
    · simp only
      split
      · exact ⟨hf.1, hf.2.1, ih1 hf.2.2.1 _, hf.2.2.2⟩
      · split
        · exact ⟨hf.1, hf.2.1, wf_append (ih1 hf.2.2.1 _) (hb _ (single_single _) trivial),
            hf.2.2.2⟩
        · exact ⟨hf.1, hf.2.1, ih1 hf.2.2.1 _, ih2 hf.2.2.2 _⟩

theorem copies_wf {b : Nat → Forest} (hb : ∀ i, (b i).WF) (n i : Nat) : (copies b i n).WF := by
  induction n generalizing i with
  | zero => trivial
  | succ n ih => exact wf_append (hb i) (ih _)

theorem meaning_ok {a k : Kind} (p : Prog a k) (hp : WellNested p) (f : Forest) (hs : Shape a f)
    (hf : f.WF) : Shape k (meaning p f) ∧ (meaning p f).WF := by
  induction p generalizing f with
  | src => exact ⟨hs, hf⟩
  | forget p ih => exact ⟨trivial, (ih hp f hs hf).2⟩
  | apply p q ih1 ih2 =>
    obtain ⟨h1, h2⟩ := ih1 hp.1 f hs hf
    exact ih2 hp.2 _ h1 h2
  | fallOk p ih => exact ih hp f hs hf
  | @fallErr _ k e =>
    refine ⟨?_, trivial⟩
    cases k with
    | gen => trivial
    | elem => exact .fail
  | @selectRaw _ k k' p s direct b ih ihb =>
    obtain ⟨h1, h2⟩ := ih hp.1 f hs hf
    exact ⟨trivial, select_wf (fun i g hg hw => (ihb i (hp.2 i) g hg hw).2) _ h2 _ _⟩
  | selectOnceRaw p s direct b ih ihb =>
    obtain ⟨h1, h2⟩ := ih hp.1 f hs hf
    exact ⟨trivial, selectOnce_wf (fun g hg hw => (ihb hp.2 g hg hw).2) _ h2 _⟩
  | remove p ih =>
    refine ⟨trivial, ?_⟩
    simp only [meaning, removed]
    split <;> trivial
  | prepend p c ih =>
    exact ⟨trivial, wf_append (tree_spec hp.2.1 hp.2.2).1 (ih hp.1 f hs hf).2⟩
  | append p c ih =>
    exact ⟨trivial, wf_append (ih hp.1 f hs hf).2 (tree_spec hp.2.1 hp.2.2).1⟩
  | «repeat» p n b ih ihb =>
    obtain ⟨h1, h2⟩ := ih hp.1 f hs hf
    refine ⟨trivial, ?_⟩
    simp only [meaning, repeated]
    split
    · exact copies_wf (fun i => (ihb i (hp.2 i) _ h1 h2).2) _ _
    · trivial
  | orElse p n r q ih ihr ihq =>
    obtain ⟨h1, h2⟩ := ih hp.1 f hs hf
    refine ⟨trivial, ?_⟩
    simp only [meaning]
    split
    · exact (ihr hp.2.1 _ h1 h2).2
    · exact (ihq hp.2.2 _ h1 h2).2
  | applyTemplate p g ih =>
    obtain ⟨h1, h2⟩ := ih hp.1 f hs hf
    refine ⟨trivial, ?_⟩
    simp only [meaning, applied]
    split
    · next es hes =>
      split
      · next t ht =>
        exact (treeOf_spec (hp.2 _ _ (wf_page h2 hes) ht)).1
      · trivial
    · trivial
  | contents p b ih ihb =>
    obtain ⟨h1, h2⟩ := ih hp.1 f hs hf
    simp only [meaning]
    generalize meaning p f = g at h1 h2
    cases h1 with
    | @leaf e he =>
      cases e with
      | selfClosedTag t as =>
        exact ⟨.elem, .refl _, h2.2.2.1 t rfl, (ihb hp.2 .nil trivial trivial).2, trivial⟩
      | voidTag t as => exact ⟨.leaf he, h2⟩
      | openingTag t as => exact h2.1.elim
      | _ => cases he
    | elem => exact ⟨.elem, h2.1, h2.2.1, (ihb hp.2 _ trivial h2.2.2.1).2, h2.2.2.2⟩
    | fail => exact ⟨.fail, trivial⟩
  | attr p op ih =>
    obtain ⟨h1, h2⟩ := ih hp f hs hf
    simp only [meaning]
    generalize meaning p f = g at h1 h2
    cases h1 with
    | @leaf e he =>
      cases e with
      | selfClosedTag t as =>
        exact ⟨.leaf rfl, trivial, by simp, fun u hu => h2.2.2.1 u hu, trivial⟩
      | voidTag t as =>
        exact ⟨.leaf rfl, trivial, by simp, fun u hu => h2.2.2.1 u hu, trivial⟩
      | openingTag t as => exact h2.1.elim
      | _ => cases he
    | elem => exact ⟨.elem, h2⟩
    | fail => exact ⟨.fail, trivial⟩

end Fuser
