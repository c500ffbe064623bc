import Verif.Proof.Transform

/-!
# Lemmas on selecting
-/

namespace Fuser

open Spec

theorem builtin_onlyStarts {s : Selector} (h : ∀ f, s ≠ .custom f) : OnlyStarts s := by
  intro e he
  cases s with
  | custom f => exact absurd rfl (h f)
  | _ => cases e <;> first | rfl | cases he

theorem onlyStarts_closing {s : Selector} (h : OnlyStarts s) (c : Identifier) :
    s.matches (.closingTag c) = false := by
  cases hm : s.matches (.closingTag c)
  · rfl
  · exact absurd (h _ hm) (by simp [isStart])

theorem leaf_ok {e : Event} {rest : Forest} {es : List Event}
    (h : (Forest.leaf e rest).events = .ok es) : ∃ es', rest.events = .ok es' ∧ es = e :: es' := by
  rw [events_leaf] at h
  cases hr : rest.events with
  | error e'' => rw [hr] at h; cases h
  | ok es' => rw [hr] at h; cases h; exact ⟨es', rfl, rfl⟩

theorem elem_ok {t as c} {children rest : Forest} {es : List Event}
    (h : (Forest.elem t as children c rest).events = .ok es) :
    ∃ inner es', children.events = .ok inner ∧ rest.events = .ok es' ∧
      es = .openingTag t as :: (inner ++ .closingTag c :: es') := by
  rw [events_elem] at h
  cases hc : children.events with
  | error e'' => rw [hc] at h; cases h
  | ok inner =>
    rw [hc] at h
    cases hr : rest.events with
    | error e'' => rw [hr] at h; cases h
    | ok es' => rw [hr] at h; cases h; exact ⟨inner, es', rfl, rfl, rfl⟩

theorem start_element {e : Event} (h1 : isStart e = true) (h2 : Leaf e) : Element [e] := by
  cases e with
  | selfClosedTag t as => exact .selfClosed t as
  | voidTag t as => exact .void t as
  | openingTag t as => exact h2.elim
  | _ => cases h1

theorem events_append' (f g : Forest) : (f.append g).events = andThen f.events g.events := by
  rw [events_append, andThen_eq]

theorem events_elem_ok {t as c} {children rest : Forest} {r : Outcome} :
    andThen (Forest.elem t as children c rest).events r =
      andThen (.ok [.openingTag t as]) (andThen children.events
        (andThen (.ok [.closingTag c]) (andThen rest.events r))) := by
  rw [events_elem]
  simp only [andThen_eq, joinResult_assoc]

theorem events_leaf_ok {e : Event} {rest : Forest} {r : Outcome} :
    andThen (Forest.leaf e rest).events r = andThen (.ok [e]) (andThen rest.events r) := by
  rw [events_leaf]
  simp only [andThen_eq, joinResult_assoc]

/-! ## Elements are determined by their start -/

theorem nests_prefix {n : Nat} {a : List Event} (h : Nests n a) {n' : Nat} {b : List Event}
    (h' : Nests n' b) {c c' : Identifier} {r r' : List Event}
    (heq : a ++ .closingTag c :: r = b ++ .closingTag c' :: r') : a = b ∧ c = c' ∧ r = r' := by
  induction h generalizing n' b c c' r r' with
  | nil =>
    cases h' with
    | nil => cases heq; exact ⟨rfl, rfl, rfl⟩
    | leaf he _ => cases heq; exact he.elim
    | element => cases heq
  | leaf he _ ih =>
    cases h' with
    | nil => cases heq; exact he.elim
    | leaf he' h' =>
      simp only [List.cons_append, List.cons.injEq] at heq
      obtain ⟨rfl, heq⟩ := heq
      obtain ⟨rfl, h2⟩ := ih h' heq
      exact ⟨rfl, h2⟩
    | element => obtain ⟨rfl, -⟩ := List.cons.inj heq; exact he.elim
  | element _ _ _ ih1 ih2 =>
    cases h' with
    | nil => cases heq
    | leaf he' h' => obtain ⟨rfl, -⟩ := List.cons.inj heq; exact he'.elim
    | element _ h1 h2 =>
      simp only [List.cons_append, List.append_assoc, List.cons.injEq] at heq
      obtain ⟨h0, heq⟩ := heq
      obtain ⟨rfl, rfl, heq⟩ := ih1 h1 heq
      obtain ⟨rfl, h4⟩ := ih2 h2 (by simpa using heq)
      cases h0
      exact ⟨rfl, h4⟩

theorem item_unique {e : Event} {m m' es es' : List Event} (h : Item (e :: m))
    (h' : Item (e :: m')) (heq : e :: m ++ es = e :: m' ++ es') : m = m' ∧ es = es' := by
  have key : ∀ {e : Event} {m : List Event}, Item (e :: m) → (m = [] ∧ Leaf e) ∨
      ∃ t as inner c, e = .openingTag t as ∧ m = inner ++ [.closingTag c] ∧ Balanced inner := by
    rintro e m (h | ⟨x, hx, hl⟩)
    · cases h with
      | selfClosed => exact .inl ⟨rfl, trivial⟩
      | void => exact .inl ⟨rfl, trivial⟩
      | pair hc hb => exact .inr ⟨_, _, _, _, rfl, rfl, hb⟩
    · cases hx
      exact .inl ⟨rfl, hl⟩
  rcases key h with ⟨rfl, hl⟩ | ⟨t, as, inner, c, rfl, rfl, n, hb⟩
  · rcases key h' with ⟨rfl, -⟩ | ⟨t, as, inner, c, rfl, -⟩
    · exact ⟨rfl, by simpa using heq⟩
    · exact hl.elim
  · rcases key h' with ⟨rfl, hl⟩ | ⟨t', as', inner', c', h1, rfl, n', hb'⟩
    · exact hl.elim
    · cases h1
      simp only [List.cons_append, List.append_assoc, List.cons.injEq, true_and,
        List.nil_append] at heq
      obtain ⟨rfl, rfl, rfl⟩ := nests_prefix hb hb' heq
      exact ⟨rfl, rfl⟩

theorem rewrites_unique {s : Selector} {b : Nat → List Event → Option Outcome} {i : Nat}
    {es : List Event} {r r' : Outcome} (h : Rewrites s b i es r) (h' : Rewrites s b i es r') :
    r = r' := by
  induction h generalizing r' with
  | nil => cases h'; rfl
  | @keep i e es r hm _ ih =>
    generalize hx : e :: es = x at h'
    cases h' with
    | nil => cases hx
    | keep _ h' => cases hx; rw [ih h']
    | swap _ hm' _ _ => obtain ⟨rfl, -⟩ := List.cons.inj hx; rw [hm] at hm'; cases hm'
  | @swap i e m es r r2 he hm hb _ ih =>
    generalize hx : e :: m ++ es = x at h'
    cases h' with
    | nil => cases hx
    | keep hm' _ => obtain ⟨rfl, -⟩ := List.cons.inj hx; rw [hm] at hm'; cases hm'
    | @swap _ e' m' es' r3 _ he' _ hb' h' =>
      obtain rfl : e = e' := (List.cons.inj hx).1
      obtain ⟨rfl, rfl⟩ := item_unique (.inl he) (.inl he') hx
      rw [hb] at hb'
      cases hb'
      rw [ih h']

theorem rewritesTop_unique {s : Selector} {b : Nat → List Event → Option Outcome} {i : Nat}
    {es : List Event} {r r' : Outcome} (h : RewritesTop s b i es r)
    (h' : RewritesTop s b i es r') : r = r' := by
  induction h generalizing r' with
  | nil => cases h'; rfl
  | @keep i e m es r he hm _ ih =>
    generalize hx : e :: m ++ es = x at h'
    cases h' with
    | nil => cases hx
    | @keep _ e' m' es' _ he' _ h' =>
      obtain rfl : e = e' := (List.cons.inj hx).1
      obtain ⟨rfl, rfl⟩ := item_unique he he' hx
      rw [ih h']
    | swap _ hm' _ _ => obtain ⟨rfl, -⟩ := List.cons.inj hx; rw [hm] at hm'; cases hm'
  | @swap i e m es r r2 he hm hb _ ih =>
    generalize hx : e :: m ++ es = x at h'
    cases h' with
    | nil => cases hx
    | keep _ hm' _ => obtain ⟨rfl, -⟩ := List.cons.inj hx; rw [hm] at hm'; cases hm'
    | @swap _ e' m' es' r3 _ he' _ hb' h' =>
      obtain rfl : e = e' := (List.cons.inj hx).1
      obtain ⟨rfl, rfl⟩ := item_unique (.inl he) (.inl he') hx
      rw [hb] at hb'
      cases hb'
      rw [ih h']

section select

variable {s : Selector} {k : Kind} {b : Nat → Prog .elem k}

theorem select_rewrites (hs : OnlyStarts s) (hb : ∀ i, WellNested (b i)) (f : Forest) (hf : f.WF)
    {es : List Event} (h : f.events = .ok es) {level count : Nat} {rest : List Event} {r : Outcome}
    (hr : Rewrites s (fun i => run (b i))
      (selectTree s false (fun i => meaning (b i)) level count f).2 rest r) :
    Rewrites s (fun i => run (b i)) count (es ++ rest)
      (andThen (selectTree s false (fun i => meaning (b i)) level count f).1.events r) := by
  induction f generalizing es level count rest r with
  | nil =>
    cases h
    rw [show (selectTree s false (fun i => meaning (b i)) level count .nil).1.events = .ok [] from rfl,
      nil_andThen]
    exact hr
  | fail e => cases h
  | leaf e f ih =>
    obtain ⟨es', h', rfl⟩ := leaf_ok h
    rw [selectTree] at hr ⊢
    simp only [inScope, Bool.not_false, Bool.true_or, Bool.true_and] at hr ⊢
    by_cases hm : s.matches e = true
    · rw [if_pos hm] at hr ⊢
      have hst := hs e hm
      have hsin : single e = .leaf e .nil := by rw [single, if_pos hst]
      simp only [hsin]
      rw [events_append', andThen_assoc]
      refine .swap (m := []) (start_element hst hf.1) hm ?_ (ih hf.2.2.2 h' hr)
      exact run_forest _ (hb count) (f := .leaf e .nil) (.leaf hst)
        ⟨hf.1, hf.2.1, hf.2.2.1, trivial⟩ rfl
    · rw [if_neg hm] at hr ⊢
      simp only at hr ⊢
      rw [events_leaf_ok]
      exact .keep (by simpa using hm) (ih hf.2.2.2 h' hr)
  | elem t as children c f ih1 ih2 =>
    obtain ⟨inner, es', h1, h2, rfl⟩ := elem_ok h
    rw [selectTree] at hr ⊢
    simp only [inScope, Bool.not_false, Bool.true_or, Bool.true_and, onlyStarts_closing hs] at hr ⊢
    by_cases hm : s.matches (.openingTag t as) = true
    · rw [if_pos hm] at hr ⊢
      simp only at hr ⊢
      rw [events_append', andThen_assoc]
      have he : Event.openingTag t as :: (inner ++ .closingTag c :: es') ++ rest =
          .openingTag t as :: (inner ++ [.closingTag c]) ++ (es' ++ rest) := by simp
      rw [he]
      refine .swap (.pair hf.1 (wf_balanced hf.2.2.1 h1).1) hm ?_ (ih2 hf.2.2.2 h2 hr)
      refine run_forest _ (hb count) .elem (f := .elem t as children c .nil)
        ⟨hf.1, hf.2.1, hf.2.2.1, trivial⟩ ?_
      rw [events_elem, h1]
      rfl
    · rw [if_neg hm] at hr ⊢
      simp only [Bool.false_eq_true, if_false] at hr ⊢
      rw [events_elem_ok]
      have he : Event.openingTag t as :: (inner ++ .closingTag c :: es') ++ rest =
          .openingTag t as :: (inner ++ (.closingTag c :: (es' ++ rest))) := by simp
      rw [he]
      exact .keep (by simpa using hm) (ih1 hf.2.2.1 h1
        (.keep (onlyStarts_closing hs c) (ih2 hf.2.2.2 h2 hr)))

theorem inScope_deep (level : Nat) : inScope true (level + 1) = false := rfl

theorem select_deep (mean : Nat → Forest → Forest) (level count : Nat) (f : Forest) :
    selectTree s true mean (level + 1) count f = (f, count) := by
  induction f generalizing level count with
  | nil => rfl
  | fail e => rfl
  | leaf e f ih => simp [selectTree, inScope_deep, ih]
  | elem t as children c f ih1 ih2 => simp [selectTree, inScope_deep, ih1, ih2]

theorem select_rewritesTop (hs : OnlyStarts s) (hb : ∀ i, WellNested (b i)) (f : Forest)
    (hf : f.WF) {es : List Event} (h : f.events = .ok es) {count : Nat} :
    RewritesTop s (fun i => run (b i)) count es
      (selectTree s true (fun i => meaning (b i)) 0 count f).1.events := by
  induction f generalizing es count with
  | nil => cases h; exact .nil
  | fail e => cases h
  | leaf e f ih =>
    obtain ⟨es', h', rfl⟩ := leaf_ok h
    rw [selectTree]
    have hsc : inScope true 0 = true := rfl
    simp only [hsc, Bool.true_and]
    by_cases hm : s.matches e = true
    · rw [if_pos hm]
      have hst := hs e hm
      have hsin : single e = .leaf e .nil := by rw [single, if_pos hst]
      simp only [hsin]
      rw [events_append']
      refine .swap (m := []) (start_element hst hf.1) hm ?_ (ih hf.2.2.2 h')
      exact run_forest _ (hb count) (f := .leaf e .nil) (.leaf hst)
        ⟨hf.1, hf.2.1, hf.2.2.1, trivial⟩ rfl
    · rw [if_neg hm]
      simp only
      rw [events_leaf, ← andThen_eq]
      exact .keep (m := []) (.inr ⟨e, rfl, hf.1⟩) (by simpa using hm) (ih hf.2.2.2 h')
  | elem t as children c f ih1 ih2 =>
    obtain ⟨inner, es', h1, h2, rfl⟩ := elem_ok h
    rw [selectTree]
    have hsc : inScope true 0 = true := rfl
    have he : Event.openingTag t as :: (inner ++ .closingTag c :: es') =
        .openingTag t as :: (inner ++ [.closingTag c]) ++ es' := by simp
    have hel : Element (.openingTag t as :: (inner ++ [.closingTag c])) :=
      .pair hf.1 (wf_balanced hf.2.2.1 h1).1
    rw [he]
    simp only [hsc, Bool.true_and, select_deep, inScope_deep, Bool.false_and, Bool.false_eq_true,
      if_false]
    by_cases hm : s.matches (.openingTag t as) = true
    · rw [if_pos hm, events_append']
      refine .swap hel hm ?_ (ih2 hf.2.2.2 h2)
      refine run_forest _ (hb count) .elem (f := .elem t as children c .nil)
        ⟨hf.1, hf.2.1, hf.2.2.1, trivial⟩ ?_
      rw [events_elem, h1]
      rfl
    · rw [if_neg hm]
      have : (Forest.elem t as children c
          (selectTree s true (fun i => meaning (b i)) 0 count f).1).events =
          andThen (.ok (.openingTag t as :: (inner ++ [.closingTag c])))
            (selectTree s true (fun i => meaning (b i)) 0 count f).1.events := by
        rw [events_elem, h1, andThen_eq]
        cases (selectTree s true (fun i => meaning (b i)) 0 count f).1.events <;>
          simp [joinResult]
      rw [this]
      exact .keep (.inl hel) (by simpa using hm) (ih2 hf.2.2.2 h2)

/-- Without calls in the builder nothing changes. -/
theorem select_id (hs : OnlyStarts s) (direct : Bool) (f : Forest) (level count : Nat) :
    (selectTree s direct (fun _ f => f) level count f).1 = f := by
  induction f generalizing level count with
  | nil => rfl
  | fail e => rfl
  | leaf e f ih =>
    rw [selectTree]
    split
    · next hm =>
      have hst := hs e (by simpa using (Bool.and_eq_true_iff.1 hm).2)
      simp only [single, if_pos hst, ih]
      rfl
    · simp only [ih]
  | elem t as children c f ih1 ih2 =>
    rw [selectTree]
    simp only [onlyStarts_closing hs, Bool.and_false, Bool.false_eq_true, if_false, ih1, ih2]
    split <;> rfl

end select

section once

variable {s : Selector} {k : Kind} {b : Prog .elem k}

/-- What selecting the first match does to a list of events. -/
def OnceResult (s : Selector) (b : List Event → Option Outcome) (Before : List Event → Prop)
    (es : List Event) (r : Outcome) (found : Bool) : Prop :=
  (found = false ∧ Before es ∧ r = .ok es) ∨
  (found = true ∧ ∃ u e m v x, es = u ++ (e :: m ++ v) ∧ Before u ∧ Element (e :: m) ∧
    s.matches e = true ∧ b (e :: m) = some x ∧ r = andThen (.ok u) (andThen x (.ok v)))

theorem once_found {f : Forest} (hs : OnlyStarts s) (hb : WellNested b) (hf : f.WF)
    {es : List Event} (h : f.events = .ok es) {level : Nat} :
    OnceResult s (run b) (fun u => ∀ e ∈ u, s.matches e = false) es
      (selectOnceTree s false (meaning b) level f).1.events
      (selectOnceTree s false (meaning b) level f).2 := by
  induction f generalizing es level with
  | nil => cases h; exact .inl ⟨rfl, by simp, rfl⟩
  | fail e => cases h
  | leaf e f ih =>
    obtain ⟨es', h', rfl⟩ := leaf_ok h
    rw [selectOnceTree]
    simp only [inScope, Bool.not_false, Bool.true_or, Bool.true_and]
    by_cases hm : s.matches e = true
    · rw [if_pos hm]
      have hst := hs e hm
      have hsin : single e = .leaf e .nil := by rw [single, if_pos hst]
      refine .inr ⟨rfl, [], e, [], es', (meaning b (.leaf e .nil)).events, rfl, by simp,
        start_element hst hf.1, hm, ?_, ?_⟩
      · exact run_forest _ hb (f := .leaf e .nil) (.leaf hst)
          ⟨hf.1, hf.2.1, hf.2.2.1, trivial⟩ rfl
      · simp only [hsin]
        rw [events_append', h', nil_andThen]
    · rw [if_neg hm]
      simp only
      rw [events_leaf, ← andThen_eq]
      rcases ih hf.2.2.2 h' (level := level) with ⟨h1, h2, h3⟩ | ⟨h1, u, e', m, v, x, rfl, h3, h4⟩
      · exact .inl ⟨h1, by simpa using ⟨by simpa using hm, h2⟩, by rw [h3]; rfl⟩
      · refine .inr ⟨h1, e :: u, e', m, v, x, by simp, by simpa using ⟨by simpa using hm, h3⟩,
          h4.1, h4.2.1, h4.2.2.1, ?_⟩
        rw [h4.2.2.2, ← andThen_assoc]
        rfl
  | elem t as children c f ih1 ih2 =>
    obtain ⟨inner, es', h1, h2, rfl⟩ := elem_ok h
    rw [selectOnceTree]
    simp only [inScope, Bool.not_false, Bool.true_or, Bool.true_and, onlyStarts_closing hs,
      Bool.false_eq_true, if_false]
    by_cases hm : s.matches (.openingTag t as) = true
    · rw [if_pos hm]
      refine .inr ⟨rfl, [], .openingTag t as, inner ++ [.closingTag c], es',
        (meaning b (.elem t as children c .nil)).events, by simp, by simp,
        .pair hf.1 (wf_balanced hf.2.2.1 h1).1, hm, ?_, ?_⟩
      · refine run_forest _ hb .elem (f := .elem t as children c .nil)
          ⟨hf.1, hf.2.1, hf.2.2.1, trivial⟩ ?_
        rw [events_elem, h1]
        rfl
      · rw [events_append', h2, nil_andThen]
    · rw [if_neg hm]
      have hm' : s.matches (.openingTag t as) = false := by simpa using hm
      rcases ih1 hf.2.2.1 h1 (level := level + 1) with
        ⟨h3, h4, h5⟩ | ⟨h3, u, e', m, v, x, rfl, h4, h5, h6, h7, h8⟩
      · rw [h3]
        simp only [Bool.false_eq_true, if_false]
        have hev : ∀ g : Forest, (Forest.elem t as
            (selectOnceTree s false (meaning b) (level + 1) children).1 c g).events =
            andThen (.ok (.openingTag t as :: (inner ++ [.closingTag c]))) g.events := by
          intro g
          rw [events_elem, h5, andThen_eq]
          cases g.events <;> simp [joinResult]
        rw [hev]
        have hun : ∀ e ∈ Event.openingTag t as :: (inner ++ [.closingTag c]),
            s.matches e = false := by
          simpa [or_imp, forall_and, onlyStarts_closing hs, hm'] using h4
        rcases ih2 hf.2.2.2 h2 (level := level) with
          ⟨g1, g2, g3⟩ | ⟨g1, u, e', m, v, x, rfl, g3, g4, g5, g6, g7⟩
        · refine .inl ⟨g1, ?_, by rw [g3, andThen_ok]; simp⟩
          have : Event.openingTag t as :: (inner ++ .closingTag c :: es') =
            (.openingTag t as :: (inner ++ [.closingTag c])) ++ es' := by simp
          rw [this]
          intro e he
          rcases List.mem_append.1 he with he | he
          · exact hun e he
          · exact g2 e he
        · refine .inr ⟨g1, .openingTag t as :: (inner ++ [.closingTag c]) ++ u, e', m, v, x,
            by simp, ?_, g4, g5, g6, ?_⟩
          · intro e he
            rcases List.mem_append.1 he with he | he
            · exact hun e he
            · exact g3 e he
          · rw [g7, ← andThen_assoc]
            rfl
      · simp only [h3, if_true]
        refine .inr ⟨rfl, .openingTag t as :: u, e', m, v ++ .closingTag c :: es', x, by simp,
          by simpa using ⟨hm', h4⟩, h5, h6, h7, ?_⟩
        rw [events_elem, h2, h8]
        cases x <;> simp [andThen_eq, joinResult]

theorem once_deep (mean : Forest → Forest) (level : Nat) (f : Forest) :
    selectOnceTree s true mean (level + 1) f = (f, false) := by
  induction f generalizing level with
  | nil => rfl
  | fail e => rfl
  | leaf e f ih => simp [selectOnceTree, inScope_deep, ih]
  | elem t as children c f ih1 ih2 => simp [selectOnceTree, inScope_deep, ih1, ih2]

theorem once_foundTop {f : Forest} (hs : OnlyStarts s) (hb : WellNested b) (hf : f.WF)
    {es : List Event} (h : f.events = .ok es) :
    OnceResult s (run b) (NoneOnTop s) es
      (selectOnceTree s true (meaning b) 0 f).1.events
      (selectOnceTree s true (meaning b) 0 f).2 := by
  induction f generalizing es with
  | nil => cases h; exact .inl ⟨rfl, .nil, rfl⟩
  | fail e => cases h
  | leaf e f ih =>
    obtain ⟨es', h', rfl⟩ := leaf_ok h
    rw [selectOnceTree]
    have hsc : inScope true 0 = true := rfl
    simp only [hsc, Bool.true_and]
    by_cases hm : s.matches e = true
    · rw [if_pos hm]
      have hst := hs e hm
      have hsin : single e = .leaf e .nil := by rw [single, if_pos hst]
      refine .inr ⟨rfl, [], e, [], es', (meaning b (.leaf e .nil)).events, rfl, .nil,
        start_element hst hf.1, hm, ?_, ?_⟩
      · exact run_forest _ hb (f := .leaf e .nil) (.leaf hst)
          ⟨hf.1, hf.2.1, hf.2.2.1, trivial⟩ rfl
      · simp only [hsin]
        rw [events_append', h', nil_andThen]
    · rw [if_neg hm]
      simp only
      rw [events_leaf, ← andThen_eq]
      have hi : Item [e] := .inr ⟨e, rfl, hf.1⟩
      have hm' : s.matches e = false := by simpa using hm
      rcases ih hf.2.2.2 h' with ⟨h1, h2, h3⟩ | ⟨h1, u, e', m, v, x, rfl, h3, h4⟩
      · exact .inl ⟨h1, .cons (m := []) hi hm' h2, by rw [h3]; rfl⟩
      · refine .inr ⟨h1, e :: u, e', m, v, x, by simp, .cons (m := []) hi hm' h3,
          h4.1, h4.2.1, h4.2.2.1, ?_⟩
        rw [h4.2.2.2, ← andThen_assoc]
        rfl
  | elem t as children c f ih1 ih2 =>
    obtain ⟨inner, es', h1, h2, rfl⟩ := elem_ok h
    rw [selectOnceTree]
    have hsc : inScope true 0 = true := rfl
    have he : Event.openingTag t as :: (inner ++ .closingTag c :: es') =
        .openingTag t as :: (inner ++ [.closingTag c]) ++ es' := by simp
    have hel : Element (.openingTag t as :: (inner ++ [.closingTag c])) :=
      .pair hf.1 (wf_balanced hf.2.2.1 h1).1
    rw [he]
    simp only [hsc, Bool.true_and, once_deep, inScope_deep, Bool.false_and, Bool.false_eq_true,
      if_false]
    by_cases hm : s.matches (.openingTag t as) = true
    · rw [if_pos hm]
      refine .inr ⟨rfl, [], .openingTag t as, inner ++ [.closingTag c], es',
        (meaning b (.elem t as children c .nil)).events, by simp, .nil, hel, hm, ?_, ?_⟩
      · refine run_forest _ hb .elem (f := .elem t as children c .nil)
          ⟨hf.1, hf.2.1, hf.2.2.1, trivial⟩ ?_
        rw [events_elem, h1]
        rfl
      · rw [events_append', h2, nil_andThen]
    · rw [if_neg hm]
      have hm' : s.matches (.openingTag t as) = false := by simpa using hm
      have hev : ∀ g : Forest, (Forest.elem t as children c g).events =
          andThen (.ok (.openingTag t as :: (inner ++ [.closingTag c]))) g.events := by
        intro g
        rw [events_elem, h1, andThen_eq]
        cases g.events <;> simp [joinResult]
      rw [hev]
      rcases ih2 hf.2.2.2 h2 with ⟨g1, g2, g3⟩ | ⟨g1, u, e', m, v, x, rfl, g3, g4, g5, g6, g7⟩
      · exact .inl ⟨g1, .cons (.inl hel) hm' g2, by rw [g3, andThen_ok]⟩
      · refine .inr ⟨g1, .openingTag t as :: (inner ++ [.closingTag c]) ++ u, e', m, v, x,
          by simp, .cons (.inl hel) hm' g3, g4, g5, g6, ?_⟩
        rw [g7, ← andThen_assoc]
        rfl

theorem once_id (hs : OnlyStarts s) (direct : Bool) (f : Forest) (level : Nat) :
    (selectOnceTree s direct (fun f => f) level f).1 = f := by
  induction f generalizing level with
  | nil => rfl
  | fail e => rfl
  | leaf e f ih =>
    rw [selectOnceTree]
    split
    · next hm =>
      have hst := hs e (by simpa using (Bool.and_eq_true_iff.1 hm).2)
      simp only [single, if_pos hst]
      rfl
    · simp only [ih]
  | elem t as children c f ih1 ih2 =>
    rw [selectOnceTree]
    simp only [onlyStarts_closing hs, Bool.and_false, Bool.false_eq_true, if_false, ih1, ih2]
    repeat' split
    all_goals rfl

end once

/-! ## Selecting without matches, on any balanced stream and with any builder -/

theorem ofResults_element (t as c) (inner es : List Event) (x : Out) :
    (Out.ofResults ((Event.openingTag t as :: (inner ++ .closingTag c :: es)).map .ok)).append x =
      .ev (.openingTag t as) ((Out.ofResults (inner.map .ok)).append (.ev (.closingTag c)
        ((Out.ofResults (es.map .ok)).append x))) := by
  rw [List.map_cons, Out.ofResults_cons (by simp), Out.append]
  congr 1
  have : ∀ l : List Event, (Out.ofResults ((l ++ .closingTag c :: es).map .ok)) =
      (Out.ofResults (l.map .ok)).append (.ev (.closingTag c) (Out.ofResults (es.map .ok))) := by
    intro l
    induction l with
    | nil => rfl
    | cons e l ih =>
      by_cases he : e = .noop
      · subst he
        exact ih
      · rw [List.cons_append, List.map_cons, List.map_cons, Out.ofResults_cons he,
          Out.ofResults_cons he, ih]
        rfl
  rw [this, Out.append_assoc]
  rfl

theorem scan_plain {s : Selector} {direct : Bool} {k : Kind} {b : Nat → Prog .elem k}
    {Post : Env → Prop} {n : Nat} {es : List Event} (h : Nests n es) (hn : .noop ∉ es)
    (hm : ∀ e ∈ es, s.matches e = false) {level count : Nat} {env : Env} {src : Node} {o o' : Out}
    (hr : Run Post env src ((Out.ofResults (es.map .ok)).append o))
    (hk : ∀ env' src', Run Post env' src' o →
      Run Post env' (.selScan src' s direct k b count level) o') :
    Run Post env (.selScan src s direct k b count level)
      ((Out.ofResults (es.map .ok)).append o') := by
  induction h generalizing level env src o o' with
  | nil => exact hk _ _ hr
  | @leaf n e es he _ ih =>
    simp only [List.mem_cons, not_or] at hn
    have hne : e ≠ .noop := fun h => hn.1 h.symm
    simp only [List.mem_cons, forall_eq_or_imp] at hm
    rw [List.map_cons, Out.ofResults_cons hne] at hr ⊢
    exact scan_pass hr (by simp [hm.1]) (levelAdjust_leaf he)
      fun env' src' hr => ih hn.2 hm.2 hr hk
  | @element n t as c inner es hc _ _ ih1 ih2 =>
    simp only [List.mem_cons, List.mem_append, not_or] at hn
    simp only [List.mem_cons, List.mem_append, or_imp, forall_and, forall_eq] at hm
    rw [ofResults_element] at hr ⊢
    refine scan_pass hr (by simp [hm.1]) (level' := level + 1) rfl fun env' src' hr => ?_
    refine ih1 hn.2.1 hm.2.1 hr fun env' src' hr => ?_
    refine scan_pass hr (by simp [hm.2.2.1]) (levelAdjust_closing level c) fun env' src' hr => ?_
    exact ih2 hn.2.2.2 hm.2.2.2 hr hk

end Fuser
