import Verif.Proof.ElementCalls
import Verif.Props.Form

/-!
# What chains of calls on one element come down to
-/

namespace Fuser

open Spec

/-- C117. What a chain of calls about attributes and contents makes of an element: the attributes that
are not set or removed stay, in their order, and those that were set or added and not touched again
follow; the contents stay or are replaced, with events before and behind. An element closed by a slash
gets a closing tag if any call was about contents, and a void element is only changed in its
attributes. -/
theorem C117_result (cs : Chain) (h : ∀ c ∈ cs, c.Proper) (t : Identifier) (as : Attributes) :
    (∀ inner c, SameName c.str t.str → Balanced inner →
      Page (.openingTag t as :: (inner ++ [.closingTag c])) →
      run cs.calls (.openingTag t as :: (inner ++ [.closingTag c])) =
        some (.ok (.openingTag t (cs.attributes as) :: (cs.contents inner ++ [.closingTag c])))) ∧
    (Page [.selfClosedTag t as] → run cs.calls [.selfClosedTag t as] =
      some (.ok (if cs.opens then
          .openingTag t (cs.attributes as) :: (cs.contents [] ++ [.closingTag t])
        else [.selfClosedTag t (cs.attributes as)]))) ∧
    (Page [.voidTag t as] →
      run cs.calls [.voidTag t as] = some (.ok [.voidTag t (cs.attributes as)])) := by
  have hw := Chained.nested_calls h
  refine ⟨fun inner c hc hi hp => ?_, fun hp => ?_, fun hp => ?_⟩
  · rw [run_meaning _ hw hp (.pair hc hi), treeOf_pair hc hi, Chained.meaning_calls,
      Chained.effect_elem h t as _ inner c (treeOf_events (page_inner hc hi hp))]
  · rw [run_meaning _ hw hp (.selfClosed t as), Chained.meaning_calls]
    exact congrArg some (Chained.effect_selfClosed h t as)
  · rw [run_meaning _ hw hp (.void t as), Chained.meaning_calls]
    exact congrArg some (Chained.effect_void h t as)

/-- C117. Two chains do the same to every element if and only if they touch the same names, put the same
attributes in, are both about contents or both not, both keep the contents or both not, and put the
same before and behind them. -/
theorem C117_same (cs ds : Chain) (hc : ∀ c ∈ cs, c.Proper) (hd : ∀ c ∈ ds, c.Proper) :
    (∀ es, Element es → Page es → run cs.calls es = run ds.calls es) ↔ cs.Same ds := by
  constructor
  · intro h
    have ha : Ascii ['a'] := by intro c hc; simp at hc; subst hc; decide
    have hpage : ∀ es : List Event, Balanced es → (∀ e ∈ es, ∀ t, startName e = some t → t = ⟨.static ['a']⟩) →
        .noop ∉ es → Page es := fun es h1 h2 h3 => ⟨h1, fun e he t ht => by rw [h2 e he t ht]; exact ha, h3⟩
    let t : Identifier := ⟨.static ['a']⟩
    have hs : SameName t.str t.str := (identifierEq_right ha).1 (by decide)
    have hv : ∀ as, Page [.voidTag t as] := fun as => hpage _ ⟨0, .leaf trivial .nil⟩
      (by simp [startName, t]) (by simp)
    have hl : Page [.selfClosedTag t []] := hpage _ ⟨0, .leaf trivial .nil⟩
      (by simp [startName, t]) (by simp)
    have hi : ∀ inner, (∀ e ∈ inner, ∃ n, e = Chained.tally n) → Balanced inner →
        Page (.openingTag t [] :: (inner ++ [.closingTag t])) := by
      intro inner h1 h2
      obtain ⟨n, h2⟩ := h2
      refine hpage _ ⟨_, .element hs h2 .nil⟩ ?_ ?_
      · intro e he u hu
        simp only [List.mem_cons, List.mem_append, List.not_mem_nil, or_false] at he
        rcases he with rfl | he | rfl
        · cases hu; rfl
        · obtain ⟨n, rfl⟩ := h1 e he
          cases hu
        · cases hu
      · intro he
        simp only [List.mem_cons, List.mem_append, List.not_mem_nil, or_false, reduceCtorEq,
          false_or] at he
        obtain ⟨n, hn⟩ := h1 _ he
        cases hn
    have hb : ∀ n, Balanced [Chained.tally n] := fun n => ⟨0, .leaf trivial .nil⟩
    have hcont : ∀ inner, (∀ e ∈ inner, ∃ n, e = Chained.tally n) → Balanced inner →
        cs.contents inner = ds.contents inner := by
      intro inner h1 h2
      have := h _ (.pair hs h2) (hi inner h1 h2)
      rw [(C117_result cs hc t []).1 inner t hs h2 (hi inner h1 h2),
        (C117_result ds hd t []).1 inner t hs h2 (hi inner h1 h2)] at this
      simpa using (List.cons.inj (Except.ok.inj (Option.some.inj this))).2
    refine Chained.same_of (fun as => ?_) ?_ (fun n => hcont _ (by simp) (hb n))
      (hcont _ (by simp) ⟨0, .nil⟩)
    · have := h _ (.void t as) (hv as)
      rw [(C117_result cs hc t as).2.2 (hv as), (C117_result ds hd t as).2.2 (hv as)] at this
      simpa using this
    · have := h _ (.selfClosed t []) hl
      rw [(C117_result cs hc t []).2.1 hl, (C117_result ds hd t []).2.1 hl] at this
      cases h1 : cs.opens <;> cases h2 : ds.opens <;> simp [h1, h2] at this ⊢
  · intro h es hE hp
    cases hE with
    | selfClosed t as =>
      rw [(C117_result cs hc t as).2.1 hp, (C117_result ds hd t as).2.1 hp, h.opens,
        Chained.same_attributes h, Chained.same_contents h]
    | void t as =>
      rw [(C117_result cs hc t as).2.2 hp, (C117_result ds hd t as).2.2 hp, Chained.same_attributes h]
    | pair hn hi =>
      rw [(C117_result cs hc _ _).1 _ _ hn hi hp, (C117_result ds hd _ _).1 _ _ hn hi hp,
        Chained.same_attributes h, Chained.same_contents h]

/-- C117. Every chain does the same as its normal form: first the names that are touched are removed,
then attributes are added, and then there are at most two calls about contents. -/
theorem C117_normal (cs : Chain) (h : ∀ c ∈ cs, c.Proper) :
    (∀ c ∈ cs.normal, c.Proper) ∧ cs.Same cs.normal ∧
      ∀ es, Element es → Page es → run cs.calls es = run cs.normal.calls es :=
  ⟨Chained.normal_proper h, Chained.normal_same cs,
    (C117_same cs _ h (Chained.normal_proper h)).2 (Chained.normal_same cs)⟩

/-- C117. On pages: a selection can be given one chain of calls for the other, if for every match both do
the same to every element. -/
theorem C117_selected (t : Template) (s : Selector) (ht : Page t.events) (hs : OnlyStarts s)
    (cs ds : Nat → Chain) (hc : ∀ i, ∀ c ∈ cs i, c.Proper) (hd : ∀ i, ∀ c ∈ ds i, c.Proper)
    (h : ∀ i, (cs i).Same (ds i)) :
    t.transform (Prog.select .src (.ok s) fun i => (cs i).calls) =
      t.transform (Prog.select .src (.ok s) fun i => (ds i).calls) ∧
    t.transform (Prog.selectDirect .src (.ok s) fun i => (cs i).calls) =
      t.transform (Prog.selectDirect .src (.ok s) fun i => (ds i).calls) := by
  have hw := (treeOf_spec ht).1
  have hS : Sound (treeOf t.events) := sound_iff.2 ⟨_, treeOf_events ht⟩
  have key : ∀ i f, f.WF → Sound f → One s f → meaning (cs i).calls f = meaning (ds i).calls f := by
    intro i f hf hf' h1
    obtain ⟨m, hm, hE⟩ := one_events hf hf' h1
    have hp := wf_page hf hm
    have hsh : Shape .elem f := treeOf_of_events hf hm ▸ fit_shape (a := .elem) hE
    have hrun := (C117_same _ _ (hc i) (hd i)).2 (h i) m hE hp
    have n1 := Chained.nested_calls (hc i)
    have n2 := Chained.nested_calls (hd i)
    rw [run_meaning _ n1 hp hE, run_meaning _ n2 hp hE, treeOf_of_events hf hm] at hrun
    have hrun := Option.some.inj hrun
    refine same_forest (meaning_ok _ n1 f hsh hf).2 (meaning_ok _ n2 f hsh hf).2
      (sound_iff.2 ?_) hrun
    have hr : ∃ r, run (cs i).calls m = some (.ok r) := by
      cases hE with
      | selfClosed t as => exact ⟨_, (C117_result _ (hc i) t as).2.1 hp⟩
      | void t as => exact ⟨_, (C117_result _ (hc i) t as).2.2 hp⟩
      | pair hn hi => exact ⟨_, (C117_result _ (hc i) _ _).1 _ _ hn hi hp⟩
    obtain ⟨r, hr⟩ := hr
    rw [run_meaning _ n1 hp hE, treeOf_of_events hf hm] at hr
    exact ⟨r, Option.some.inj hr⟩
  constructor <;>
    rw [transform_eq _ (by exact ⟨trivial, fun i => Chained.nested_calls (hc i)⟩) t ht,
      transform_eq _ (by exact ⟨trivial, fun i => Chained.nested_calls (hd i)⟩) t ht] <;>
    exact congrArg (fun f : Forest × Nat => some (f.1.events.map Template.mk))
      (select_same hs key _ hw hS _ _)

/-! ## Cases -/

/-- A long chain and a short one that do the same. -/
def longChain : Chain :=
  [.set (owned "title".toList) (some (.static ['t'])), .add (owned "lang".toList) none,
    .before [.data (.static ['a'])], .remove (owned "TITLE".toList), .clear,
    .behind [.data (.static ['b'])]]

@[inherit_doc longChain] def shortChain : Chain :=
  [.remove (owned "title".toList), .add (owned "lang".toList) none, .instead [.data (.static ['b'])]]

theorem data_only (d : Data) : Page [.data d] :=
  ⟨⟨0, .leaf trivial .nil⟩, by simp [AsciiNames, startName], by simp⟩

theorem chains_proper : (∀ c ∈ longChain, c.Proper) ∧ ∀ c ∈ shortChain, c.Proper := by
  have h1 : ValidIdent "title".toList := validate_iff.1 rfl
  have h2 : ValidIdent "TITLE".toList := validate_iff.1 rfl
  have h3 : ValidIdent "lang".toList := validate_iff.1 rfl
  simp only [longChain, shortChain, List.mem_cons, List.not_mem_nil, or_false, forall_eq_or_imp,
    forall_eq]
  exact ⟨⟨h1, h3, data_only _, h2, trivial, data_only _⟩, h1, h3, data_only _⟩

theorem chains_same : longChain.Same shortChain := by
  have ascii : ∀ s : String, isAscii s.toList = true → Ascii s.toList := fun s h => isAscii_iff'.1 h
  have h1 : SameName "title".toList "TITLE".toList :=
    (identifierEq_right (ascii "TITLE" rfl)).1 (by decide +kernel)
  have h2 : ¬ SameName "lang".toList "TITLE".toList := fun h =>
    absurd ((identifierEq_right (ascii "TITLE" rfl)).2 h) (by decide +kernel)
  have h3 : ∀ n : Identifier, SameName n.str "TITLE".toList ↔ SameName n.str "title".toList := by
    intro n
    rw [← identifierEq_right (ascii "TITLE" rfl), ← identifierEq_right (ascii "title" rfl),
      identifierEq_comm, identifierEq_comm n.str, identifierEq_congr
        (b := "title".toList) (by decide +kernel)]
  refine ⟨fun n => ?_, ?_, rfl, rfl, fun h => absurd h (by decide), rfl⟩
  · simp only [Chain.Touches, longChain, shortChain, Chain.names, List.mem_cons, List.not_mem_nil,
      or_false, exists_eq_or_imp, exists_eq_left]
    exact ⟨fun h => h.elim id (h3 n).1, .inl⟩
  · have t1 : Chain.Touches [.add (owned "lang".toList) none, .before [.data (.static ['a'])],
        .remove (owned "TITLE".toList), .clear, .behind [.data (.static ['b'])]]
        (owned "title".toList) := ⟨_, List.mem_cons_self, h1⟩
    have t2 : ¬ Chain.Touches [.before [.data (.static ['a'])],
        .remove (owned "TITLE".toList), .clear, .behind [.data (.static ['b'])]]
        (owned "lang".toList) := by
      rintro ⟨m, hm, h⟩
      simp only [Chain.names, List.mem_cons, List.not_mem_nil, or_false] at hm
      subst hm
      exact h2 h
    have t3 : ¬ Chain.Touches [.instead [.data (.static ['b'])]] (owned "lang".toList) := by
      simp [Chain.Touches, Chain.names]
    rw [longChain, shortChain]
    simp only [Chain.left, if_pos t1, if_neg t2, if_neg t3]

/-- C117: the hypotheses hold for the two chains, and both give the same page. -/
example : (∀ es, Element es → Page es → run longChain.calls es = run shortChain.calls es) ∧
    shownMeaning "<li title=\"x\" id=\"y\">c</li><p title></p><li Title/>"
      (Prog.select .src (.ok (.tag li)) fun _ => longChain.calls) =
      some "<li id=\"y\" lang>b</li><p title></p><li lang>b</li>".toList ∧
    shownMeaning "<li title=\"x\" id=\"y\">c</li><p title></p><li Title/>"
      (Prog.select .src (.ok (.tag li)) fun _ => shortChain.calls) =
      some "<li id=\"y\" lang>b</li><p title></p><li lang>b</li>".toList :=
  ⟨(C117_same _ _ chains_proper.1 chains_proper.2).2 chains_same, by decide +kernel,
    by decide +kernel⟩

/-- C117: nothing put before the contents is not nothing, as it is seen on elements closed by a slash. -/
theorem C117_opens_seen : ¬ ∀ es, Element es → Page es →
    run (Chain.calls [.before []]) es = run (Chain.calls []) es := by
  intro h
  have := ((C117_same [.before []] [] (by
    simp only [List.mem_cons, List.not_mem_nil, or_false, forall_eq]
    exact Chained.page_nil) (by simp)).1 h).opens
  cases this

end Fuser
