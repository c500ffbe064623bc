import Verif.Proof.Equal
import Verif.Proof.Laws
import Verif.Props.Result

/-!
# Laws of transforms
-/

namespace Fuser

open Spec

/-! ## Parts of a page -/

/-- C80. Selections that treat all matches alike can be applied to the parts of a page separately:
on two pages one after the other they give the results one after the other, or the error of the
first page, or the error of the second page if the first page has none. -/
theorem C80_parts {k : Kind} (t u : Template) (p : Prog .gen k) (ht : Page t.events)
    (hu : Page u.events) (hp : WellNested p) (hl : Local p) :
    (∀ t' u', t.transform p = some (.ok t') → u.transform p = some (.ok u') →
      Template.transform ⟨t.events ++ u.events⟩ p = some (.ok ⟨t'.events ++ u'.events⟩)) ∧
    (∀ e, t.transform p = some (.error e) →
      Template.transform ⟨t.events ++ u.events⟩ p = some (.error e)) ∧
    (∀ t' e, t.transform p = some (.ok t') → u.transform p = some (.error e) →
      Template.transform ⟨t.events ++ u.events⟩ p = some (.error e)) := by
  have hpage : Page (t.events ++ u.events) := by
    refine ⟨balanced_append ht.1 hu.1, fun e he => ?_, fun hn => ?_⟩
    · rcases List.mem_append.1 he with he | he
      · exact ht.2.1 e he
      · exact hu.2.1 e he
    · rcases List.mem_append.1 hn with he | he
      · exact ht.2.2 he
      · exact hu.2.2 he
  rw [transform_eq p hp t ht, transform_eq p hp u hu, transform_eq p hp _ hpage,
    treeOf_append ht.1, meaning_append p hl, events_append]
  cases (meaning p (treeOf t.events)).events with
  | error e => simp [joinResult, Except.map]
  | ok es =>
    cases (meaning p (treeOf u.events)).events with
    | error e => simp [joinResult, Except.map]
    | ok fs =>
      simp only [joinResult, Except.map, Option.some.injEq, Except.ok.injEq]
      refine ⟨?_, by simp, by simp⟩
      rintro _ _ rfl rfl
      rfl

/-- Two pages for the examples. -/
def itemPage : Template :=
  ⟨[.openingTag li [], .data (.actual ['a']), .closingTag li, .data (.actual ['x'])]⟩

/-- See `itemPage`. -/
def listPage : Template :=
  ⟨[.openingTag ul [], .selfClosedTag li [], .closingTag ul]⟩

theorem itemPage_parsed : Template.fromStr "<li>a</li>x".toList {} = .ok (.ok itemPage) := rfl

theorem listPage_parsed : Template.fromStr "<ul><li/></ul>".toList {} = .ok (.ok listPage) := rfl

/-- Calls for the examples: fill every `li`, then remove every `br`. -/
def fillItems (s : String) : Prog .gen .gen :=
  Prog.select (Prog.select .src (.ok (.tag li)) fun _ => Prog.replaceContents .src (text s))
    (.ok (.tag (owned "br".toList))) fun _ => .remove .src

theorem fillItems_nested (s : String) : WellNested (fillItems s) := by
  exact ⟨⟨trivial, fun _ => ⟨trivial, trivial, text_page s⟩⟩, fun _ => trivial⟩

/-- C80: the calls are local, and the results on the pages and on both pages. -/
example : Local (fillItems "y") ∧ shown (itemPage.transform (fillItems "y")) =
      some "<li>y</li>x".toList ∧
    shown (listPage.transform (fillItems "y")) = some "<ul><li>y</li></ul>".toList ∧
    shown (Template.transform ⟨itemPage.events ++ listPage.events⟩ (fillItems "y")) =
      some "<li>y</li>x<ul><li>y</li></ul>".toList := by
  have hl : Local (fillItems "y") := by exact ⟨⟨trivial, fun _ => rfl⟩, fun _ => rfl⟩
  have h1 := transform_eq _ (fillItems_nested "y") itemPage (parsed_page itemPage_parsed)
  have h2 := transform_eq _ (fillItems_nested "y") listPage (parsed_page listPage_parsed)
  refine ⟨hl, ?_, ?_, ?_⟩
  · rw [h1]; decide +kernel
  · rw [h2]; decide +kernel
  · have h3 := (C80_parts itemPage listPage _ (parsed_page itemPage_parsed)
      (parsed_page listPage_parsed) (fillItems_nested "y") hl).1
      ⟨[.openingTag li [], .data (.static ['y']), .closingTag li, .data (.actual ['x'])]⟩
      ⟨[.openingTag ul [], .openingTag li [], .data (.static ['y']), .closingTag li,
        .closingTag ul]⟩ (h1.trans rfl) (h2.trans rfl)
    rw [h3]
    decide +kernel

/-! ## Selecting the same elements twice -/

/-- C81. Selecting elements, changing their attributes and contents so that they are still selected,
and selecting them again, is selecting them once and making both changes, for `select` and
`select_direct`. The builders may depend on the number of the match. -/
theorem C81_fuse {k k' : Kind} (t : Template) (ht : Page t.events) (p : Prog .gen k)
    (hp : WellNested p) (s : Selector) (hs : OnlyStarts s) (b : Nat → Prog .elem .elem)
    (c : Nat → Prog .elem k') (hb : ∀ i, WellNested (b i)) (hc : ∀ i, WellNested (c i))
    (hk : ∀ i, StaysSelected s (b i)) :
    t.transform (Prog.select (Prog.select p (.ok s) b) (.ok s) c) =
      t.transform (Prog.select p (.ok s) fun i => .apply (b i) (c i)) ∧
    t.transform (Prog.selectDirect (Prog.selectDirect p (.ok s) b) (.ok s) c) =
      t.transform (Prog.selectDirect p (.ok s) fun i => .apply (b i) (c i)) := by
  have hw : ∀ i, WellNested (.apply (b i) (c i)) := fun i => ⟨hb i, hc i⟩
  have key : ∀ direct, t.transform (.selectRaw (.selectRaw p s direct b) s direct c) =
      t.transform (.selectRaw p s direct fun i => .apply (b i) (c i)) := by
    intro direct
    rw [transform_eq _ (by exact ⟨⟨hp, hb⟩, hc⟩) t ht, transform_eq _ (by exact ⟨hp, hw⟩) t ht]
    simp only [meaning]
    rw [(selectTree_fuse hs direct _ (fun i => meaning (c i))
      (fun i f hf => one_keeps (b i) (hk i) hf) _ 0 0).1]
  have e1 := transform_eq (Prog.select (Prog.select p (.ok s) b) (.ok s) c)
    (by exact ⟨⟨hp, hb⟩, hc⟩) t ht
  have e2 := transform_eq (Prog.select p (.ok s) fun i => .apply (b i) (c i))
    (by exact ⟨hp, hw⟩) t ht
  have e3 := transform_eq (Prog.selectDirect (Prog.selectDirect p (.ok s) b) (.ok s) c)
    (by exact ⟨⟨hp, hb⟩, hc⟩) t ht
  have e4 := transform_eq (Prog.selectDirect p (.ok s) fun i => .apply (b i) (c i))
    (by exact ⟨hp, hw⟩) t ht
  rw [e1, e2, e3, e4]
  have k1 := key false
  have k2 := key true
  rw [transform_eq _ (by exact ⟨⟨hp, hb⟩, hc⟩) t ht, transform_eq _ (by exact ⟨hp, hw⟩) t ht]
    at k1 k2
  exact ⟨k1, k2⟩

/-- C81 for `select_once` and `select_direct_once`. -/
theorem C81_fuse_once {k k' : Kind} (t : Template) (ht : Page t.events) (p : Prog .gen k)
    (hp : WellNested p) (s : Selector) (hs : OnlyStarts s) (b : Prog .elem .elem)
    (c : Prog .elem k') (hb : WellNested b) (hc : WellNested c) (hk : StaysSelected s b) :
    t.transform (Prog.selectOnce (Prog.selectOnce p (.ok s) b) (.ok s) c) =
      t.transform (Prog.selectOnce p (.ok s) (.apply b c)) ∧
    t.transform (Prog.selectDirectOnce (Prog.selectDirectOnce p (.ok s) b) (.ok s) c) =
      t.transform (Prog.selectDirectOnce p (.ok s) (.apply b c)) := by
  have key : ∀ direct f, (selectOnceTree s direct (meaning c) 0
      (selectOnceTree s direct (meaning b) 0 f).1).1 =
      (selectOnceTree s direct (fun f => meaning c (meaning b f)) 0 f).1 := by
    intro direct f
    rw [(selectOnceTree_fuse hs direct _ (meaning c) (fun f hf => one_keeps b hk hf) f 0).1]
  have e1 := transform_eq (Prog.selectOnce (Prog.selectOnce p (.ok s) b) (.ok s) c)
    (by exact ⟨⟨hp, hb⟩, hc⟩) t ht
  have e2 := transform_eq (Prog.selectOnce p (.ok s) (.apply b c)) (by exact ⟨hp, hb, hc⟩) t ht
  have e3 := transform_eq (Prog.selectDirectOnce (Prog.selectDirectOnce p (.ok s) b) (.ok s) c)
    (by exact ⟨⟨hp, hb⟩, hc⟩) t ht
  have e4 := transform_eq (Prog.selectDirectOnce p (.ok s) (.apply b c))
    (by exact ⟨hp, hb, hc⟩) t ht
  rw [e1, e2, e3, e4]
  exact ⟨congrArg (fun f : Forest => some (f.events.map Template.mk)) (key false _),
    congrArg (fun f : Forest => some (f.events.map Template.mk)) (key true _)⟩

/-- C81, doing it again: a selection that only changes attributes, in a way that doing it twice is
doing it once and that leaves the elements selected, changes nothing when it is repeated. -/
theorem C81_again {k : Kind} (t : Template) (ht : Page t.events) (p : Prog .gen k)
    (hp : WellNested p) (s : Selector) (hs : OnlyStarts s) (b : Nat → Prog .elem .elem)
    (ho : ∀ i, OnlyAttributes (b i)) (hk : ∀ i, StaysSelected s (b i))
    (hi : ∀ i as, change (b i) (change (b i) as) = change (b i) as) :
    t.transform (Prog.select (Prog.select p (.ok s) b) (.ok s) b) =
      t.transform (Prog.select p (.ok s) b) := by
  have hw : ∀ i, WellNested (b i) := fun i => onlyAttributes_nested (ho i)
  rw [(C81_fuse t ht p hp s hs b b hw hw hk).1,
    transform_eq _ (by exact ⟨hp, fun i => ⟨hw i, hw i⟩⟩) t ht,
    transform_eq _ (by exact ⟨hp, hw⟩) t ht]
  have hb : (fun i => meaning (.apply (b i) (b i))) = fun i => meaning (b i) := by
    funext i f
    simp only [meaning, meaning_change _ (ho i)]
    cases f with
    | leaf e rest => cases e <;> simp only [onAttributes, hi]
    | elem t as f c rest => simp only [onAttributes, hi]
    | _ => rfl
  refine congrArg (fun f : Forest => some (f.events.map Template.mk)) ?_
  change (selectTree s false (fun i => meaning (.apply (b i) (b i))) 0 0 _).1 =
    (selectTree s false (fun i => meaning (b i)) 0 0 _).1
  rw [hb]

/-- C81 for `set_attribute` and `remove_attribute`. -/
theorem C81_again_attribute {k : Kind} (t : Template) (ht : Page t.events) (p : Prog .gen k)
    (hp : WellNested p) (s : Selector) (hs : OnlyStarts s) (n : Identifier) (hn : ValidIdent n.str)
    (v : Option Value) (op : AttrOp) (hop : op = .setAttribute n v ∨ op = .removeAttribute n)
    (hk : ∀ e, s.matches e = true → s.matches (withAttributes op.apply e) = true) :
    t.transform (Prog.select (Prog.select p (.ok s) fun _ => .attr .src op) (.ok s)
      fun _ => .attr .src op) = t.transform (Prog.select p (.ok s) fun _ => .attr .src op) := by
  refine C81_again t ht p hp s hs _ (fun _ => trivial) (fun _ => ⟨trivial, hk⟩) fun _ as => ?_
  change op.apply (op.apply as) = op.apply as
  rcases hop with rfl | rfl
  · exact (C08_set_attribute as n v hn).2.2.2.2 n v (SameName.refl _)
  · exact (C09_remove_attribute as n hn).2.2.2.2

/-- C81: nested and numbered matches. -/
example : StaysSelected (.tag li) (Prog.appendContents .src (text "!")) ∧
    shownMeaning "<li>a<li>b</li></li><li/>" (Prog.select
      (Prog.select .src (.ok (.tag li)) fun _ => Prog.appendContents .src (text "!"))
      (.ok (.tag li)) fun i => Prog.prependContents .src (.data (.actual (toString i).toList))) =
      some "<li>0a<li>b</li>!</li><li>1!</li>".toList ∧
    shownMeaning "<li>a<li>b</li></li><li/>" (Prog.select .src (.ok (.tag li))
      fun i => .apply (Prog.appendContents .src (text "!"))
        (Prog.prependContents .src (.data (.actual (toString i).toList)))) =
      some "<li>0a<li>b</li>!</li><li>1!</li>".toList := by
  refine ⟨⟨trivial, fun t as h => h⟩, ?_, ?_⟩ <;> decide +kernel

/-! ## Independent changes -/

/-- C82. Two selections that only change attributes can be swapped, if neither selector sees the
changes of the other selection, and both orders do the same to the elements that both select. -/
theorem C82_swap {k : Kind} (t : Template) (ht : Page t.events) (p : Prog .gen k)
    (hp : WellNested p) (s r : Selector) (hs : OnlyStarts s) (hr : OnlyStarts r)
    (b c : Nat → Prog .elem .elem) (hb : ∀ i, OnlyAttributes (b i)) (hc : ∀ i, OnlyAttributes (c i))
    (h1 : ∀ i, Blind r (change (b i))) (h2 : ∀ i, Blind s (change (c i)))
    (h3 : ∀ i j e, s.matches e = true → r.matches e = true →
      withAttributes (change (c j)) (withAttributes (change (b i)) e) =
        withAttributes (change (b i)) (withAttributes (change (c j)) e)) :
    t.transform (Prog.select (Prog.select p (.ok s) b) (.ok r) c) =
      t.transform (Prog.select (Prog.select p (.ok r) c) (.ok s) b) ∧
    t.transform (Prog.select (Prog.selectDirect p (.ok s) b) (.ok r) c) =
      t.transform (Prog.selectDirect (Prog.select p (.ok r) c) (.ok s) b) ∧
    t.transform (Prog.selectDirect (Prog.selectDirect p (.ok s) b) (.ok r) c) =
      t.transform (Prog.selectDirect (Prog.selectDirect p (.ok r) c) (.ok s) b) := by
  have hwb : ∀ i, WellNested (b i) := fun i => onlyAttributes_nested (hb i)
  have hwc : ∀ i, WellNested (c i) := fun i => onlyAttributes_nested (hc i)
  have eb : (fun i => meaning (b i)) = fun i => onAttributes (change (b i)) :=
    funext fun i => funext fun f => meaning_change _ (hb i) f
  have ec : (fun i => meaning (c i)) = fun i => onAttributes (change (c i)) :=
    funext fun i => funext fun f => meaning_change _ (hc i) f
  have key : ∀ d d', (selectTree r d' (fun i => meaning (c i)) 0 0
      (selectTree s d (fun i => meaning (b i)) 0 0 (meaning p (treeOf t.events))).1).1 =
    (selectTree s d (fun i => meaning (b i)) 0 0
      (selectTree r d' (fun i => meaning (c i)) 0 0 (meaning p (treeOf t.events))).1).1 := by
    intro d d'
    rw [eb, ec]
    exact (selectTree_commute hs hr d d' _ _ h1 h2 h3 _ 0 0 0).1
  refine ⟨?_, ?_, ?_⟩
  all_goals
    rw [transform_eq _ (by exact ⟨⟨hp, hwb⟩, hwc⟩) t ht,
      transform_eq _ (by exact ⟨⟨hp, hwc⟩, hwb⟩) t ht]
    exact congrArg (fun f : Forest => some (f.events.map Template.mk)) (key _ _)

/-- C82, when a selector of the crate does not see an attribute call: the call is about attributes
the selector does not look at. -/
theorem C82_blind (s : Selector) (hs : ∀ f, s ≠ .custom f) (op : AttrOp) (h : ValidCall op)
    (hn : ∀ n ∈ looksAt s, ¬ SameName (aboutName op) n) : Blind s op.apply :=
  blind_other hs h hn

/-- The selectors and calls of the examples for C82. -/
def titleOp : AttrOp := .setAttribute (owned "title".toList) (some (.static ['t']))

/-- See `titleOp`. -/
def langOp : AttrOp := .removeAttribute (owned "lang".toList)

/-- See `titleOp`. -/
def markedClass : Selector := .class (owned ['m'])

/-- C82: the hypotheses hold for titles on `li` elements and removal of languages on elements of a
class, which may be the same elements. -/
example : (∀ i : Nat, Blind markedClass (change (Prog.attr .src titleOp : Prog .elem .elem))) ∧
    (∀ i : Nat, Blind (.tag li) (change (Prog.attr .src langOp : Prog .elem .elem))) ∧
    (∀ e, (Selector.tag li).matches e = true → markedClass.matches e = true →
      withAttributes langOp.apply (withAttributes titleOp.apply e) =
        withAttributes titleOp.apply (withAttributes langOp.apply e)) ∧
    shownMeaning "<ul lang=\"x\"><li class=\"m\" lang=\"y\"/><li lang=\"z\"><br class=\"m\" lang></li></ul>"
      (Prog.select (Prog.select .src (.ok (.tag li)) fun _ => .attr .src titleOp)
        (.ok markedClass) fun _ => .attr .src langOp) =
      some "<ul lang=\"x\"><li class=\"m\" title=\"t\" /><li lang=\"z\" title=\"t\"><br class=\"m\"></li></ul>".toList := by
  have v1 : ValidCall titleOp := validate_iff.1 rfl
  have v2 : ValidCall langOp := validate_iff.1 rfl
  refine ⟨fun _ => C82_blind _ (by simp [markedClass]) _ v1 ?_,
    fun _ => C82_blind _ (by simp) _ v2 (by simp [looksAt]), ?_, by decide +kernel⟩
  · intro n hn
    simp only [looksAt, markedClass, List.mem_singleton] at hn
    subst hn
    exact fun h => absurd ((identifierEq_right ascii_class).2 h) (by decide +kernel)
  · have h : ∀ as, langOp.apply (titleOp.apply as) = titleOp.apply (langOp.apply as) := by
      intro as
      simp only [langOp, titleOp, AttrOp.apply, Attributes.setAttribute,
        Attributes.removeAttribute, List.filter_append]
      congr 1
      rw [List.filter_filter, List.filter_filter]
      congr 1
      funext a
      rw [Bool.and_comm]
    intro e _ _
    cases e <;> simp only [withAttributes, h]

/-- C82: two selections that see each other's changes cannot be swapped. -/
example : shownMeaning "<li/>" (Prog.select (Prog.select .src (.ok (.tag li)) fun _ =>
        .attr .src (.addClass (owned ['m']))) (.ok markedClass) fun _ => .attr .src titleOp) =
      some "<li class=\"m\" title=\"t\" />".toList ∧
    shownMeaning "<li/>" (Prog.select (Prog.select .src (.ok markedClass) fun _ =>
        .attr .src titleOp) (.ok (.tag li)) fun _ => .attr .src (.addClass (owned ['m']))) =
      some "<li class=\"m\" />".toList := by
  constructor <;> decide +kernel

/-! ## Contents -/

/-- C90. Of a content only what it gives before its first end or error matters, with that error and
without placeholders: two contents for which this is the same can be exchanged in all calls of a
transform. This needs no assumption: templates and contents may be badly nested. -/
theorem C90_contents_exchanged {k : Kind} (t : Template) (p : Prog .gen k)
    (f : Content → Content) (hf : ∀ c, visible (results (f c)) = visible (results c)) :
    t.transform (withContents f p) = t.transform p := by
  rcases C40_transform_total t p with ⟨t', h⟩ | ⟨e, h⟩ <;>
    rw [h, transform_contents hf t p h]

/-- C90 for user-defined streams: whatever they would give after their end or their first error is
never seen. -/
theorem C90_stopped_streams {k : Kind} (t : Template) (p : Prog .gen k) :
    t.transform (withContents stopped p) = t.transform p :=
  C90_contents_exchanged t p stopped fun c => congrArg visible (stopped_results c)

/-- A stream that goes on after its end, for the examples. -/
def goesOn : Content :=
  .script [.ok (some (.data (.static ['x']))), .ok none, .ok (some (.closingTag li)),
    .error (.expectedOpen none)]

/-- C90: a stream that goes on after its end, in front of and inside an element. -/
example : results goesOn = [.ok (.data (.static ['x']))] ∧
    stopped goesOn = .script [.ok (some (.data (.static ['x'])))] ∧
    PageContent goesOn ∧
    shownMeaning "<ul><li>a</li></ul>" (Prog.select .src (.ok (.tag li)) fun _ =>
      Prog.prepend (Prog.appendContents .src goesOn) goesOn) =
      some "<ul>x<li>ax</li></ul>".toList := by
  refine ⟨rfl, rfl, ⟨.leaf trivial .done, ?_⟩, by decide +kernel⟩
  intro e t he ht
  have : e = .data (.static ['x']) := by simpa [results, goesOn, untilEnd] using he
  subst this
  cases ht

/-- C90: contents that leave the page badly nested, with and without placeholders. -/
example : visible (results (.template ⟨[.noop, .closingTag li]⟩)) =
    visible (results (.resultOk (.script [.ok (some (.closingTag li)), .ok none, .ok none]))) ∧
    results (.template ⟨[.noop, .closingTag li]⟩) ≠
      results (.resultOk (.script [.ok (some (.closingTag li)), .ok none, .ok none])) :=
  ⟨rfl, by simp [results, untilEnd]⟩

end Fuser
