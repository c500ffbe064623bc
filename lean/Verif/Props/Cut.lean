import Verif.Proof.Cut
import Verif.Props.Alike
import Verif.Props.Inject

/-!
# Property C112: how texts are cut into pieces decides nothing
-/

namespace Fuser

open Spec

/-- C112. On pages with the same letters, the same calls give pages with the same letters, that
render to the same text, or fail with the same error. -/
theorem C112_cut {k : Kind} (t u : Template) (p : Prog .gen k) (hp : WellNested p)
    (hs : StartSelectors p) (hc : CutBlind p) (ht : Page t.events) (hu : Page u.events)
    (h : letters t.events = letters u.events) :
    (∃ t' u', t.transform p = some (.ok t') ∧ u.transform p = some (.ok u') ∧
      letters t'.events = letters u'.events ∧ t'.render = u'.render) ∨
    ∃ e, t.transform p = some (.error e) ∧ u.transform p = some (.error e) := by
  have key := spell_meaning p hs hc (treeOf t.events) (treeOf u.events) (ofKind_gen _) (ofKind_gen _)
    (by rw [← treeOf_letters, ← treeOf_letters, h])
  rw [transform_eq p hp t ht, transform_eq p hp u hu]
  rcases events_cases key with ⟨e, h1, h2⟩ | ⟨es, es', h1, h2, h3⟩
  · exact .inr ⟨e, by rw [h1]; rfl, by rw [h2]; rfl⟩
  · refine .inl ⟨⟨es⟩, ⟨es'⟩, by rw [h1]; rfl, by rw [h2]; rfl, h3, ?_⟩
    rw [Template.render, Template.render, ← render_letters, h3, render_letters]

/-- C112, for pages saved in between. Instead of both chains of calls in one transform, the result
of the first can be written out and read again: the second chain then gives the same text, or an
error alike. -/
theorem C112_saved {k : Kind} (t u : Template) (ms : List Event) (o : Options) (p : Prog .gen .gen)
    (q : Prog .gen k) (hp : WellNested p) (hq : WellNested q) (ht : Page t.events)
    (h : t.transform p = some (.ok u)) (hm : Normal u.events ms)
    (hv : ∀ e ∈ u.events, FlushValues e) (hf : Fits o.maxInputLen u.render)
    (hn : ∀ n, o.maxStackDepth = some n → Nests n u.events)
    (hs : StartSelectors q) (hc : CutBlind q) (hd : Steady .stored q) :
    ∃ v, Template.fromStr u.render o = .ok (.ok v) ∧
      ((∃ a b, t.transform (.apply p q) = some (.ok a) ∧ v.transform q = some (.ok b) ∧
        a.render = b.render) ∨
      ∃ e f, t.transform (.apply p q) = some (.error e) ∧ v.transform q = some (.error f) ∧
        LikeError .stored e f) := by
  have hu : Page u.events := by
    rw [transform_run, Option.map_eq_some_iff] at h
    obtain ⟨r, hr, h⟩ := h
    cases r with
    | error e => cases h
    | ok m =>
      cases h
      exact (C61_nested p hp _ _ ht (by trivial) hr).1
  have hr := (C70_render_parse_normal u.events ms o hm hu.1 hf hn).1
  refine ⟨⟨ms⟩, hr, ?_⟩
  have hg := C112_cut ⟨u.events.map ownEvent⟩ ⟨ms⟩ q hq hs hc (page_own hu) (parsed_page hr)
    (letters_normal hm hv).symm
  have hl := C78_stored u ⟨u.events.map ownEvent⟩ q q (like_own u.events)
    (like_calls_refl stored_proper (fun _ => rfl) q hd)
  rw [← C61_two_steps t u p q h]
  rcases hl with ⟨a, b, h1, h2, h3⟩ | ⟨e, f, h1, h2, h3⟩ <;>
    rcases hg with ⟨b', c, h4, h5, -, h6⟩ | ⟨e', h4, h5⟩ <;> rw [h2] at h4 <;> cases h4
  · exact .inl ⟨a, c, h1, h5, h3.trans h6⟩
  · exact .inr ⟨e, _, h1, h5, h3⟩

/-- Calls for the examples: a text at the end of each `li`. -/
def endItems (s : String) : Prog .gen .gen :=
  Prog.select .src (.ok (.tag li)) fun _ => Prog.appendContents .src (text s)

theorem endItems_nested (s : String) : WellNested (endItems s) := by
  exact ⟨trivial, fun _ => ⟨trivial, trivial, text_page s⟩⟩

theorem endItems_starts (s : String) : StartSelectors (endItems s) := by
  refine ⟨trivial, fun e h => ?_, fun _ => ⟨trivial, trivial⟩⟩
  cases e <;> first | rfl | cases h

theorem endItems_blind (s : String) : CutBlind (endItems s) := by
  exact ⟨trivial, fun _ => ⟨trivial, trivial⟩⟩

theorem endItems_steady (s : String) : Steady .stored (endItems s) := by
  exact ⟨trivial, C78_selectors stored_proper _ (by simp), fun _ => ⟨trivial, trivial⟩⟩

/-- An item with its text in one piece, and in pieces. -/
def wholeItem : Template := ⟨[.openingTag li [], .data (.actual "ab".toList), .closingTag li]⟩

/-- See `wholeItem`. -/
def cutItem : Template :=
  ⟨[.openingTag li [], .data (.actual ['a']), .data (.static []), .rawData (.static ['b']),
    .closingTag li]⟩

theorem wholeItem_page : Page wholeItem.events :=
  parsed_page (s := "<li>ab</li>".toList) (o := {}) (t := ⟨_⟩) rfl

theorem cutItem_page : Page cutItem.events := by
  refine ⟨⟨1, .element (inner := [_, _, _]) (SameName.refl _) ?_ .nil⟩, ?_, ?_⟩
  · exact .leaf trivial (.leaf trivial (.leaf trivial .nil))
  · intro e he t ht
    simp only [cutItem, List.mem_cons, List.not_mem_nil, or_false] at he
    rcases he with rfl | rfl | rfl | rfl | rfl <;> cases ht
    exact wholeItem_page.2.1 _ List.mem_cons_self _ rfl
  · simp [cutItem]

/-- C112: the hypotheses hold, and the results render the same. -/
example : letters wholeItem.events = letters cutItem.events ∧ wholeItem.events ≠ cutItem.events ∧
    shown (wholeItem.transform (endItems "c")) = some "<li>abc</li>".toList ∧
    shown (cutItem.transform (endItems "c")) = some "<li>abc</li>".toList := by
  refine ⟨rfl, by decide, ?_, ?_⟩
  · rw [transform_eq _ (endItems_nested _) _ wholeItem_page]; decide +kernel
  · rw [transform_eq _ (endItems_nested _) _ cutItem_page]; decide +kernel

/-- C112: the hypotheses hold for two chains of calls; the text written in between is `<li>abc</li>`. -/
example : ∃ u v, wholeItem.transform (endItems "c") = some (.ok u) ∧ (∀ e ∈ u.events, FlushValues e) ∧
    Normal u.events v.events ∧ u.events ≠ v.events ∧ Template.fromStr u.render {} = .ok (.ok v) ∧
    StartSelectors (endItems "d") ∧ CutBlind (endItems "d") ∧ Steady .stored (endItems "d") ∧
    shown (wholeItem.transform (.apply (endItems "c") (endItems "d"))) =
      some "<li>abcd</li>".toList ∧
    shown (v.transform (endItems "d")) = some "<li>abcd</li>".toList := by
  refine ⟨⟨[.openingTag li [], .data (.actual "ab".toList), .data (.static "c".toList),
    .closingTag li]⟩, ⟨[.openingTag li [], .data (.actual "abc".toList), .closingTag li]⟩,
    ?_, ?_, ?_, by decide, rfl, endItems_starts _, endItems_blind _, endItems_steady _, ?_, ?_⟩
  · exact (transform_eq _ (endItems_nested _) _ wholeItem_page).trans rfl
  · intro e he
    simp only [List.mem_cons, List.not_mem_nil, or_false] at he
    rcases he with rfl | rfl | rfl | rfl
    · intro a ha; cases ha
    all_goals trivial
  · exact plain_normal (by decide)
  · have hw : WellNested (.apply (endItems "c") (endItems "d")) :=
      ⟨endItems_nested _, endItems_nested _⟩
    rw [transform_eq _ hw _ wholeItem_page]; decide +kernel
  · have hr : Template.fromStr "<li>abc</li>".toList {} =
      .ok (.ok ⟨[.openingTag li [], .data (.actual "abc".toList), .closingTag li]⟩) := rfl
    rw [transform_eq _ (endItems_nested _) _ (parsed_page hr)]
    decide +kernel

/-- Calls for the limit below: texts are selected, which the crate rejects. -/
def selectTexts : Prog .gen .gen :=
  .selectRaw .src (.custom fun e => !notText e) false fun _ => .remove .src

/-- C112, a limit: a selector of the user that matches texts sees whether there is an empty one. -/
theorem C112_texts_seen : ∃ (t u : Template) (p : Prog .gen .gen), Page t.events ∧ Page u.events ∧
    letters t.events = letters u.events ∧ WellNested p ∧ CutBlind p ∧ t.transform p = some (.ok t) ∧
    ∃ e, u.transform p = some (.error e) := by
  have hw : WellNested selectTexts := by exact ⟨trivial, fun _ => trivial⟩
  have hr : Template.fromStr "<li></li>".toList {} =
    .ok (.ok ⟨[.openingTag li [], .closingTag li]⟩) := rfl
  have hu : Page [.openingTag li [], .data (.static []), .closingTag li] := by
    obtain ⟨-, h2, h3⟩ := parsed_page hr
    refine ⟨⟨1, .element (inner := [_]) (SameName.refl _) (.leaf trivial .nil) .nil⟩, ?_, by simp⟩
    intro e he t ht
    refine h2 e ?_ t ht
    simp only [List.mem_cons, List.not_mem_nil, or_false] at he ⊢
    rcases he with rfl | rfl | rfl <;> first | cases ht; done | simp
  exact ⟨_, ⟨_⟩, selectTexts, parsed_page hr, hu, rfl, hw, ⟨trivial, fun _ => trivial⟩,
    (transform_eq _ hw _ (parsed_page hr)).trans rfl, _, (transform_eq _ hw _ hu).trans rfl⟩

/-- C112, a limit: white space at the beginning of a value is lost when the page is saved. -/
theorem C112_space_lost : ∃ t v : Template, Page t.events ∧ Normal t.events v.events ∧
    Template.fromStr t.render {} = .ok (.ok v) ∧
    shown (t.transform (.src : Prog .gen .gen)) = some "<li id=\" a\" />".toList ∧
    shown (v.transform (.src : Prog .gen .gen)) = some "<li id=\"a\" />".toList := by
  have hr : Template.fromStr "<li id=\" a\" />".toList {} = .ok (.ok ⟨[.selfClosedTag li
    [⟨owned "id".toList, some (.actual ['a'])⟩]]⟩) := rfl
  have ht : Page [.selfClosedTag li [⟨owned "id".toList, some (.actual " a".toList)⟩]] := by
    refine ⟨⟨0, .leaf trivial .nil⟩, fun e he t ht => ?_, by simp⟩
    cases List.mem_singleton.1 he
    exact (parsed_page hr).2.1 _ List.mem_cons_self t ht
  have hn : Normal [.selfClosedTag li [⟨owned "id".toList, some (.actual " a".toList)⟩]]
      (joined [.selfClosedTag li [⟨owned "id".toList, some (.actual " a".toList)⟩]]) :=
    plain_normal (by decide)
  have hj : joined [.selfClosedTag li [⟨owned "id".toList, some (.actual " a".toList)⟩]] =
    [.selfClosedTag li [⟨owned "id".toList, some (.actual ['a'])⟩]] := by decide
  have hw : Template.render ⟨[.selfClosedTag li
    [⟨owned "id".toList, some (.actual " a".toList)⟩]]⟩ = "<li id=\" a\" />".toList := by decide
  rw [hj] at hn
  refine ⟨⟨[.selfClosedTag li [⟨owned "id".toList, some (.actual " a".toList)⟩]]⟩,
    ⟨[.selfClosedTag li [⟨owned "id".toList, some (.actual ['a'])⟩]]⟩, ht, hn, hw ▸ hr, ?_, ?_⟩
  · rw [transform_eq .src trivial ⟨_⟩ ht]; decide +kernel
  · rw [transform_eq .src trivial _ (parsed_page hr)]; decide +kernel

end Fuser
