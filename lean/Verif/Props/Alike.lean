import Verif.Props.Result
import Verif.Proof.Equal

/-!
# Properties C77 and C78: comparison of templates, and what transforms do not see
-/

namespace Fuser

open Spec

/-! ## Comparison of templates -/

/-- C77. Templates compare equal exactly if their events agree, up to ASCII case in names, and the
names are ASCII. The comparison is symmetric and transitive, every parsed template is equal to
itself, and equal templates render to texts that agree up to ASCII case. -/
theorem C77_equality (t u w : Template) :
    (t.eq u = true ↔ LikeTemplate .case t u ∧ ∀ e ∈ t.events, AsciiEvent e) ∧
    (t.eq u = true → u.eq t = true) ∧
    (t.eq u = true → u.eq w = true → t.eq w = true) ∧
    (t.eq t = true ↔ ∀ e ∈ t.events, AsciiEvent e) ∧
    (∀ s o, Template.fromStr s o = .ok (.ok t) → t.eq t = true) ∧
    (t.eq u = true → SameName t.render u.render) := by
  have hr : t.eq t = true ↔ ∀ e ∈ t.events, AsciiEvent e :=
    templateEq_iff.trans ⟨fun h => h.2, fun h =>
      ⟨List.forall₂_same.2 fun e _ => like_event_refl case_proper (fun i => sameName_refl i.str) e,
        h⟩⟩
  refine ⟨templateEq_iff, fun h => ?_, fun h h' => ?_, hr, fun s o h => hr.2 (ascii_parsed h),
    fun h => ?_⟩
  · rw [templateEq_iff] at h ⊢
    exact ⟨List.Forall₂.flip (h.1.imp fun _ _ h => like_symm h), (like_ascii_all h.1).1 h.2⟩
  · rw [templateEq_iff] at h h' ⊢
    exact ⟨forall₂_trans (R := LikeEvent .case) (fun _ _ _ => like_trans) h.1 h'.1, h.2⟩
  · exact like_render sameName_refl sameName_append (fun h => h)
      (fun h => by rw [show _ = _ from h]; exact sameName_refl _)
      (fun h => by rw [show _ = _ from h]; exact sameName_refl _) (templateEq_iff.1 h).1

/-- Compare two texts as templates, for the examples. -/
def compareSources (a b : String) : Option Bool :=
  match Template.fromStr a.toList {}, Template.fromStr b.toList {} with
  | .ok (.ok t), .ok (.ok u) => some (t.eq u)
  | _, _ => none

/-- C77: pages read from texts that differ in the case of names are equal; case in texts and values,
order of attributes, and the way an element is closed are seen. -/
example : compareSources "<P Class=\"x\">a</p>" "<p clasS=\"x\">a</P>" = some true ∧
    compareSources "<p class=\"x\">a</p>" "<p class=\"X\">a</p>" = some false ∧
    compareSources "<p class=\"x\">a</p>" "<p class=\"x\">A</p>" = some false ∧
    compareSources "<p a b></p>" "<p b a></p>" = some false ∧
    compareSources "<p></p>" "<p/>" = some false := by
  decide +kernel

/-- C77, a limit: whether a text came as a constant of the program or was computed is seen by the
comparison, though not by rendering. -/
theorem C77_storage_seen : ∃ t u : Template, t.render = u.render ∧ t.eq u = false ∧
    t.events = [.data (.static ['a'])] ∧ u.events = [.data (.actual ['a'])] :=
  ⟨⟨[.data (.static ['a'])]⟩, ⟨[.data (.actual ['a'])]⟩, rfl, rfl, rfl, rfl⟩

/-! ## Transforms of templates alike -/

/-- C78. Transforms do not tell apart what is alike: the same calls on templates alike, with
contents, attribute changes and selectors alike, fail both with errors alike or give results alike.
This holds for every likeness under which names agree up to ASCII case, and the values of ids and
classes agree. -/
theorem C78_alike {L : Likeness} (hL : L.Proper) {k : Kind} (t u : Template) (p q : Prog .gen k)
    (h : LikeTemplate L t u) (hc : LikeCalls L p q) :
    ∃ r r', t.transform p = some r ∧ u.transform q = some r' ∧ LikeOutcome L r r' := by
  obtain ⟨r, hr⟩ : ∃ r, t.transform p = some r := by
    rcases C40_transform_total t p with ⟨_, h⟩ | ⟨_, h⟩ <;> exact ⟨_, h⟩
  obtain ⟨r', hr', ho⟩ := like_transform hL hc h hr
  exact ⟨r, r', hr, hr', ho⟩

/-- C78, the selectors of the crate do not tell apart events alike. -/
theorem C78_selectors {L : Likeness} (hL : L.Proper) (s : Selector) (hs : ∀ f, s ≠ .custom f) :
    LikeSelector L s s :=
  like_selector hL hs

/-- C78 for equal templates: a transform gives equal results, or fails on both. -/
theorem C78_equal {k : Kind} (t u : Template) (p : Prog .gen k) (h : t.eq u = true)
    (hs : Steady .case p) (ha : AsciiCalls p) :
    (∃ t' u', t.transform p = some (.ok t') ∧ u.transform p = some (.ok u') ∧ t'.eq u' = true) ∨
    ∃ e f, t.transform p = some (.error e) ∧ u.transform p = some (.error f) ∧
      LikeError .case e f := by
  rw [templateEq_iff] at h
  obtain ⟨r, r', hr, hr', ho⟩ := C78_alike case_proper t u p p h.1
    (like_calls_refl case_proper (fun i => sameName_refl i.str) p hs)
  cases ho with
  | error h => exact .inr ⟨_, _, hr, hr', h⟩
  | ok h' => exact .inl ⟨_, _, hr, hr', templateEq_iff.2 ⟨h', ascii_transform ha h.2 hr⟩⟩

/-- C78 for texts stored in different ways: the results render the same. -/
theorem C78_stored {k : Kind} (t u : Template) (p q : Prog .gen k) (h : LikeTemplate .stored t u)
    (hc : LikeCalls .stored p q) :
    (∃ t' u', t.transform p = some (.ok t') ∧ u.transform q = some (.ok u') ∧
      t'.render = u'.render) ∨
    ∃ e f, t.transform p = some (.error e) ∧ u.transform q = some (.error f) ∧
      LikeError .stored e f := by
  obtain ⟨r, r', hr, hr', ho⟩ := C78_alike stored_proper t u p q h hc
  cases ho with
  | error h => exact .inr ⟨_, _, hr, hr', h⟩
  | ok h => exact .inl ⟨_, _, hr, hr', like_render (fun _ => rfl)
      (fun h h' => by rw [h, h']) (fun h => h) (fun h => h) (fun h => h) h⟩

/-- Calls for the examples: set an attribute of each `li`, and replace its contents. -/
def markItems (c : Content) (v : Value) : Prog .gen .gen :=
  Prog.select .src (.ok (.tag li)) fun _ =>
    Prog.replaceContents (Prog.attr .src (.setAttribute ⟨.static "id".toList⟩ (some v))) c

/-- Two pages that differ in the case of names, for the examples. -/
def upperPage : Template :=
  ⟨[.openingTag (owned "ul".toList) [], .openingTag (owned "LI".toList)
    [⟨owned "ID".toList, some (.actual ['a'])⟩], .data (.actual ['x']),
    .closingTag (owned "li".toList), .closingTag (owned "ul".toList)]⟩

/-- See `upperPage`. -/
def lowerPage : Template :=
  ⟨[.openingTag (owned "ul".toList) [], .openingTag (owned "li".toList)
    [⟨owned "id".toList, some (.actual ['a'])⟩], .data (.actual ['x']),
    .closingTag (owned "li".toList), .closingTag (owned "UL".toList)]⟩

theorem upperPage_parsed :
    Template.fromStr "<ul><LI ID=\"a\">x</li></ul>".toList {} = .ok (.ok upperPage) := rfl

theorem lowerPage_parsed :
    Template.fromStr "<ul><li id=\"a\">x</li></UL>".toList {} = .ok (.ok lowerPage) := rfl

theorem idName_ascii : Ascii (⟨.static "id".toList⟩ : Identifier).str := by
  unfold Ascii
  decide +kernel

theorem markItems_nested (s : String) (v : Value) : WellNested (markItems (text s) v) := by
  exact ⟨trivial, fun _ => ⟨trivial, trivial, text_page s⟩⟩

/-- C78: the hypotheses of `C78_equal` hold for the pages and calls, and the result is seen. -/
example : upperPage.eq lowerPage = true ∧ Steady .case (markItems (text "y") (.static "z".toList)) ∧
    AsciiCalls (markItems (text "y") (.static "z".toList)) ∧
    shown (upperPage.transform (markItems (text "y") (.static "z".toList))) =
      some "<ul><LI id=\"z\">y</li></ul>".toList ∧
    shown (lowerPage.transform (markItems (text "y") (.static "z".toList))) =
      some "<ul><li id=\"z\">y</li></UL>".toList := by
  refine ⟨rfl, ⟨trivial, C78_selectors case_proper _ (by simp), fun _ => ?_⟩, ?_, ?_, ?_⟩
  · exact ⟨trivial, trivial⟩
  · exact ⟨trivial, fun _ => ⟨⟨trivial, idName_ascii⟩, trivial, by
      intro e he
      have : e = .data (.static ['y']) := by simpa [results, text] using he
      subst this
      trivial⟩⟩
  · rw [C37_transform_parsed _ _ _ _ upperPage_parsed (markItems_nested _ _)]
    decide +kernel
  · rw [C37_transform_parsed _ _ _ _ lowerPage_parsed (markItems_nested _ _)]
    decide +kernel

/-- C78: calls with a constant and with a computed value are alike for `C78_stored`. -/
example : LikeCalls .stored (markItems (text "y") (.static "z".toList))
    (markItems (text "y") (.actual "z".toList)) :=
  .fallOk (.select .src (C78_selectors stored_proper (.tag li) (by simp)) fun _ =>
    .contents (.attr .src (.setAttribute rfl (.some rfl)))
      (.prepend (.remove .src) (like_results_refl stored_proper (fun _ => rfl) _)))

/-- C78: pages that are not well nested, with contents that differ in placeholders and are not well
nested either. -/
example : Template.eq ⟨[.closingTag (owned "LI".toList)]⟩ ⟨[.closingTag li]⟩ = true ∧
    LikeCalls .case (.prepend .src (.template ⟨[.noop, .openingTag (owned "UL".toList) []]⟩))
      (.prepend .src (.resultOk (.script [.ok (some (.openingTag ul []))])) : Prog .gen .gen) ∧
    Template.transform ⟨[.closingTag (owned "LI".toList)]⟩
      (.prepend .src (.template ⟨[.noop, .openingTag (owned "UL".toList) []]⟩)) =
      some (.ok ⟨[.openingTag (owned "UL".toList) [], .closingTag (owned "LI".toList)]⟩) ∧
    Template.transform ⟨[.closingTag li]⟩
      (.prepend .src (.resultOk (.script [.ok (some (.openingTag ul []))])) : Prog .gen .gen) =
      some (.ok ⟨[.openingTag ul [], .closingTag li]⟩) := by
  refine ⟨rfl, .prepend .src (.cons (.ok (.opening ?_ .nil)) .nil), ?_, ?_⟩
  · exact .cons (.inr (by decide)) (.cons (.inr (by decide)) .nil)
  · rw [transform_run, run_prepend, run_src]
    rfl
  · rw [transform_run, run_prepend, run_src]
    rfl

end Fuser
