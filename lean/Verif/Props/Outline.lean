import Verif.Proof.Outline
import Verif.Props.Calls

/-!
# Property C84: calls on elements keep the element
-/

namespace Fuser

open Spec

/-- C84. An element stream holds one full element: whatever chain of calls gives an element stream
when applied to one element gives, unless it fails, one complete element, with the names of the
tags of the old one. -/
theorem C84_element (p : Prog .elem .elem) (hp : WellNested p) (m m' : List Event)
    (hm : Element m) (hpage : Page m) (h : run p m = some (.ok m')) :
    Element m' ∧ SameElement m m' := by
  rw [run_meaning p hp hpage hm] at h
  have h := Option.some.inj h
  have hs := element_single hm
  have hf := (treeOf_spec hpage).1
  have hok := meaning_ok p hp _ (by exact hs) hf
  exact ⟨single_element hok.1 hok.2 h, element_of_outline (outline_any p hp hs hf) hf hok.2 hs
    hok.1 (treeOf_events hpage) h⟩

/-- C84, for pages: calls that work element by element keep the top level of the page, i.e. its
texts, comments and doctypes, and the number, order and names of its elements. -/
theorem C84_page {k : Kind} (t t' : Template) (p : Prog .gen k) (ht : Page t.events)
    (hp : WellNested p) (he : ElementWise p) (h : t.transform p = some (.ok t')) :
    SameTop t.events t'.events := by
  rw [transform_eq p hp t ht] at h
  have h := Option.some.inj h
  have hf := (treeOf_spec ht).1
  have hok := meaning_ok p hp _ trivial hf
  cases hm : (meaning p (treeOf t.events)).events with
  | error e => rw [hm] at h; cases h
  | ok m =>
    rw [hm] at h
    cases h
    exact top_of_outline (outline_meaning p hp he trivial hf) hf hok.2 (treeOf_events ht) hm

/-- Selection, contents and attributes: the list stays one list element, although its contents are
repeated. -/
example : ∃ m', run (.attr (Prog.subselect .src (.ok (.tag li)) fun _ => .repeat .src 3 fun _ => .src)
      (.removeClass (owned ['a']))) [.openingTag ul sampleAttributes, .selfClosedTag li [],
        .closingTag ul] = some (.ok m') ∧ m'.length = 5 ∧
    SameElement [.openingTag ul sampleAttributes, .selfClosedTag li [], .closingTag ul] m' := by
  have hm : Element [.openingTag ul sampleAttributes, .selfClosedTag li [], .closingTag ul] :=
    .pair (inner := [.selfClosedTag li []]) (.refl _) ⟨0, .leaf trivial .nil⟩
  have hpage : Page [.openingTag ul sampleAttributes, .selfClosedTag li [], .closingTag ul] := by
    refine ⟨element_balanced hm, ?_, by decide⟩
    intro e he t ht
    simp only [List.mem_cons, List.not_mem_nil, or_false] at he
    rcases he with rfl | rfl | rfl
    · cases ht; unfold Ascii; decide +kernel
    · cases ht; unfold Ascii; decide +kernel
    · cases ht
  have hp : WellNested (.attr (Prog.subselect .src (.ok (.tag li)) fun _ =>
      .repeat .src 3 fun _ => .src) (.removeClass (owned ['a'])) : Prog .elem .elem) := by
    exact ⟨trivial, trivial, fun _ => ⟨trivial, fun _ => trivial⟩⟩
  have hr := run_meaning _ hp hpage hm
  exact ⟨_, hr, rfl, (C84_element _ hp _ _ hm hpage hr).2⟩

/-- The calls that are left out do not keep the top level. -/
example : ∃ t', Template.transform ⟨[.voidTag (owned "br".toList) []]⟩
    (Prog.select .src (.ok (.tag (owned "br".toList))) fun _ => .repeat .src 2 fun _ => .src) =
      some (.ok t') ∧ ¬ SameTop [.voidTag (owned "br".toList) []] t'.events := by
  have hpage : Page [.voidTag (owned "br".toList) []] := by
    refine ⟨⟨0, .leaf trivial .nil⟩, ?_, by decide⟩
    intro e he t ht
    simp only [List.mem_cons, List.not_mem_nil, or_false] at he
    subst he
    cases ht
    unfold Ascii; decide +kernel
  refine ⟨⟨[.voidTag (owned "br".toList) [], .voidTag (owned "br".toList) []]⟩, ?_, ?_⟩
  · rw [transform_eq _ (by exact ⟨trivial, fun _ => ⟨trivial, fun _ => trivial⟩⟩) _ hpage]
    rfl
  · intro h
    generalize hy : [Event.voidTag (owned "br".toList) [], .voidTag (owned "br".toList) []] = y at h
    generalize hx : [Event.voidTag (owned "br".toList) []] = x at h
    cases h with
    | nil => cases hx
    | leaf h => cases hx; cases h
    | element h₁ h₂ =>
      cases h₁ with
      | void =>
        injection hx with _ hx
        injection hy with _ hy
        subst hx
        subst hy
        cases top_nil h₂
      | selfClosed => cases hx
      | opened => cases hx
      | pair => cases hx

end Fuser
