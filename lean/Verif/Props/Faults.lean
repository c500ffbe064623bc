import Verif.Proof.Ending
import Verif.Props.Transform
import Verif.Proof.Decide

/-!
# Which faults of streams are reported
-/

namespace Fuser

open Spec

/-- C93. On any template, with any calls and contents, well nested or not: an error of a transform is one
that the calls bring, or it says that a closing tag is unexpected, that the closing tag of an opened
element is missing at the end, or that a selector has matched an event that does not start an element. What
is said of the event holds for it: if the events of the template have a property, and the calls keep it
(as in C71), then so has the event. -/
theorem C93_faults {k : Kind} (P : Event → Prop)
    (hopen : ∀ t as, P (.selfClosedTag t as) → P (.openingTag t as) ∧ P (.closingTag t))
    (t : Template) (p : Prog .gen k) (hk : Keeps P p) (hP : ∀ e ∈ t.events, P e) (e : StreamError)
    (h : t.transform p = some (.error e)) :
    Raises p e ∨ ∃ x, e = .assertion x ∧ Fault P (Matched p) x :=
  fault_of_transform hopen hk hP h

/-- Only list items: the closing tag that is unexpected is that of a list item, since there are no
others. -/
example : Template.transform ⟨[.closingTag li]⟩ (Prog.select .src (.ok (.tag li)) fun _ => .src) =
    some (.error (.unexpectedClose li)) ∧
    ∀ e x, Template.transform ⟨[.closingTag li]⟩ (Prog.select .src (.ok (.tag li)) fun _ => .src) =
      some (.error e) → e = .assertion x → x = .unexpectedClosingTag li := by
  refine ⟨?_, ?_⟩
  · dsimp only [Template.transform, Prog.select]
    run_machine
  · rintro _ x h rfl
    rcases C93_faults (· = .closingTag li) nofun _ _ (by exact ⟨trivial, fun _ => trivial⟩) (by simp) _ h
      with hr | ⟨_, ⟨⟩, hf⟩
    · rcases hr with hr | ⟨_, hr⟩ <;> exact hr.elim
    · clear h
      cases hf with
      | unexpected h => cases h; rfl
      | unclosed h => cases h
      | notElement h hm _ =>
        subst h
        rcases hm with hm | hm | ⟨_, hm⟩
        · exact hm.elim
        · cases hm
        · exact hm.elim

/-- An element that is not closed is noticed when its contents are wanted. -/
example : Template.transform ⟨[.openingTag li []]⟩ (Prog.select .src (.ok (.tag li)) fun _ =>
    .contents .src (.src : Prog .gen .gen)) = some (.error (.missingClose li)) := by
  dsimp only [Template.transform, Prog.select]
  run_machine

/-- C93, what is never reported: an event that is found instead of a closing tag, and the end of the
stream instead of an opening tag. -/
theorem C93_never {k : Kind} (t : Template) (p : Prog .gen k) (x : MalformedReason)
    (hr : ¬ Raises p (.assertion x)) (h : t.transform p = some (.error (.assertion x))) :
    x ≠ .expectedOpeningTag none ∧ ∀ e n, x ≠ .expectedClosingTag (some e) n := by
  rcases C93_faults (fun _ => True) (by simp) t p
    (keeps_true p) (by simp) _ h with h | ⟨y, hy, hf⟩
  · exact absurd h hr
  · cases hy
    cases hf <;> exact ⟨nofun, nofun⟩

/-- C93, selectors that only match starts of elements: no opening tag is missed, on any stream. -/
theorem C93_start_selectors {k : Kind} (t : Template) (p : Prog .gen k) (hs : StartSelectors p)
    (f : Option Event) (hr : ¬ Raises p (.assertion (.expectedOpeningTag f))) :
    t.transform p ≠ some (.error (.assertion (.expectedOpeningTag f))) := by
  intro h
  rcases C93_faults (fun _ => True) (by simp) t p
    (keeps_true p) (by simp) _ h with h | ⟨y, hy, hf⟩
  · exact hr h
  · cases hy
    cases hf with
    | notElement _ hm hn => rw [matched_start hs hm] at hn; cases hn

/-- Without the condition: the text that a custom selector matches, in an element that is not
closed. -/
example : Template.transform ⟨[.openingTag li [], .data (.static ['x'])]⟩
    (Prog.select .src (.ok (.custom fun e => e matches .data _)) fun _ => .src) =
      some (.error (.expectedOpen (some (.data (.static ['x']))))) := by
  dsimp only [Template.transform, Prog.select]
  run_machine

/-! ## What is found in place of a closing tag

The documentation of `ExpectedClosingTag` says of the event: "The event that was found instead, or `None`
at the end of input". In full:

`∀ n as es, Ascii n.str → run (.contents .src .src) (.openingTag n as :: es) =
  some (documented n as (ending n 0 es))`

This is false (`C94_found_false`): another closing tag is reported as the end of input. -/

/-- C94, all but what is reported for another closing tag: when the contents of an element are taken, and
nothing is done to them, then the element comes out up to its closing tag, and what follows it is
dropped. If instead another closing tag or the end comes, it is reported that the closing tag is missing
and that the input ended. What is missing: another closing tag is not reported as the event found. -/
theorem C94_found_partial {a : Kind} (p : Prog a .elem) (n : Identifier) (hn : Ascii n.str)
    (as : List Attribute) (ms es : List Event) (h : run p ms = some (.ok (.openingTag n as :: es))) :
    run (.contents p (.src : Prog .gen .gen)) ms = some (reported n as (ending n 0 es)) := by
  rw [← run_contents_ending hn as es]
  exact run_chain p (.contents .src .src) ms _ h

/-- A list item with an element and text inside, and text behind it. -/
example : run (.contents .src (.src : Prog .gen .gen) : Prog .elem .elem)
    [.openingTag li [], .openingTag ul [], .closingTag ul, .data (.static ['x']), .closingTag li,
      .data (.static ['y'])] =
    some (.ok [.openingTag li [], .openingTag ul [], .closingTag ul, .data (.static ['x']),
      .closingTag li]) := by
  have := C94_found_partial (.src : Prog .elem .elem) li (by decide) []
    [.openingTag li [], .openingTag ul [], .closingTag ul, .data (.static ['x']), .closingTag li,
      .data (.static ['y'])]
    [.openingTag ul [], .closingTag ul, .data (.static ['x']), .closingTag li, .data (.static ['y'])]
    (by rw [run_src]; rfl)
  rw [this]
  have h : SameName li.str li.str := by decide
  simp [ending, reported, Ending.after, h]

/-- C94 is violated: the closing tag of a list instead of that of the item is reported as the end of input,
also by a public call. -/
theorem C94_found_false :
    Template.transform ⟨[.openingTag li [], .closingTag ul, .closingTag li]⟩
      (Prog.select .src (.ok (.tag li)) fun _ => .contents .src (.src : Prog .gen .gen)) =
        some (.error (.assertion (.expectedClosingTag none li))) ∧
    ending li 0 [.closingTag ul, .closingTag li] = .stray ul ∧
    ¬ ∀ (n : Identifier) (as : List Attribute) (es : List Event), Ascii n.str →
      run (.contents .src (.src : Prog .gen .gen) : Prog .elem .elem) (.openingTag n as :: es) =
        some (documented n as (ending n 0 es)) := by
  have h : ¬ SameName ul.str li.str := by decide
  have he : ending li 0 [.closingTag ul, .closingTag li] = .stray ul := by simp [ending, h]
  refine ⟨?_, he, fun hall => ?_⟩
  · dsimp only [Template.transform, Prog.select]
    run_machine
  · have h1 := hall li [] [.closingTag ul, .closingTag li] (by decide)
    rw [run_contents_ending (by decide), he] at h1
    cases h1

end Fuser
