import Verif.Proof.Source
import Verif.Props.Parse
import Verif.Props.Show

/-!
# Properties of the texts a template holds
-/

namespace Fuser

open Spec

/-- C100. The names, values and contents a parsed template holds are pieces of the text it was
parsed from: they lie in it in the order of the template and without overlap, none was made up or
changed. -/
theorem C100_parsed (s : Str) (o : Options) (t : Template)
    (h : Template.fromStr s o = .ok (.ok t)) : Lies (t.events.flatMap heldTexts) s := by
  obtain ⟨-, d, rfl, h2, hr, -⟩ := (C58_accepted_iff s o t).1 h
  rw [← h2]
  exact reads_lies hr

/-- C100, each for itself: what a parsed template holds is found in the text, and all of it together
is no longer than the text. -/
theorem C100_pieces (s : Str) (o : Options) (t : Template)
    (h : Template.fromStr s o = .ok (.ok t)) :
    (∀ e ∈ t.events, ∀ x ∈ heldTexts e, x <:+: s) ∧
    ((t.events.flatMap heldTexts).map bytes).sum ≤ bytes s := by
  have h1 := C100_parsed s o t h
  exact ⟨fun e he x hx => h1.infix x (List.mem_flatMap.2 ⟨e, he, hx⟩), h1.bytes⟩

/-- C100, the other way: what a template holds lies in its text, in order and unchanged. -/
theorem C100_rendered (t : Template) : Lies (t.events.flatMap heldTexts) t.render := by
  rw [C87_template_text]
  exact events_lie t.events

example : ∃ t, Template.fromStr "<!DOCTYPE  Html ><A  b = \" 1\"b c><!-- --><br/>x</a >".toList {} =
      .ok (.ok t) ∧
    t.events.flatMap heldTexts = ["Html", "A", "b", "1", "b", "c", " ", "br", "x", "a"].map
      String.toList := ⟨_, rfl, rfl⟩

example : ¬ Lies ["ab".toList, "bc".toList] "abc".toList := by
  intro h
  have := h.bytes
  revert this
  decide

end Fuser
