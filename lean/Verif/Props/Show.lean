import Verif.Proof.Show
import Verif.Spec.Grammar

/-!
# Property C87: the text of a template
-/

namespace Fuser
open Spec

/-- C87. The text of a template is the text of its events one after the other, each in one fixed
layout: one space before each attribute and none elsewhere in tags but for the space before the slash
of self-closed tags, values in double quotes, names and texts as they are. -/
theorem C87_template_text (t : Template) : t.render = (t.events.map eventText).flatten := by
  unfold Template.render
  rw [List.flatMap_def]
  exact congrArg _ (List.map_congr_left fun e _ => event_text e)

example : (Template.mk [.doctype (.actual "html".toList), .openingTag (owned ['a'])
    [⟨owned ['b'], some (.actual "1 2".toList)⟩, ⟨owned ['C'], none⟩], .comment (.actual ['x']),
    .voidTag (owned "br".toList) [], .selfClosedTag (owned ['i']) [⟨owned ['j'], none⟩],
    .data (.actual "&amp;".toList), .closingTag (owned ['A'])]).render =
    "<!doctype html><a b=\"1 2\" C><!--x--><br><i j />&amp;</A>".toList := rfl

end Fuser
