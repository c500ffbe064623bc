import Verif.Model.Format
import Verif.Spec.Show

/-!
# Specification of texts with format parameters
-/

namespace Fuser.Spec

/-- Where the fill characters go: after the text, unless the alignment says before it, or on both
sides with the odd one after it. -/
def Fills (f : FormatSpec) (before after : Nat) : Prop :=
  match f.align with
  | some .right => after = 0
  | some .center => before ≤ after ∧ after ≤ before + 1
  | _ => before = 0

/-- `r` is the text `s` cut to the precision and filled up to the width. -/
def Padded (f : FormatSpec) (s r : List Char) : Prop :=
  ∃ cut rest before after, s = cut ++ rest ∧
    (∀ p, f.precision = some p → cut.length ≤ p) ∧ (rest ≠ [] → f.precision = some cut.length) ∧
    r = List.replicate before f.fill ++ cut ++ List.replicate after f.fill ∧
    before + after = f.width.getD 0 - cut.length ∧ Fills f before after

/-- `r` is how the event is shown: texts are cut and filled up, markup is shown as it is. -/
def ShownAs (f : FormatSpec) (e : Event) (r : List Char) : Prop :=
  match e with
  | .data c => Padded f c.str r
  | .rawData c => Padded f c.str r
  | e => r = eventText e

end Fuser.Spec
