import Verif.Spec.Iter

/-!
# Texts of which only the beginning has been seen
-/

namespace Fuser.Spec

/-- Text, which may go on when the input goes on. -/
def isText : Event → Bool
  | .data _ => true
  | .rawData _ => true
  | _ => false

/-- The items say that the input is over: nothing but complaints about open elements. -/
def isOver : List (Except ParseError Event) → Bool
  | [] => true
  | .error (.missingClosingTags ..) :: xs => isOver xs
  | _ => false

/-- The events before the first error, without text at the very end of the input. -/
def settled : List (Except ParseError Event) → List Event
  | .ok e :: xs => if isText e && isOver xs then [] else e :: settled xs
  | _ => []

/-- The errors that lie in what has been read completely: tags that do not nest, tags nested too
deeply, and directives for other doctypes. -/
def Final : ParseError → Prop
  | .unsupportedDoctype .. => True
  | .stackLimitExceeded .. => True
  | .unexpectedClosingTag .. => True
  | .mismatchedClosingTag .. => True
  | _ => False

/-- The errors that tell that the input ended too early. -/
def Unfinished : ParseError → Prop
  | .unclosedDoctype .. => True
  | .unclosedComment .. => True
  | .unclosedAttributeValue .. => True
  | .missingClosingTags .. => True
  | _ => False

end Fuser.Spec
