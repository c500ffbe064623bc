import Verif.Model.Iter
import Verif.Spec.Grammar

/-!
# What the parser yields as an iterator
-/

namespace Fuser.Spec

/-- The iterator yields these items and then ends, for good: the call that yields nothing leaves the
state as it is. -/
inductive Yields : Iter → List (Except ParseError Event) → Prop
  | done {it} : it.step = .ok (none, it) → Yields it []
  | item {it x it' xs} : it.step = .ok (some x, it') → Yields it' xs → Yields it (x :: xs)

/-- The elements that are still open for the iterator after an error: the element a closing tag does
not match, and the element reported as unclosed, have been given up. -/
def stillOpen (st : List Opened) : ParseError → List Opened
  | .missingClosingTags .. => st.tail
  | .mismatchedClosingTag .. => st.tail
  | _ => st

/-- One complaint for each open element, innermost first; each lists the elements around it,
outermost first. -/
def complaints : List Opened → List ParseError
  | [] => []
  | x :: st => .missingClosingTags x.report (st.reverse.map Opened.report) :: complaints st

/-- The items up to the first error: all events, or the error. -/
def firstError : List (Except ParseError Event) → Except ParseError (List Event)
  | [] => .ok []
  | .error e :: _ => .error e
  | .ok x :: xs => match firstError xs with
    | .ok es => .ok (x :: es)
    | .error e => .error e

/-- The state is reached from another one by calls of the iterator. -/
inductive Reaches (it : Iter) : Iter → Prop
  | start : Reaches it it
  | call {it' x it''} : Reaches it it' → it'.step = .ok (x, it'') → Reaches it it''

end Fuser.Spec
