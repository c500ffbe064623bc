import Verif.Spec.Keep
import Verif.Spec.Rewrite

/-!
# Specification of the faults that streams are reported for
-/

namespace Fuser.Spec

/-- A selector in the calls matches the event. -/
def Matched {a k : Kind} : Prog a k → Event → Prop
  | .src, _ => False
  | .forget p, e => Matched p e
  | .apply p q, e => Matched p e ∨ Matched q e
  | .fallOk p, e => Matched p e
  | .fallErr _, _ => False
  | .selectRaw p s _ b, e => Matched p e ∨ s.matches e = true ∨ ∃ i, Matched (b i) e
  | .selectOnceRaw p s _ b, e => Matched p e ∨ s.matches e = true ∨ Matched b e
  | .remove p, e => Matched p e
  | .prepend p _, e => Matched p e
  | .append p _, e => Matched p e
  | .repeat p _ b, e => Matched p e ∨ ∃ i, Matched (b i) e
  | .orElse p _ r q, e => Matched p e ∨ Matched r e ∨ Matched q e
  | .applyTemplate p _, e => Matched p e
  | .contents p b, e => Matched p e ∨ Matched b e
  | .attr p _, e => Matched p e

/-- What a report of a malformed stream may say, when `P` is what is known of the events: a closing tag
is unexpected, an opened element has no closing tag before the stream ends, or a selector has matched
something that does not start an element. -/
inductive Fault (P M : Event → Prop) : MalformedReason → Prop
  | unexpected {t} : P (.closingTag t) → Fault P M (.unexpectedClosingTag t)
  | unclosed {t as} : P (.openingTag t as) → Fault P M (.expectedClosingTag none t)
  | notElement {e} : P e → M e → isStart e = false → Fault P M (.expectedOpeningTag (some e))

/-- How the inside of an element ends: with its closing tag, after the given events, with another closing
tag, or not at all. -/
inductive Ending
  | closed (inner : List Event) (c : Identifier)
  | stray (c : Identifier)
  | unended
deriving DecidableEq

/-- An event before the end. -/
def Ending.after (e : Event) : Ending → Ending
  | .closed inner c => .closed (e :: inner) c
  | .stray c => .stray c
  | .unended => .unended

open Classical in
/-- How the inside of an element named `n` ends, where `d` elements are open in it. Placeholders are no
events. -/
noncomputable def ending (n : Identifier) : Nat → List Event → Ending
  | _, [] => .unended
  | 0, .closingTag c :: _ => if SameName c.str n.str then .closed [] c else .stray c
  | d + 1, .closingTag c :: es => (ending n d es).after (.closingTag c)
  | d, .openingTag t as :: es => (ending n (d + 1) es).after (.openingTag t as)
  | d, .noop :: es => ending n d es
  | d, e :: es => (ending n d es).after e

/-- What the documentation says is reported for an element: if its closing tag does not come, the event
that was found instead, or nothing at the end of input. -/
def documented (n : Identifier) (as : List Attribute) : Ending → Outcome
  | .closed inner c => .ok (.openingTag n as :: (inner ++ [.closingTag c]))
  | .stray c => .error (.assertion (.expectedClosingTag (some (.closingTag c)) n))
  | .unended => .error (.assertion (.expectedClosingTag none n))

/-- What is reported: the other closing tag is not shown. -/
def reported (n : Identifier) (as : List Attribute) : Ending → Outcome
  | .closed inner c => .ok (.openingTag n as :: (inner ++ [.closingTag c]))
  | .stray _ => .error (.assertion (.expectedClosingTag none n))
  | .unended => .error (.assertion (.expectedClosingTag none n))

end Fuser.Spec
