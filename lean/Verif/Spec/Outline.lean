import Verif.Spec.Rewrite

/-!
# Specification of what calls on elements keep
-/

namespace Fuser.Spec

/-- The second event list is the element of the first with other attributes and contents: the names
in its tags are kept, a void element stays void. A self-closed element may have become a pair of
tags. -/
inductive SameElement : List Event → List Event → Prop
  | void {t as as'} : SameElement [.voidTag t as] [.voidTag t as']
  | selfClosed {t as as'} : SameElement [.selfClosedTag t as] [.selfClosedTag t as']
  | opened {t as as' inner'} : Balanced inner' →
      SameElement [.selfClosedTag t as] (.openingTag t as' :: (inner' ++ [.closingTag t]))
  | pair {t as as' inner inner' c} : Balanced inner → Balanced inner' →
      SameElement (.openingTag t as :: (inner ++ [.closingTag c]))
        (.openingTag t as' :: (inner' ++ [.closingTag c]))

/-- The same at the top level: the same text, comments and doctypes, and between them the same
elements with other attributes and contents. -/
inductive SameTop : List Event → List Event → Prop
  | nil : SameTop [] []
  | leaf {e r r'} : startName e = none → Leaf e → SameTop r r' → SameTop (e :: r) (e :: r')
  | element {m m' r r'} : SameElement m m' → SameTop r r' → SameTop (m ++ r) (m' ++ r')

/-- Chains of calls that keep a stream of elements: every call but `remove`, `prepend`, `append`,
`replace`, `repeat`, their `or_else` forms and `apply_as_template`, and builders of selections are
of the kind that gives an element. What is done to contents is arbitrary. -/
def ElementWise {a k : Kind} : Prog a k → Prop
  | .src => True
  | .forget p => ElementWise p
  | .apply p q => ElementWise p ∧ ElementWise q
  | .fallOk p => ElementWise p
  | .fallErr _ => True
  | .selectRaw (k' := k') p _ _ _ => k' = .elem ∧ ElementWise p
  | .selectOnceRaw (k' := k') p _ _ _ => k' = .elem ∧ ElementWise p
  | .remove _ => False
  | .prepend _ _ => False
  | .append _ _ => False
  | .repeat _ _ _ => False
  | .orElse p _ r q => ElementWise p ∧ ElementWise r ∧ ElementWise q
  | .applyTemplate _ _ => False
  | .contents _ _ => True
  | .attr _ _ => True

end Fuser.Spec
