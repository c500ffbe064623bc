import Verif.Spec.Rewrite
import Verif.Spec.Normal

/-!
# Specification of pages that differ in how their texts are cut into pieces
-/

namespace Fuser.Spec

/-- The event letter by letter: a text or raw text is replaced by one text for each of its letters. -/
def spelt : Event → List Event
  | .data c => c.str.map fun x => .data (.actual [x])
  | .rawData c => c.str.map fun x => .data (.actual [x])
  | e => [e]

/-- The events with all texts cut into letters. Lists of events with the same letters are the same, up
to the cutting of texts, empty texts, and whether a text is raw. -/
def letters (es : List Event) : List Event := es.flatMap spelt

/-- Both results are templates with the same letters, or the same error. -/
inductive SameLetters : Except StreamError Template → Except StreamError Template → Prop
  | ok {t u} : letters t.events = letters u.events → SameLetters (.ok t) (.ok u)
  | error {e} : SameLetters (.error e) (.error e)

/-- Functions on templates in the calls do not see how texts are cut. -/
def CutBlind {a k : Kind} : Prog a k → Prop
  | .src => True
  | .forget p => CutBlind p
  | .apply p q => CutBlind p ∧ CutBlind q
  | .fallOk p => CutBlind p
  | .fallErr _ => True
  | .selectRaw p _ _ b => CutBlind p ∧ ∀ i, CutBlind (b i)
  | .selectOnceRaw p _ _ b => CutBlind p ∧ CutBlind b
  | .remove p => CutBlind p
  | .prepend p _ => CutBlind p
  | .append p _ => CutBlind p
  | .repeat p _ b => CutBlind p ∧ ∀ i, CutBlind (b i)
  | .orElse p _ r q => CutBlind p ∧ CutBlind r ∧ CutBlind q
  | .applyTemplate p g => CutBlind p ∧
      ∀ t u, letters t.events = letters u.events → SameLetters (g t) (g u)
  | .contents p b => CutBlind p ∧ CutBlind b
  | .attr p _ => CutBlind p

/-- No value of an attribute starts with white space. -/
def FlushValues : Event → Prop
  | .openingTag _ as => ∀ a ∈ as, ∀ v c, a.value = some v → v.str.head? = some c → ¬ Space c
  | .selfClosedTag _ as => ∀ a ∈ as, ∀ v c, a.value = some v → v.str.head? = some c → ¬ Space c
  | .voidTag _ as => ∀ a ∈ as, ∀ v c, a.value = some v → v.str.head? = some c → ¬ Space c
  | _ => True

end Fuser.Spec
