import Verif.Spec.Grammar

/-!
# Specification of the texts a template holds
-/

namespace Fuser.Spec

/-- The texts an attribute holds. -/
def attributeTexts (a : Attribute) : List Str :=
  match a.value with
  | none => [a.name.str]
  | some v => [a.name.str, v.str]

/-- The texts an event holds, in the order in which they are written. -/
def heldTexts : Event → List Str
  | .noop => []
  | .doctype c => [c.str]
  | .comment c => [c.str]
  | .data c => [c.str]
  | .rawData c => [c.str]
  | .openingTag t as => t.str :: as.flatMap attributeTexts
  | .voidTag t as => t.str :: as.flatMap attributeTexts
  | .selfClosedTag t as => t.str :: as.flatMap attributeTexts
  | .closingTag t => [t.str]

/-- The texts are pieces of the whole: they lie in it in this order, next to each other or apart,
but without overlap. -/
inductive Lies : List Str → Str → Prop
  | nil {s} : Lies [] s
  | cons {gap x rest xs} : Lies xs rest → Lies (x :: xs) (gap ++ x ++ rest)

end Fuser.Spec
