import Verif.Spec.Attr

/-!
# Specification of selectors
-/

namespace Fuser.Spec

/-- The parts of a selector text. -/
structure SelParts where
  tag : Option (List Char)
  id : Option (List Char)
  classes : List (List Char)

/-- The id part of a selector text. -/
def idText : Option (List Char) → List Char
  | some x => '#' :: x
  | none => []

/-- The text `tag#id.class.class`. -/
def SelParts.text (p : SelParts) : List Char :=
  p.tag.getD [] ++ idText p.id ++ p.classes.flatMap ('.' :: ·)

/-- An identifier usable inside a selector text. -/
def Simple (s : List Char) : Prop := ValidIdent s ∧ '#' ∉ s ∧ '.' ∉ s

/-- Selector texts in the documented form. -/
def SelParts.WellFormed (p : SelParts) : Prop :=
  (∀ t, p.tag = some t → Simple t) ∧ (∀ i, p.id = some i → Simple i) ∧ ∀ c ∈ p.classes, Simple c

/-- How any text is cut into parts: the tag ends at the first `#` or `.`, the id at the first `.`,
classes at every `.`. -/
def SelParts.Cut (p : SelParts) : Prop :=
  (∀ t, p.tag = some t → t ≠ [] ∧ '#' ∉ t ∧ '.' ∉ t) ∧ (∀ i, p.id = some i → '.' ∉ i) ∧
    ∀ c ∈ p.classes, '.' ∉ c

/-- Name and attributes of an event that starts an element. -/
def Starts (e : Event) (tag : Identifier) (as : Attributes) : Prop :=
  e = .openingTag tag as ∨ e = .selfClosedTag tag as ∨ e = .voidTag tag as

/-- The element has the tag, the id and the classes of the selector. -/
def SelParts.Describes (p : SelParts) (tag : Identifier) (as : Attributes) : Prop :=
  (∀ t, p.tag = some t → SameName tag.str t) ∧ (∀ i, p.id = some i → HasId i as) ∧
    ∀ c ∈ p.classes, HasClass c as

/-- The error of an invalid identifier: the first applicable of the four. -/
def IdentError (s : List Char) : IdentifierError → Prop
  | .empty => s = []
  | .notAscii => s ≠ [] ∧ ¬ Ascii s
  | .whitespace c => s ≠ [] ∧ Ascii s ∧ FirstWith Space c s
  | .forbidden c => s ≠ [] ∧ Ascii s ∧ (∀ d ∈ s, ¬ Space d) ∧ FirstWith (· ∈ forbidden) c s

end Fuser.Spec
