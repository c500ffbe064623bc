import Verif.Model.Parse

/-!
# Specification of the text of a template
-/

namespace Fuser.Spec

/-- The text of an attribute in a tag, with the space before it. -/
def attributeText (a : Attribute) : List Char :=
  match a.value with
  | none => ' ' :: a.name.str
  | some v => ' ' :: a.name.str ++ '=' :: '"' :: v.str ++ ['"']

/-- The text of a start tag up to its end. -/
def startText (t : Identifier) (as : Attributes) : List Char :=
  '<' :: t.str ++ (as.map attributeText).flatten

/-- The text of an event. -/
def eventText : Event → List Char
  | .noop => []
  | .doctype c => "<!doctype ".toList ++ c.str ++ ['>']
  | .comment c => "<!--".toList ++ c.str ++ "-->".toList
  | .data c => c.str
  | .rawData c => c.str
  | .openingTag t as => startText t as ++ ['>']
  | .voidTag t as => startText t as ++ ['>']
  | .selfClosedTag t as => startText t as ++ " />".toList
  | .closingTag t => "</".toList ++ t.str ++ ['>']

end Fuser.Spec
