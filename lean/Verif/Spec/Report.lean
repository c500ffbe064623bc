import Verif.Spec.Grammar

/-!
# Specification of what parse errors report
-/

namespace Fuser.Spec

/-- All locations in a parse error. -/
def locations : ParseError → List Location
  | .unsupportedDoctype l _ => [l]
  | .unclosedDoctype l => [l]
  | .unclosedComment l => [l]
  | .expectedOpeningTagClose _ l => [l]
  | .expectedClosingTagClose _ l => [l]
  | .expectedOpeningTagIdentifier l => [l]
  | .invalidOpeningTagIdentifier l _ => [l]
  | .expectedClosingTagIdentifier l => [l]
  | .invalidClosingTagIdentifier l _ => [l]
  | .invalidAttributeIdentifier l _ => [l]
  | .invalidAttributeValue l _ _ => [l]
  | .unclosedAttributeValue l _ _ => [l]
  | .unexpectedInput l => [l]
  | .missingClosingTags i o => i.2 :: o.map Prod.snd
  | .stackLimitExceeded _ l _ => [l]
  | .unexpectedClosingTag _ l => [l]
  | .mismatchedClosingTag _ l _ l' => [l, l']

/-- The tags a nesting error names, with their locations; `true` for closing tags. -/
def namedTags : ParseError → List (Bool × List Char × Location)
  | .missingClosingTags i o => (i :: o).map fun x => (false, x.1, x.2)
  | .stackLimitExceeded t l _ => [(false, t, l)]
  | .unexpectedClosingTag t l => [(true, t, l)]
  | .mismatchedClosingTag t l t' l' => [(false, t, l), (true, t', l')]
  | _ => []

/-- At this location of the text begins the opening or closing tag of this name. -/
def TagAt (s : List Char) (closing : Bool) (name : List Char) (l : Location) : Prop :=
  ∃ a w w' r, s = a ++ ('<' :: w ++ (if closing then '/' :: w' else []) ++ name ++ r) ∧
    Blank w ∧ Blank w' ∧ name ≠ [] ∧ (∀ c ∈ name, c ∉ terminators) ∧ Ends r ∧ l = posAfter a

/-- The text of the input an event stands for. -/
def Carries (e : Event) (p : List Char) : Prop :=
  match e with
  | .data c => p = c.str ∧ p ≠ []
  | .rawData c => p = c.str
  | .comment c => p = "<!--".toList ++ c.str ++ "-->".toList
  | .openingTag n _ => ∃ w r, p = '<' :: w ++ n.str ++ r ++ ['>'] ∧ Blank w
  | .selfClosedTag n _ => ∃ w r, p = '<' :: w ++ n.str ++ r ++ ['>'] ∧ Blank w
  | .voidTag n _ => ∃ w r, p = '<' :: w ++ n.str ++ r ++ ['>'] ∧ Blank w
  | .closingTag n => ∃ w w' w'', p = '<' :: w ++ '/' :: w' ++ n.str ++ w'' ++ ['>'] ∧ Blank w ∧
      Blank w' ∧ Blank w''
  | .doctype c => ∃ w d w' w'', p = "<!".toList ++ w ++ d ++ w' ++ c.str ++ w'' ++ ['>'] ∧
      SameName d "doctype".toList ∧ Blank w ∧ Blank w' ∧ Blank w''
  | .noop => False

/-- The attributes of a tag. -/
def attributesOf : Event → Attributes
  | .openingTag _ as => as
  | .selfClosedTag _ as => as
  | .voidTag _ as => as
  | _ => []

end Fuser.Spec
