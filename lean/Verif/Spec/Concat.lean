import Verif.Spec.Grammar

/-!
# Specification of texts and pages one after the other
-/

namespace Fuser.Spec

/-- Events one after the other, a text at the end of the first part joined with a text at the
beginning of the second part. -/
def glue : List Event → List Event → List Event
  | [], fs => fs
  | [.data a], .data b :: fs => .data (.actual (a.str ++ b.str)) :: fs
  | e :: es, fs => e :: glue es fs

/-- The position `k`, counted from the position `l`, counted from the beginning. -/
def shiftLocation (l k : Location) : Location :=
  ⟨l.line + (k.line - 1), if k.line = 1 then l.column + (k.column - 1) else k.column,
    l.offset + k.offset⟩

/-- An error with all positions counted from the position `l`. -/
def shiftError (l : Location) : ParseError → ParseError
  | .unsupportedDoctype k d => .unsupportedDoctype (shiftLocation l k) d
  | .unclosedDoctype k => .unclosedDoctype (shiftLocation l k)
  | .unclosedComment k => .unclosedComment (shiftLocation l k)
  | .expectedOpeningTagClose t k => .expectedOpeningTagClose t (shiftLocation l k)
  | .expectedClosingTagClose t k => .expectedClosingTagClose t (shiftLocation l k)
  | .expectedOpeningTagIdentifier k => .expectedOpeningTagIdentifier (shiftLocation l k)
  | .invalidOpeningTagIdentifier k e => .invalidOpeningTagIdentifier (shiftLocation l k) e
  | .expectedClosingTagIdentifier k => .expectedClosingTagIdentifier (shiftLocation l k)
  | .invalidClosingTagIdentifier k e => .invalidClosingTagIdentifier (shiftLocation l k) e
  | .invalidAttributeIdentifier k e => .invalidAttributeIdentifier (shiftLocation l k) e
  | .invalidAttributeValue k t n => .invalidAttributeValue (shiftLocation l k) t n
  | .unclosedAttributeValue k t n => .unclosedAttributeValue (shiftLocation l k) t n
  | .unexpectedInput k => .unexpectedInput (shiftLocation l k)
  | .missingClosingTags i os => .missingClosingTags (i.1, shiftLocation l i.2)
      (os.map fun o => (o.1, shiftLocation l o.2))
  | .stackLimitExceeded t k n => .stackLimitExceeded t (shiftLocation l k) n
  | .unexpectedClosingTag t k => .unexpectedClosingTag t (shiftLocation l k)
  | .mismatchedClosingTag t k u j =>
      .mismatchedClosingTag t (shiftLocation l k) u (shiftLocation l j)

end Fuser.Spec
