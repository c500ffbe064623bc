import Verif.Model.Errors
import Verif.Spec.Report

/-!
# Specification of error messages, descriptions and causes
-/

namespace Fuser.Spec

/-- The kinds of parse errors. -/
inductive ParseKind
  | doctypeUnsupported | doctypeUnclosed | commentUnclosed
  | openingUnfinished | closingUnfinished
  | openingNameMissing | openingNameInvalid | closingNameMissing | closingNameInvalid
  | attributeNameInvalid | valueInvalid | valueUnclosed
  | unexpectedInput | elementsUnclosed | tooDeep | closingUnexpected | closingMismatched
  deriving DecidableEq

/-- The kind of a parse error. -/
def parseKind : ParseError → ParseKind
  | .unsupportedDoctype _ _ => .doctypeUnsupported
  | .unclosedDoctype _ => .doctypeUnclosed
  | .unclosedComment _ => .commentUnclosed
  | .expectedOpeningTagClose _ _ => .openingUnfinished
  | .expectedClosingTagClose _ _ => .closingUnfinished
  | .expectedOpeningTagIdentifier _ => .openingNameMissing
  | .invalidOpeningTagIdentifier _ _ => .openingNameInvalid
  | .expectedClosingTagIdentifier _ => .closingNameMissing
  | .invalidClosingTagIdentifier _ _ => .closingNameInvalid
  | .invalidAttributeIdentifier _ _ => .attributeNameInvalid
  | .invalidAttributeValue _ _ _ => .valueInvalid
  | .unclosedAttributeValue _ _ _ => .valueUnclosed
  | .unexpectedInput _ => .unexpectedInput
  | .missingClosingTags _ _ => .elementsUnclosed
  | .stackLimitExceeded _ _ _ => .tooDeep
  | .unexpectedClosingTag _ _ => .closingUnexpected
  | .mismatchedClosingTag _ _ _ _ => .closingMismatched

/-- The location of the defect, if there is a single one. -/
def onlyLocation (e : ParseError) : Option Location :=
  match locations e with
  | [l] => some l
  | _ => none

/-- The name of the unfinished tag and the location given for it; `true` for closing tags. -/
def unfinished : ParseError → Option (Bool × List Char × Location)
  | .expectedOpeningTagClose t l => some (false, t, l)
  | .expectedClosingTagClose t l => some (true, t, l)
  | _ => none

/-- The innermost error in a parse error. -/
def parseDefect : ParseError → AnyError
  | .invalidOpeningTagIdentifier _ i => .identifier i
  | .invalidClosingTagIdentifier _ i => .identifier i
  | .invalidAttributeIdentifier _ i => .identifier i
  | e => .parse e

/-- The innermost error in an input error. -/
def inputDefect : InputError → AnyError
  | .parse e => parseDefect e
  | .lengthLimitExceeded n => .input (.lengthLimitExceeded n)

/-- The innermost error in a file error. -/
def fileDefect : FileError → AnyError
  | .input e => inputDefect e
  | _ => .std

/-- The innermost error in an error of a transform. -/
def defect : StreamError → AnyError
  | .assertion e => .malformed e
  | .input e => inputDefect e
  | .file e => fileDefect e
  | .identifier i => .identifier i
  | .selector (.tag i) => .identifier i
  | .selector (.id i) => .identifier i
  | .selector (.class i) => .identifier i
  | .selector (.classes .empty) => .classes .empty
  | .selector (.classes (.identifier _ i)) => .identifier i
  | .staticSelector .unrestricted => .static .unrestricted
  | .staticSelector (.tag i) => .identifier i
  | .staticSelector (.id i) => .identifier i
  | .staticSelector (.class _ i) => .identifier i

/-- The error reached by going from error to cause `n` times. -/
def followed : Nat → AnyError → Option AnyError
  | 0, e => some e
  | n + 1, e => e.cause.bind (followed n)

/-- The types of errors. -/
inductive ErrorType
  | identifier | parse | input | file | id | tag | class | classes | selector | static | malformed | assertion
  | stream | std
  deriving DecidableEq

/-- The type of an error. -/
def errorType : AnyError → ErrorType
  | .identifier _ => .identifier
  | .parse _ => .parse
  | .input _ => .input
  | .file _ => .file
  | .id _ => .id
  | .tag _ => .tag
  | .class _ => .class
  | .classes _ => .classes
  | .selector _ => .selector
  | .static _ => .static
  | .malformed _ => .malformed
  | .assertion _ => .assertion
  | .stream _ => .stream
  | .std => .std

/-- The locations a parse error shows: all but those of the outer ones of several unclosed
elements, which are listed by name. -/
def shownLocations : ParseError → List Location
  | .missingClosingTags i _ => [i.2]
  | e => locations e

/-- The message of an error, apart from parse errors and errors of the standard library. The path
is the one in file errors. -/
def messageOf (path : List Char) : AnyError → Option (List Char)
  | .identifier e => some e.render
  | .input e => some e.render
  | .file e => some (e.render path)
  | .id e => some e.render
  | .tag e => some e.render
  | .class e => some e.render
  | .classes e => some e.render
  | .selector e => some e.render
  | .static e => some e.render
  | .malformed e => some e.render
  | .stream e => some e.render
  | .parse _ => none
  | .assertion _ => none
  | .std => none

/-- The kinds of errors in the types of errors that are not parse errors. -/
inductive ErrorKind
  | none | empty | notAscii | forbidden | whitespace | parse | tooLong | input | opening | reading
  | decoding | identifier | id | tag | class | classes | unrestricted
  | closingUnexpected | openingExpected | closingExpected
  | assertion | file | selector | static
  deriving DecidableEq

/-- The kind of an error that is no parse error. -/
def errorKind : AnyError → ErrorKind
  | .identifier .empty => .empty
  | .identifier .notAscii => .notAscii
  | .identifier (.forbidden _) => .forbidden
  | .identifier (.whitespace _) => .whitespace
  | .input (.parse _) => .parse
  | .input (.lengthLimitExceeded _) => .tooLong
  | .file (.input _) => .input
  | .file .open => .opening
  | .file .read => .reading
  | .file .decode => .decoding
  | .id (.identifier _) => .identifier
  | .tag (.identifier _) => .identifier
  | .class (.identifier _) => .identifier
  | .classes .empty => .empty
  | .classes (.identifier _ _) => .identifier
  | .selector (.id _) => .id
  | .selector (.tag _) => .tag
  | .selector (.class _) => .class
  | .selector (.classes _) => .classes
  | .static .unrestricted => .unrestricted
  | .static (.id _) => .id
  | .static (.tag _) => .tag
  | .static (.class _ _) => .class
  | .malformed (.unexpectedClosingTag _) => .closingUnexpected
  | .malformed (.expectedOpeningTag _) => .openingExpected
  | .malformed (.expectedClosingTag _ _) => .closingExpected
  | .stream (.assertion _) => .assertion
  | .stream (.input _) => .input
  | .stream (.file _) => .file
  | .stream (.identifier _) => .identifier
  | .stream (.selector _) => .selector
  | .stream (.staticSelector _) => .static
  | _ => .none

/-- The number in an error: the index of a class, or a limit. -/
def numberIn : AnyError → Option Nat
  | .input (.lengthLimitExceeded n) => some n
  | .classes (.identifier n _) => some n
  | .static (.class n _) => some n
  | _ => none

/-- The character in an error. -/
def charIn : AnyError → Option Char
  | .identifier (.forbidden c) => some c
  | .identifier (.whitespace c) => some c
  | _ => none

/-- The kinds of events. -/
inductive EventKind
  | noop | doctype | comment | data | rawData | opening | closing | selfClosed | void
  deriving DecidableEq

/-- The kind of an event. -/
def eventKind : Event → EventKind
  | .noop => .noop
  | .doctype _ => .doctype
  | .comment _ => .comment
  | .data _ => .data
  | .rawData _ => .rawData
  | .openingTag _ _ => .opening
  | .closingTag _ => .closing
  | .selfClosedTag _ _ => .selfClosed
  | .voidTag _ _ => .void

/-- The kind of the event that a malformed stream had in place of the expected one, if the error has
one; the inner `none` is for the end of the stream. -/
def foundIn : MalformedReason → Option (Option EventKind)
  | .unexpectedClosingTag _ => none
  | .expectedOpeningTag e => some (e.map eventKind)
  | .expectedClosingTag e _ => some (e.map eventKind)

/-- The tag that a malformed stream had too many or too few of. -/
def tagIn : MalformedReason → Option (List Char)
  | .unexpectedClosingTag t => some t.str
  | .expectedOpeningTag _ => none
  | .expectedClosingTag _ t => some t.str

/-- What a parse error names: tags, a doctype, or an attribute with its tag in front. -/
def named : ParseError → List (List Char)
  | .unsupportedDoctype _ t => [t]
  | .expectedOpeningTagClose t _ => [t]
  | .expectedClosingTagClose t _ => [t]
  | .invalidAttributeValue _ t n => [t ++ '.' :: n]
  | .unclosedAttributeValue _ t n => [t ++ '.' :: n]
  | .missingClosingTags i o => (i :: o).map Prod.fst
  | .stackLimitExceeded t _ _ => [t]
  | .unexpectedClosingTag t _ => [t]
  | .mismatchedClosingTag t _ t' _ => [t, t']
  | _ => []

/-- The limit in a parse error. -/
def depthIn : ParseError → Option Nat
  | .stackLimitExceeded _ _ n => some n
  | _ => none

/-- The calls that set limits: with `none` for no limit. -/
inductive LimitCall
  | depth (limit : Option Nat)
  | length (limit : Option Nat)

/-- A call as a call of the crate. -/
def LimitCall.call : LimitCall → Options → Options
  | .depth (some n), o => o.setMaxStackDepth n
  | .depth none, o => o.noMaxStackDepth
  | .length (some n), o => o.setMaxInputLen n
  | .length none, o => o.noMaxInputLen

/-- The limit of the nesting after some calls: that of the last call about it, if any. -/
def depthAfter (cs : List LimitCall) : Option Nat :=
  (cs.filterMap fun
    | .depth l => some l
    | .length _ => none).getLast?.join

/-- The limit of the length after some calls: that of the last call about it, if any. -/
def lengthAfter (cs : List LimitCall) : Option Nat :=
  (cs.filterMap fun
    | .length l => some l
    | .depth _ => none).getLast?.join

end Fuser.Spec
