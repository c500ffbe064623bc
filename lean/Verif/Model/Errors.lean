import Verif.Model.Stream

/-!
# Messages, descriptions and causes of errors

Model of the `Display` and `std::error::Error` instances of the error types, except for the
`Display` of parse errors, which is in `Verif.Model.Parse`.
-/

namespace Fuser

/-- `char::escape_default`. (Rust standard library.) -/
def escapeDefault (c : Char) : Str :=
  if c = '\t' then "\\t".toList
  else if c = '\r' then "\\r".toList
  else if c = '\n' then "\\n".toList
  else if c = '\'' then "\\'".toList
  else if c = '"' then "\\\"".toList
  else if c = '\\' then "\\\\".toList
  else if 0x20 ≤ c.toNat && c.toNat ≤ 0x7e then [c]
  else "\\u{".toList ++ Nat.toDigits 16 c.toNat ++ "}".toList

/-- `Display for IdentifierError`. `text/identifier.rs` 78-96. -/
def IdentifierError.render : IdentifierError → Str
  | .empty => "Value is empty".toList
  | .notAscii => "Identifier contains non-ASCII characters".toList
  | .forbidden c =>
    "Identifier contains forbidden character '".toList ++ escapeDefault c ++ "'".toList
  | .whitespace c =>
    "Identifier contains whitespace character '".toList ++ escapeDefault c ++ "'".toList

/-- `Display for ClassesError`. `select.rs` 421-431. -/
def ClassesError.render : ClassesError → Str
  | .identifier index _ =>
    "Invalid identifier for class selector at index ".toList ++ formatNat index
  | .empty => "List of selected classes is empty".toList

/-- `Display for IdError`. `select.rs` 85-93. -/
def IdError.render : IdError → Str
  | .identifier _ => "Invalid identifier for id selector".toList

/-- `Display for TagError`. `select.rs` 192-200. -/
def TagError.render : TagError → Str
  | .identifier _ => "Invalid identifier for tag name selector".toList

/-- `Display for ClassError`. `select.rs` 310-318. -/
def ClassError.render : ClassError → Str
  | .identifier _ => "Invalid identifier for class selector".toList

/-- `Display for select::Error`. `select.rs` 775-789. -/
def SelectorError.render : SelectorError → Str
  | .id _ => "Invalid identifier for id selector".toList
  | .tag _ => "Invalid identifier for tag name selector".toList
  | .class _ => "Invalid identifier for class selector".toList
  | .classes _ => "Invalid classes selector".toList

/-- `Display for StaticError`. `select.rs` 568-584. -/
def StaticError.render : StaticError → Str
  | .unrestricted => "Empty static selector matches everything".toList
  | .id _ => "Invalid identifier for id in static selector".toList
  | .tag _ => "Invalid identifier for tag name in static selector".toList
  | .class index _ =>
    "Invalid identifier for class (index ".toList ++ formatNat index ++
    ") in static selector".toList

/-- `Display for InputError`. `template.rs` 46-56. -/
def InputError.render : InputError → Str
  | .parse _ => "Unable to parse input into HTML5 stream".toList
  | .lengthLimitExceeded limit =>
    "Input length limit (".toList ++ formatNat limit ++ ") was exceeded".toList

/-- `Display for FileError`; the path, which the model does not store in the error, is an argument.
`template.rs` 105-116. -/
def FileError.render (path : Str) (e : FileError) : Str :=
  let action := match e with
    | .input _ => "process".toList
    | .open => "open".toList
    | .read => "read".toList
    | .decode => "decode".toList
  "Unable to ".toList ++ action ++ " file '".toList ++ path ++ "'".toList

/-- What was found instead of the expected event, `event.as_ref().map(Event::description)
.unwrap_or("end of input")`. `event.rs` 646, 651. -/
def found (event : Option Event) : Str := (event.map Event.description).getD "end of input".toList

/-- `Display for MalformedReason`. `event.rs` 639-656. -/
def MalformedReason.render : MalformedReason → Str
  | .unexpectedClosingTag tag => "Unexpected closing tag for '".toList ++ tag.render ++ "'".toList
  | .expectedOpeningTag event => "Expected opening tag, found ".toList ++ found event
  | .expectedClosingTag event tag =>
    "Expected closing tag for ".toList ++ tag.render ++ ", found ".toList ++ found event

/-- `Display for StreamError`. `event.rs` 524-542. -/
def StreamError.render : StreamError → Str
  | .assertion _ => "An internal invariant was not upheld".toList
  | .input _ => "Input error for inserted content stream".toList
  | .file _ => "Input error for inserted file content stream".toList
  | .identifier _ => "Invalid attribute identifier".toList
  | .selector _ => "Invalid element selector".toList
  | .staticSelector _ => "Invalid static str selector".toList

/-- All error types of the crate, as `&error::Error`. `std` stands for `io::Error` and
`str::Utf8Error`. -/
inductive AnyError
  | identifier (e : IdentifierError)
  | parse (e : ParseError)
  | input (e : InputError)
  | file (e : FileError)
  | id (e : IdError)
  | tag (e : TagError)
  | class (e : ClassError)
  | classes (e : ClassesError)
  | selector (e : SelectorError)
  | static (e : StaticError)
  | malformed (e : MalformedReason)
  /-- `AssertionError::Malformed` -/
  | assertion (e : MalformedReason)
  | stream (e : StreamError)
  | std
  deriving DecidableEq, Repr

/-- `Error::description`. `text/identifier.rs` 100, `parse.rs` 207, `template.rs` 36, 93,
`select.rs` 97, 204, 322, 435, 588, 793, `event.rs` 480, 546, 660. -/
def AnyError.description : AnyError → Str
  | .identifier _ => "Invalid identifier value".toList
  | .parse _ => "Parse error".toList
  | .input _ => "Input error".toList
  | .file _ => "File error".toList
  | .id _ => "id selector error".toList
  | .tag _ => "tag name selector error".toList
  | .class _ => "class selector error".toList
  | .classes _ => "classes selector error".toList
  | .selector _ => "selector error".toList
  | .static _ => "classes selector error".toList
  | .malformed _ => "Stream validity error".toList
  | .assertion _ => "Assertion error".toList
  | .stream _ => "Stream error".toList
  | .std => []

/-- `Error::cause`. `text/identifier.rs` 98-101 (default), `parse.rs` 209-217, `template.rs` 38-43,
95-102, `select.rs` 99-103, 206-210, 324-328, 437-442, 590-597, 795-802, `event.rs` 482-486, 548-557, 658-661 (default). -/
def AnyError.cause : AnyError → Option AnyError
  | .identifier _ => none
  | .parse (.invalidOpeningTagIdentifier _ e) => some (.identifier e)
  | .parse (.invalidClosingTagIdentifier _ e) => some (.identifier e)
  | .parse (.invalidAttributeIdentifier _ e) => some (.identifier e)
  | .parse _ => none
  | .input (.parse e) => some (.parse e)
  | .input _ => none
  | .file (.input e) => some (.input e)
  | .file .open => some .std
  | .file .read => some .std
  | .file .decode => some .std
  | .id (.identifier e) => some (.identifier e)
  | .tag (.identifier e) => some (.identifier e)
  | .class (.identifier e) => some (.identifier e)
  | .classes (.identifier _ e) => some (.identifier e)
  | .classes .empty => none
  | .selector (.id e) => some (.identifier e)
  | .selector (.tag e) => some (.identifier e)
  | .selector (.class e) => some (.identifier e)
  | .selector (.classes e) => some (.classes e)
  | .static .unrestricted => none
  | .static (.id e) => some (.identifier e)
  | .static (.tag e) => some (.identifier e)
  | .static (.class _ e) => some (.identifier e)
  | .malformed _ => none
  | .assertion e => some (.malformed e)
  | .stream (.assertion e) => some (.assertion e)
  | .stream (.input e) => some (.input e)
  | .stream (.file e) => some (.file e)
  | .stream (.identifier e) => some (.identifier e)
  | .stream (.selector e) => some (.selector e)
  | .stream (.staticSelector e) => some (.static e)
  | .std => none

/-- `Into<StreamError>` of the error types that have it; in the crate the other types do not.
The case `stream` is the `From<T> for T` of the Rust standard library. -/
def AnyError.toStream : AnyError → Option StreamError
  | .identifier e => some e.toStream
  | .input e => some e.toStream
  | .file e => some e.toStream
  | .id e => some e.toStream
  | .tag e => some e.toStream
  | .class e => some e.toStream
  | .classes e => some e.toStream
  | .static e => some e.toStream
  | .stream e => some e
  | .parse _ => none
  | .selector _ => none
  | .malformed _ => none
  | .assertion _ => none
  | .std => none

end Fuser
