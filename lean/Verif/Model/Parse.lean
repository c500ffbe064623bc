import Verif.Model.Event
import Verif.Model.Input

/-!
# The parser

Model of `src/parse.rs`.
-/

namespace Fuser

/-- `Options`. `parse.rs` 34-40. -/
structure Options where
  maxStackDepth : Option Nat := none
  maxInputLen : Option Nat := none
  deriving DecidableEq, Repr

/-- `Options::max_stack_depth`. `parse.rs` 45-48. -/
def Options.setMaxStackDepth (self : Options) (maxDepth : Nat) : Options :=
  { self with maxStackDepth := some maxDepth }

/-- `Options::no_max_stack_depth`. `parse.rs` 51-54. -/
def Options.noMaxStackDepth (self : Options) : Options := { self with maxStackDepth := none }

/-- `Options::max_input_len`. `parse.rs` 57-60. -/
def Options.setMaxInputLen (self : Options) (maxLen : Nat) : Options :=
  { self with maxInputLen := some maxLen }

/-- `Options::no_max_input_len`. `parse.rs` 63-66. -/
def Options.noMaxInputLen (self : Options) : Options := { self with maxInputLen := none }

/-- `Default for Options`. `parse.rs` 69-77. -/
def Options.default : Options := { maxStackDepth := none, maxInputLen := none }

/-- `Error`. `parse.rs` 80-203. -/
inductive ParseError
  | unsupportedDoctype (location : Location) (doctype : Str)
  | unclosedDoctype (location : Location)
  | unclosedComment (location : Location)
  | expectedOpeningTagClose (tag : Str) (location : Location)
  | expectedClosingTagClose (tag : Str) (location : Location)
  | expectedOpeningTagIdentifier (location : Location)
  | invalidOpeningTagIdentifier (location : Location) (error : IdentifierError)
  | expectedClosingTagIdentifier (location : Location)
  | invalidClosingTagIdentifier (location : Location) (error : IdentifierError)
  | invalidAttributeIdentifier (location : Location) (error : IdentifierError)
  | invalidAttributeValue (location : Location) (tag attributeName : Str)
  | unclosedAttributeValue (location : Location) (tag attributeName : Str)
  | unexpectedInput (location : Location)
  | missingClosingTags (inner : Str × Location) (others : List (Str × Location))
  | stackLimitExceeded (tag : Str) (location : Location) (limit : Nat)
  | unexpectedClosingTag (tag : Str) (location : Location)
  | mismatchedClosingTag (openingTag : Str) (openingLocation : Location)
      (closingTag : Str) (closingLocation : Location)
  deriving DecidableEq, Repr

/-- The `others` part of the message for missing closing tags. `parse.rs` 263-268. -/
def renderOthers : Nat → List (Str × Location) → Str
  | _, [] => []
  | index, (tag, _) :: rest =>
    (if index ≠ 0 then ",".toList else []) ++ "'".toList ++ tag ++ "'".toList ++
    renderOthers (index + 1) rest

/-- `Display for Error`. `parse.rs` 220-295. -/
def ParseError.render : ParseError → Str
  | .unsupportedDoctype location doctype =>
    "Unsupported doctype '".toList ++ doctype ++ "' at ".toList ++ location.render
  | .unclosedDoctype location => "Unclosed doctype directive at ".toList ++ location.render
  | .unclosedComment location => "Unclosed comment directive at ".toList ++ location.render
  | .expectedOpeningTagClose tag location =>
    "Unfinished opening tag '".toList ++ tag ++ "' at ".toList ++ location.render
  | .expectedClosingTagClose tag location =>
    "Unfinished closing tag '".toList ++ tag ++ "' at ".toList ++ location.render
  | .expectedOpeningTagIdentifier location =>
    "Expected an identifier for opening tag at ".toList ++ location.render
  | .expectedClosingTagIdentifier location =>
    "Expected an identifier for closing tag at ".toList ++ location.render
  | .invalidOpeningTagIdentifier location _ =>
    "Invalid opening tag identifier at ".toList ++ location.render
  | .invalidClosingTagIdentifier location _ =>
    "Invalid opening tag identifier at ".toList ++ location.render
  | .invalidAttributeIdentifier location _ =>
    "Invalid attribute identifier at ".toList ++ location.render
  | .invalidAttributeValue location tag name =>
    "Invalid attribute value for '".toList ++ tag ++ ".".toList ++ name ++ "' at ".toList ++
    location.render
  | .unclosedAttributeValue location tag name =>
    "Unclosed attribute value for '".toList ++ tag ++ ".".toList ++ name ++ "' at ".toList ++
    location.render
  | .unexpectedInput location => "Unexpected input at ".toList ++ location.render
  | .missingClosingTags (tag, location) others =>
    "Unclosed '".toList ++ tag ++ "' tag starting at ".toList ++ location.render ++
    if others.isEmpty then []
    else "(also unclosed are: ".toList ++ renderOthers 0 others ++ ")".toList
  | .stackLimitExceeded tag location limit =>
    "Stack limit (".toList ++ formatNat limit ++ ") exceeded by tag '".toList ++ tag ++
    "' at ".toList ++ location.render
  | .unexpectedClosingTag tag location =>
    "Unexpected closing tag '".toList ++ tag ++ "' at ".toList ++ location.render
  | .mismatchedClosingTag openingTag openingLocation closingTag closingLocation =>
    "Closing tag '".toList ++ openingTag ++ "' at ".toList ++ openingLocation.render ++
    " does not match opening tag '".toList ++ closingTag ++ "' at ".toList ++
    closingLocation.render

/-- `Mode`. `parse.rs` 377-381. -/
inductive Mode
  | data
  | rawData (tag : Str)
  deriving DecidableEq, Repr

/-- `Parsed`; the located event is flattened into `event` and `location`. `parse.rs` 383-387. -/
structure Parsed where
  event : Event
  location : Location
  nextMode : Mode
  rest : Input
  deriving DecidableEq, Repr

/-- `ParseResult`. `parse.rs` 389. -/
abbrev ParseResult := Except ParseError Parsed

/-- `is_void_tag`. `parse.rs` 681-695. -/
def isVoidTag (tag : Str) : Bool :=
  ["area", "base", "br", "col", "embed", "hr", "img", "input", "keygen", "link",
   "menuitem", "meta", "param", "source", "track", "wbr"].any
    fun voidTag => identifierEq tag voidTag.toList

/-- The loop of `mode_for_tag` over the raw tags. `parse.rs` 671-675. -/
def findRawTag (tag : Str) : List Str → Mode
  | [] => .data
  | rawTag :: rest => if identifierEq tag rawTag then .rawData rawTag else findRawTag tag rest

/-- `mode_for_tag`. `parse.rs` 665-679. -/
def modeForTag (tag : Str) (selfClose : Bool) : Mode :=
  if !selfClose then
    findRawTag tag ["script".toList, "style".toList, "title".toList, "textarea".toList]
  else .data

/-- `try_parse_tag_close`. `parse.rs` 513-546. -/
def tryParseTagClose (input : Input) : M (Option ParseResult) := do
  let some rest ← input.takeChar '<' | return none
  let rest ← rest.skipWhitespace
  let some rest ← rest.takeChar '/' | return none
  let rest ← rest.skipWhitespace
  match ← rest.takeIdentifier with
  | .ok none => return some (.error (.expectedClosingTagIdentifier rest.location))
  | .error error => return some (.error (.invalidClosingTagIdentifier rest.location error))
  | .ok (some (identifier, rest)) =>
    let rest ← rest.skipWhitespace
    match ← rest.takeChar '>' with
    | none => return some (.error (.expectedClosingTagClose identifier.str rest.location))
    | some rest =>
      return some (.ok {
        event := .closingTag identifier, location := input.location
        nextMode := .data, rest := rest })

/-- `try_parse_attribute`. `parse.rs` 553-595. -/
def tryParseAttribute (tag : Str) (input : Input) :
    M (Except ParseError (Option (Attribute × Input))) := do
  match ← input.takeIdentifier with
  | .error error => return .error (.invalidAttributeIdentifier input.location error)
  | .ok none => return .ok none
  | .ok (some (name, rest)) =>
    let rest ← rest.skipWhitespace
    match ← rest.takeChar '=' with
    | none => return .ok (some (⟨name, none⟩, rest))
    | some rest =>
      let rest ← rest.skipWhitespace
      let valueStart := rest.location
      match ← rest.takeChar '"' with
      | none => return .error (.invalidAttributeValue valueStart tag name.str)
      | some rest =>
        let rest ← rest.skipWhitespace
        match ← rest.takeUntilChar '"' with
        | none => return .error (.unclosedAttributeValue valueStart tag name.str)
        | some (value, rest) =>
          match ← rest.takeChar '"' with
          | none => .error .panic
          | some rest => return .ok (some (⟨name, some (fromRaw value)⟩, rest))

/-- The `'search` loop of `parse_attributes`. `parse.rs` 603-611.
The first argument bounds the number of iterations. -/
def parseAttributesLoop (tag : Str) :
    Nat → Attributes → Input → M (Except ParseError (Attributes × Input))
  | 0, _, _ => .error .fuel
  | fuel + 1, attributes, rest =>
    if rest.isEmpty then .ok (.ok (attributes, rest))
    else do
      match ← tryParseAttribute tag rest with
      | .error e => return .error e
      | .ok none => return .ok (attributes, rest)
      | .ok (some (attr, newRest)) =>
        parseAttributesLoop tag fuel (attributes ++ [attr]) (← newRest.skipWhitespace)

/-- `parse_attributes`. `parse.rs` 597-614. -/
def parseAttributes (tag : Str) (input : Input) :
    M (Except ParseError (Attributes × Input)) := do
  let rest ← input.skipWhitespace
  parseAttributesLoop tag (rest.content.length + 1) [] rest

/-- `try_parse_tag_open`. `parse.rs` 616-663. -/
def tryParseTagOpen (input : Input) : M (Option ParseResult) := do
  let some rest ← input.takeChar '<' | return none
  let rest ← rest.skipWhitespace
  match ← rest.takeIdentifier with
  | .ok none => return some (.error (.expectedOpeningTagIdentifier rest.location))
  | .error error => return some (.error (.invalidOpeningTagIdentifier rest.location error))
  | .ok (some (tag, rest)) =>
    let rest ← rest.skipWhitespace
    match ← parseAttributes tag.str rest with
    | .error error => return some (.error error)
    | .ok (attributes, rest) =>
      let rest ← rest.skipWhitespace
      let (selfClose, rest) ← match ← rest.takeChar '/' with
        | some rest => do pure (true, ← rest.skipWhitespace)
        | none => pure (false, rest)
      match ← rest.takeChar '>' with
      | none => return some (.error (.expectedOpeningTagClose tag.str rest.location))
      | some rest =>
        return some (.ok {
          nextMode := modeForTag tag.str selfClose
          rest := rest
          location := input.location
          event :=
            if isVoidTag tag.str then .voidTag tag attributes
            else if selfClose then .selfClosedTag tag attributes
            else .openingTag tag attributes })

/-- `try_parse_data`. `parse.rs` 444-459. -/
def tryParseData (input : Input) : M (Option ParseResult) := do
  let (data, rest) ← match ← input.takeUntilChar '<' with
    | some r => pure r
    | none => input.takeAll
  if data.isEmpty then return none
  return some (.ok {
    event := .data (fromRaw data), location := input.location, nextMode := .data, rest := rest })

/-- `try_parse_comment`. `parse.rs` 461-480. -/
def tryParseComment (input : Input) : M (Option ParseResult) := do
  let some rest ← input.takeStr "<!--".toList | return none
  match ← rest.takeUntilStr "-->".toList with
  | none => return some (.error (.unclosedComment input.location))
  | some (content, rest) =>
    match ← rest.takeStr "-->".toList with
    | none => .error .panic
    | some rest =>
      return some (.ok {
        event := .comment (fromRaw content), location := input.location
        nextMode := .data, rest := rest })

/-- `try_parse_doctype`. `parse.rs` 482-511. -/
def tryParseDoctype (input : Input) : M (Option ParseResult) := do
  let some rest ← input.takeStr "<!".toList | return none
  let rest ← rest.skipWhitespace
  let some (_, rest) ← rest.tryTakeExactIdentifier "doctype".toList | return none
  let rest ← rest.skipWhitespace
  match ← rest.takeUntilChar '>' with
  | none => return some (.error (.unclosedDoctype input.location))
  | some (content, rest) =>
    let content := trim content
    match ← rest.takeChar '>' with
    | none => .error .panic
    | some rest =>
      if !identifierEq content "html".toList then
        return some (.error (.unsupportedDoctype input.location content))
      return some (.ok {
        event := .doctype (fromRaw content), location := input.location
        nextMode := .data, rest := rest })

/-- `try_parse_tag`. `parse.rs` 407-409. -/
def tryParseTag (input : Input) : M (Option ParseResult) := do
  match ← tryParseTagClose input with
  | some r => return some r
  | none => tryParseTagOpen input

/-- `parse_data_mode`. `parse.rs` 411-417. -/
def parseDataMode (input : Input) : M ParseResult := do
  match ← tryParseComment input with
  | some r => return r
  | none =>
    match ← tryParseDoctype input with
    | some r => return r
    | none =>
      match ← tryParseTag input with
      | some r => return r
      | none =>
        match ← tryParseData input with
        | some r => return r
        | none => return .error (.unexpectedInput input.location)

/-- The closure given to `take_until_end_char` in `parse_raw_data`. `parse.rs` 429-434. -/
def isRawEnd (searched : Str) (rest : Input) : M Bool := do
  match ← tryParseTagClose rest with
  | some (.ok parsed) => return parsed.event.isClosingTagForStr searched
  | _ => return false

/-- `parse_raw_data`. `parse.rs` 426-442. -/
def parseRawData (input : Input) (searched : Str) : M ParseResult := do
  let (content, rest) ← match ← input.takeUntilEndChar '<' (isRawEnd searched) with
    | some r => pure r
    | none => input.takeAll
  return .ok {
    event := .rawData (fromRaw content), location := input.location
    nextMode := .data, rest := rest }

/-- `parse`. `parse.rs` 419-424. -/
def parse (mode : Mode) (input : Input) : M ParseResult :=
  match mode with
  | .data => parseDataMode input
  | .rawData tag => parseRawData input tag

/-- `Iter`. `parse.rs` 297-303. The stack is a list with the innermost element first (the Rust
`Vec` has it last). -/
structure Iter where
  rest : Input
  mode : Mode
  stack : List (Identifier × Location)
  options : Options

/-- `Iter::new`. `parse.rs` 393-400. -/
def Iter.new (input : Str) (options : Options) : Iter :=
  ⟨Input.new input, .data, [], options⟩

/-- `Iter::next`. `parse.rs` 309-374. Simplification: after an error the iterator state is not
given, because collecting into a `Result` stops there; `Iter.step` (`Model/Iter.lean`) has it. -/
def Iter.next (it : Iter) : M (Option (Except ParseError (Event × Iter))) :=
  if it.rest.isEmpty then
    match it.stack with
    | (tag, location) :: others =>
      .ok (some (.error (.missingClosingTags (tag.str, location)
        (others.reverse.map fun (t, l) => (t.str, l)))))
    | [] => .ok none
  else do
    match ← parse it.mode it.rest with
    | .error error => return some (.error error)
    | .ok parsed =>
      let location := parsed.location
      let event := parsed.event
      let done (stack : List (Identifier × Location)) :
          Option (Except ParseError (Event × Iter)) :=
        some (.ok (event, { it with rest := parsed.rest, mode := parsed.nextMode, stack := stack }))
      match event with
      | .openingTag tag _ =>
        match it.options.maxStackDepth with
        | some limit =>
          if limit = it.stack.length then
            return some (.error (.stackLimitExceeded tag.str location limit))
          else return done ((tag, location) :: it.stack)
        | none => return done ((tag, location) :: it.stack)
      | .closingTag tag =>
        match it.stack with
        | [] => return some (.error (.unexpectedClosingTag tag.str location))
        | (openTag, openLocation) :: stack =>
          if !tag.eq openTag then
            return some (.error
              (.mismatchedClosingTag openTag.str openLocation tag.str location))
          else return done stack
      | _ => return done it.stack

/-- Collecting the iterator into `Result<Vec<Event>, Error>`. `template.rs` 227-228.
The first argument bounds the number of events. -/
def Iter.collect : Nat → Iter → M (Except ParseError (List Event))
  | 0, _ => .error .fuel
  | fuel + 1, it => do
    match ← it.next with
    | none => return .ok []
    | some (.error e) => return .error e
    | some (.ok (event, it)) =>
      match ← Iter.collect fuel it with
      | .error e => return .error e
      | .ok events => return .ok (event :: events)

/-- `InputError`. `template.rs` 20-32. -/
inductive InputError
  | lengthLimitExceeded (limit : Nat)
  | parse (error : ParseError)
  deriving DecidableEq, Repr

/-- `Template`. `template.rs` 141-144. -/
structure Template where
  events : List Event
  deriving DecidableEq, Repr

/-- The parsing part of `Template::from_str`. `template.rs` 226-231. -/
def parseEvents (input : Str) (options : Options) : M (Except ParseError (List Event)) :=
  Iter.collect (2 * input.length + 2) (Iter.new input options)

/-- `Template::from_str`. `template.rs` 216-232. -/
def Template.fromStr (input : Str) (options : Options) : M (Except InputError Template) := do
  let go : M (Except InputError Template) := do
    match ← parseEvents input options with
    | .ok events => return .ok ⟨events⟩
    | .error error => return .error (.parse error)
  match options.maxInputLen with
  | some limit =>
    if utf8Len input > limit then return .error (.lengthLimitExceeded limit) else go
  | none => go

/-- `Display for Template`. `template.rs` 369-377. -/
def Template.render (t : Template) : Str := t.events.flatMap Event.render

/-- Derived `PartialEq for Template`. `template.rs` 141. -/
def Template.eq (a b : Template) : Bool :=
  a.events.length == b.events.length && (a.events.zip b.events).all fun (x, y) => x.eq y

end Fuser
