import Verif.Model.Text

/-!
# Source locations and parser input

Model of `src/location.rs` and `src/input.rs`. Byte offsets and slices are as in the Rust code,
with panics explicit.
-/

namespace Fuser

/-- `Location`. `location.rs` 16-20. Simplification: unbounded counters. -/
structure Location where
  line : Nat
  column : Nat
  offset : Nat
  deriving DecidableEq, Repr

/-- `Location::at_start`. `location.rs` 29-31. -/
def Location.atStart : Location := ⟨1, 1, 0⟩

/-- `Location::with_consumed`. `location.rs` 33-52. -/
def Location.withConsumed (self : Location) (parsed : Str) : M Location := do
  let nlCount := (parsed.filter fun c => c == '\n').length
  let lastLine ← match rfindChar '\n' parsed with
    | some nlPos => sliceFrom parsed (nlPos + 1)
    | none => .ok parsed
  let lastLineChars := lastLine.length
  return {
    offset := self.offset + utf8Len parsed
    line := self.line + nlCount
    column := lastLineChars + if nlCount > 0 then 1 else self.column }

/-- `Display for Location`. `location.rs` 71-81. -/
def Location.render (l : Location) : Str :=
  "line ".toList ++ formatNat l.line ++ " column ".toList ++ formatNat l.column ++
  " (byte offset ".toList ++ formatNat l.offset ++ ")".toList

/-- `Input`. `input.rs` 5-9. -/
structure Input where
  content : Str
  location : Location
  deriving DecidableEq, Repr

/-- `Input::new`. `input.rs` 16-21. -/
def Input.new (content : Str) : Input := ⟨content, Location.atStart⟩

/-- `Input::is_empty`. `input.rs` 23. -/
def Input.isEmpty (i : Input) : Bool := i.content.isEmpty

/-- `Input::advanced`. `input.rs` 39-44. -/
def Input.advanced (i : Input) (len : Nat) : M Input := do
  let content ← sliceFrom i.content len
  let location ← i.location.withConsumed (← sliceTo i.content len)
  return ⟨content, location⟩

/-- `Input::end`. `input.rs` 25-27. -/
def Input.toEnd (i : Input) : M Input := i.advanced (utf8Len i.content)

/-- `Input::consumed`. `input.rs` 31-33. -/
def Input.consumed (i : Input) (len : Nat) : M (Str × Input) := do
  return (← sliceTo i.content len, ← i.advanced len)

/-- `Input::take_all`, `Input::consume_rest`. `input.rs` 35-37, 45-47. -/
def Input.takeAll (i : Input) : M (Str × Input) := i.consumed (utf8Len i.content)

/-- `Input::take_until_str`. `input.rs` 49-54. -/
def Input.takeUntilStr (i : Input) (pat : Str) : M (Option (Str × Input)) :=
  match findStr pat i.content with
  | none => .ok none
  | some len => do return some (← i.consumed len)

/-- `Input::take_until_char`. `input.rs` 56-61. -/
def Input.takeUntilChar (i : Input) (c : Char) : M (Option (Str × Input)) :=
  match findChar (· == c) i.content with
  | none => .ok none
  | some len => do return some (← i.consumed len)

/-- The loop of `Input::take_until_end_char` over the remaining match indices.
`input.rs` 65-71. -/
def Input.takeUntilEndCharLoop (i : Input) (check : Input → M Bool) :
    List Nat → M (Option (Str × Input))
  | [] => .ok none
  | index :: indices => do
    let rest ← i.advanced index
    if ← check rest then return some (← i.consumed index)
    else takeUntilEndCharLoop i check indices

/-- `Input::take_until_end_char`. `input.rs` 63-72. -/
def Input.takeUntilEndChar (i : Input) (chr : Char) (check : Input → M Bool) :
    M (Option (Str × Input)) :=
  i.takeUntilEndCharLoop check (matchIndices chr i.content)

/-- `Input::take_str`. `input.rs` 74-81. -/
def Input.takeStr (i : Input) (pat : Str) : M (Option Input) :=
  if pat.isPrefixOf i.content then do return some (← i.advanced (utf8Len pat))
  else .ok none

/-- `Input::take_char`. `input.rs` 83-90. -/
def Input.takeChar (i : Input) (chr : Char) : M (Option Input) :=
  if [chr].isPrefixOf i.content then do return some (← i.advanced chr.utf8Size)
  else .ok none

/-- `Input::skip_whitespace`. `input.rs` 92-96. -/
def Input.skipWhitespace (i : Input) : M Input :=
  let trimmed := trimLeft i.content
  i.advanced (utf8Len i.content - utf8Len trimmed)

/-- `TERMINATORS`. `input.rs` 100-102. -/
def terminator (c : Char) : Bool :=
  c == ' ' || c == '\t' || c == '\r' || c == '\n' || c == '>' || c == '<' || c == '"' ||
  c == '/' || c == '=' || c == '\'' || c == '&'

/-- `Input::take_word`. `input.rs` 98-114. -/
def Input.takeWord (i : Input) : M (Option (Str × Input)) :=
  let len := (findChar terminator i.content).getD (utf8Len i.content)
  if len = 0 then .ok none else do return some (← i.consumed len)

/-- `Input::try_take_exact_identifier`. `input.rs` 116-130. -/
def Input.tryTakeExactIdentifier (i : Input) (identifier : Str) :
    M (Option (Identifier × Input)) := do
  match ← i.takeWord with
  | none => return none
  | some (found, rest) =>
    match Identifier.fromStr found with
    | .ok foundIdentifier =>
      if identifierEq foundIdentifier.str identifier then return some (foundIdentifier, rest)
      else return none
    | .error _ => return none

/-- `Input::take_identifier`. `input.rs` 132-141. -/
def Input.takeIdentifier (i : Input) :
    M (Except IdentifierError (Option (Identifier × Input))) := do
  match ← i.takeWord with
  | none => return .ok none
  | some (word, rest) =>
    match Identifier.fromStr word with
    | .ok identifier => return .ok (some (identifier, rest))
    | .error error => return .error error

end Fuser
