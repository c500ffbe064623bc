/-!
# Text handling

Model of `src/text/*.rs`: storage of text, encoding, identifiers.
Rust strings are lists of characters; offsets are UTF-8 byte offsets as in Rust.
-/

namespace Fuser

/-- `str` / `String` / `StrTendril`: a sequence of Unicode scalar values.
Simplification: the tendril type is just a string. -/
abbrev Str := List Char

/-- Abnormal ends of a computation: a Rust panic, or the model's loop counter running out
(which is proved never to happen). Not in the Rust source; makes panics explicit. -/
inductive Halt
  | panic
  | fuel
  deriving DecidableEq, Repr

/-- Computations that may panic. -/
abbrev M := Except Halt

/-- `str::len`: number of UTF-8 bytes. (Rust standard library.) -/
def utf8Len (s : Str) : Nat := (s.map Char.utf8Size).sum

/-- Splitting at a byte offset, `(&s[..n], &s[n..])`; `none` when the offset is out of range or
not on a character boundary. (Rust standard library.) -/
def splitBytes : Str → Nat → Option (Str × Str)
  | s, 0 => some ([], s)
  | [], _ + 1 => none
  | c :: cs, n + 1 =>
    if c.utf8Size ≤ n + 1 then
      (splitBytes cs (n + 1 - c.utf8Size)).map fun (a, b) => (c :: a, b)
    else none

/-- `&s[..n]`, panicking like Rust. (Rust standard library.) -/
def sliceTo (s : Str) (n : Nat) : M Str :=
  match splitBytes s n with
  | some (a, _) => .ok a
  | none => .error .panic

/-- `&s[n..]`, panicking like Rust. (Rust standard library.) -/
def sliceFrom (s : Str) (n : Nat) : M Str :=
  match splitBytes s n with
  | some (_, b) => .ok b
  | none => .error .panic

/-- `str::find` with a character class: byte offset of the first match. (Rust standard library.) -/
def findChar (p : Char → Bool) : Str → Option Nat
  | [] => none
  | c :: cs => if p c then some 0 else (findChar p cs).map (· + c.utf8Size)

/-- `str::rfind` with a character: byte offset of the last match. (Rust standard library.) -/
def rfindChar (x : Char) : Str → Option Nat
  | [] => none
  | c :: cs =>
    match rfindChar x cs with
    | some n => some (n + c.utf8Size)
    | none => if c = x then some 0 else none

/-- `str::find` with a string: byte offset of the first match. (Rust standard library.) -/
def findStr (pat : Str) : Str → Option Nat
  | [] => if pat.isEmpty then some 0 else none
  | c :: cs =>
    if pat.isPrefixOf (c :: cs) then some 0 else (findStr pat cs).map (· + c.utf8Size)

/-- `str::match_indices` with a character: all byte offsets. (Rust standard library.) -/
def matchIndices (x : Char) : Str → List Nat
  | [] => []
  | c :: cs =>
    let rest := (matchIndices x cs).map (· + c.utf8Size)
    if c = x then 0 :: rest else rest

/-- `char::is_whitespace`: the Unicode `White_Space` property. (Rust standard library.) -/
def isWhitespace (c : Char) : Bool :=
  let n := c.toNat
  (9 ≤ n && n ≤ 13) || n == 0x20 || n == 0x85 || n == 0xA0 || n == 0x1680 ||
  (0x2000 ≤ n && n ≤ 0x200A) || n == 0x2028 || n == 0x2029 || n == 0x202F || n == 0x205F ||
  n == 0x3000

/-- `str::trim_left`. (Rust standard library.) -/
def trimLeft (s : Str) : Str := s.dropWhile isWhitespace

/-- `str::trim`. (Rust standard library.) -/
def trim (s : Str) : Str := ((trimLeft s).reverse.dropWhile isWhitespace).reverse

/-- `str::split` on a character class: always at least one piece. (Rust standard library.) -/
def splitBy (p : Char → Bool) : Str → List Str
  | [] => [[]]
  | c :: cs =>
    if p c then [] :: splitBy p cs
    else match splitBy p cs with
      | [] => [[c]]
      | w :: ws => (c :: w) :: ws

/-- `str::split_whitespace`. (Rust standard library.) -/
def splitWhitespace (s : Str) : List Str := (splitBy isWhitespace s).filter fun w => !w.isEmpty

/-- `str::is_ascii`. (Rust standard library.) -/
def isAscii (s : Str) : Bool := s.all fun c => c.toNat < 128

/-- `u8::to_ascii_lowercase` on a character. (Rust standard library.) -/
def lowerChar (c : Char) : Char :=
  if 65 ≤ c.toNat && c.toNat ≤ 90 then Char.ofNat (c.toNat + 32) else c

/-- `str::eq_ignore_ascii_case`. (Rust standard library.) -/
def eqIgnoreAsciiCase (l r : Str) : Bool := l.map lowerChar == r.map lowerChar

/-- Formatting of an unsigned integer with `{}`. (Rust standard library.) -/
def formatNat (n : Nat) : Str := Nat.toDigits 10 n

/-- Formatting of a signed integer with `{}`. (Rust standard library.) -/
def formatInt : Int → Str
  | .ofNat n => formatNat n
  | .negSucc n => '-' :: formatNat (n + 1)

/-- `Deferred<StrTendril>`: static or owned storage. `text/deferred.rs` 6-10.
It is also the model of the newtypes around it: `Text` (`text/base.rs` 9-11), `EncodedText`
(`text/encoded.rs` 42-45), `Value` (`text/value.rs` 42-45), `Data` (`text/data.rs` 38-41). -/
inductive Deferred
  | static (s : Str)
  | actual (s : Str)
  deriving DecidableEq, Repr

/-- `Deref` to the string. `text/deferred.rs` 42-52. -/
def Deferred.str : Deferred → Str
  | .static s => s
  | .actual s => s

/-- `Deferred::into_actual`. `text/deferred.rs` 14-19. -/
def Deferred.intoActual : Deferred → Str
  | .static s => s
  | .actual s => s

/-- `Display`. `text/deferred.rs` 32-40 (and the forwarding instances of the newtypes). -/
def Deferred.render : Deferred → Str
  | .static s => s
  | .actual s => s

/-- Attribute values. `text/value.rs` 42-45. -/
abbrev Value := Deferred

/-- Content data. `text/data.rs` 38-41. -/
abbrev Data := Deferred

/-- Encoded text. `text/encoded.rs` 42-45. -/
abbrev EncodedText := Deferred

/-- `ENCODE_CHARS`. `text/encoded.rs` 8. -/
def encodeChars (c : Char) : Bool := c == '&' || c == '<' || c == '>' || c == '"'

/-- `encode_char`. `text/encoded.rs` 10-18. -/
def encodeChar (c : Char) : M Str :=
  if c = '&' then .ok "&amp;".toList
  else if c = '<' then .ok "&lt;".toList
  else if c = '>' then .ok "&gt;".toList
  else if c = '"' then .ok "&quot;".toList
  else .error .panic

/-- The `'parts` loop of `encode_str_optional`. `text/encoded.rs` 25-38.
The first argument bounds the number of iterations. -/
def encodeLoop : Nat → Str → Str → M Str
  | 0, _, _ => .error .fuel
  | fuel + 1, input, out =>
    if input.isEmpty then .ok out
    else do
      let len := (findChar encodeChars input).getD (utf8Len input)
      let out := out ++ (← sliceTo input len)
      let input ← sliceFrom input len
      match input with
      | [] => .ok out
      | chr :: _ =>
        let out := out ++ (← encodeChar chr)
        let input ← sliceFrom input chr.utf8Size
        encodeLoop fuel input out

/-- `encode_str_optional`. `text/encoded.rs` 20-40. -/
def encodeStrOptional (input : Str) : M (Option Str) :=
  if (findChar encodeChars input).isNone then .ok none
  else do
    let out ← encodeLoop (input.length + 1) input []
    return some out

/-- `EncodedText::new`. `text/encoded.rs` 49-54. -/
def EncodedText.new : EncodedText := .actual []

/-- `EncodedText::push_encoded_str`. `text/encoded.rs` 56-58 (with `Deferred::actual`,
`text/deferred.rs` 21-29). -/
def EncodedText.pushEncodedStr (t : EncodedText) (s : Str) : EncodedText :=
  .actual (t.intoActual ++ s)

/-- `EncodedText::is_empty`. `text/encoded.rs` 60-62. -/
def EncodedText.isEmpty (t : EncodedText) : Bool := t.str.isEmpty

/-- `EncodedText::from_unencoded_static_str`. `text/encoded.rs` 72-78; also
`Value::from_unencoded_static_str` (`text/value.rs` 95-99), `Data::from_unencoded_static_str`
(`text/data.rs` 82-86) and the `IntoValue`/`IntoStream` instances of `&'static str`
(`text/value.rs` 130-135, `content.rs` 46-53). -/
def fromUnencodedStaticStr (value : Str) : M EncodedText := do
  match ← encodeStrOptional value with
  | some t => return .actual t
  | none => return .static value

/-- `EncodedText::join`. `text/encoded.rs` 80-89; also `Value::join` (`text/value.rs` 106-110). -/
def EncodedText.join (self other : EncodedText) : EncodedText :=
  if utf8Len other.str = 0 then self
  else .actual (self.intoActual ++ other.str)

/-- `EncodedText::from_unencoded_str`. `text/encoded.rs` 91-95; also `Value::from_unencoded_str`
(`text/value.rs` 85-89) and `Data::from_unencoded_str` (`text/data.rs` 72-76). -/
def fromUnencodedStr (value : Str) : EncodedText := .actual value

/-- `EncodedText::from_raw`. `text/encoded.rs` 97-101. -/
def fromRaw (value : Str) : EncodedText := .actual value

/-- `EncodedText: From<Text>`. `text/encoded.rs` 117-126. -/
def EncodedText.ofText (t : Deferred) : M EncodedText := do
  match ← encodeStrOptional t.str with
  | some s => return .actual s
  | none => return t

/-- `IntoValue` for the unsigned integer types. `text/value.rs` 137-156; `IntoStream` for them
stores the same text (`content.rs` 77-95). -/
def Value.ofNat (n : Nat) : Value := .actual (formatNat n)

/-- `IntoValue` for the signed integer types. `text/value.rs` 137-162, `content.rs` 77-101. -/
def Value.ofInt (n : Int) : Value := .actual (formatInt n)

/-- `identifier_eq`. `text/identifier.rs` 9-12. -/
def identifierEq (left right : Str) : Bool :=
  isAscii left && isAscii right && eqIgnoreAsciiCase left right

/-- `IdentifierError`. `text/identifier.rs` 60-76. -/
inductive IdentifierError
  | empty
  | notAscii
  | whitespace (c : Char)
  | forbidden (c : Char)
  deriving DecidableEq, Repr

/-- `FORBIDDEN`. `text/identifier.rs` 106. -/
def forbiddenChar (c : Char) : Bool :=
  c == '=' || c == '"' || c == '/' || c == '>' || c == '<' || c == '&' || c == ',' || c == ';'

/-- `validate`. `text/identifier.rs` 103-124. -/
def validate (value : Str) : Except IdentifierError Str :=
  if value.isEmpty then .error .empty
  else if !isAscii value then .error .notAscii
  else match value.find? isWhitespace with
    | some c => .error (.whitespace c)
    | none =>
      match value.find? forbiddenChar with
      | some c => .error (.forbidden c)
      | none => .ok value

/-- `Identifier`. `text/identifier.rs` 33-36. Lean equality of this type is equality of text and
storage; the Rust `PartialEq` is `Identifier.eq`. -/
structure Identifier where
  text : Deferred
  deriving DecidableEq, Repr

/-- `Deref` to the string. `text/identifier.rs` 136-141. -/
def Identifier.str (i : Identifier) : Str := i.text.str

/-- `Display`. `text/identifier.rs` 150-155. -/
def Identifier.render (i : Identifier) : Str := i.text.render

/-- `Identifier::from_static_str` and `IntoIdentifier for &'static str`.
`text/identifier.rs` 41-45, 164-169. -/
def Identifier.fromStaticStr (value : Str) : Except IdentifierError Identifier := do
  let v ← validate value
  return ⟨.static v⟩

/-- `FromStr for Identifier`. `text/identifier.rs` 126-134. -/
def Identifier.fromStr (value : Str) : Except IdentifierError Identifier := do
  let v ← validate value
  return ⟨.actual v⟩

/-- `Identifier::is_eq`. `text/identifier.rs` 49-51. -/
def Identifier.isEq (i : Identifier) (s : Str) : Bool := identifierEq i.str s

/-- `PartialEq for Identifier`. `text/identifier.rs` 143-148. -/
def Identifier.eq (i j : Identifier) : Bool := identifierEq i.str j.str

/-- `Identifier::into_value`. `text/identifier.rs` 53-56. -/
def Identifier.intoValue (i : Identifier) : Value := i.text

end Fuser
