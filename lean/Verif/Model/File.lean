import Verif.Model.Stream

/-!
# Loading templates from files

Model of `Template::from_file` (`src/template.rs` 149-213), including the parts of the standard
library it uses: `BufReader::fill_buf`/`consume` and `str::from_utf8`.
-/

namespace Fuser

/-- A continuation byte. Standard library, `core::str::validations`. -/
def isCont (b : UInt8) : Bool := 0x80 ≤ b && b ≤ 0xBF

/-- Second bytes allowed after the lead byte of a three byte sequence. Standard library,
`core::str::validations::run_utf8_validation`. -/
def second3 (b0 b1 : UInt8) : Bool :=
  if b0 = 0xE0 then 0xA0 ≤ b1 && b1 ≤ 0xBF
  else if b0 = 0xED then 0x80 ≤ b1 && b1 ≤ 0x9F
  else isCont b1

/-- Second bytes allowed after the lead byte of a four byte sequence. Standard library,
`core::str::validations::run_utf8_validation`. -/
def second4 (b0 b1 : UInt8) : Bool :=
  if b0 = 0xF0 then 0x90 ≤ b1 && b1 ≤ 0xBF
  else if b0 = 0xF4 then 0x80 ≤ b1 && b1 ≤ 0x8F
  else isCont b1

/-- The first character of a byte sequence, with the bytes after it; `none` if the bytes do not
start with a complete valid sequence. Standard library,
`core::str::validations::run_utf8_validation` and `next_code_point`. -/
def decodeChar : List UInt8 → Option (Char × List UInt8)
  | [] => none
  | b0 :: bs =>
    if b0 < 0x80 then some (Char.ofNat b0.toNat, bs)
    else if 0xC2 ≤ b0 && b0 ≤ 0xDF then
      match bs with
      | b1 :: rest =>
        if isCont b1 then
          some (Char.ofNat ((b0.toNat - 0xC0) * 0x40 + (b1.toNat - 0x80)), rest)
        else none
      | _ => none
    else if 0xE0 ≤ b0 && b0 ≤ 0xEF then
      match bs with
      | b1 :: b2 :: rest =>
        if second3 b0 b1 && isCont b2 then
          some (Char.ofNat ((b0.toNat - 0xE0) * 0x1000 + (b1.toNat - 0x80) * 0x40
            + (b2.toNat - 0x80)), rest)
        else none
      | _ => none
    else if 0xF0 ≤ b0 && b0 ≤ 0xF4 then
      match bs with
      | b1 :: b2 :: b3 :: rest =>
        if second4 b0 b1 && isCont b2 && isCont b3 then
          some (Char.ofNat ((b0.toNat - 0xF0) * 0x40000 + (b1.toNat - 0x80) * 0x1000
            + (b2.toNat - 0x80) * 0x40 + (b3.toNat - 0x80)), rest)
        else none
      | _ => none
    else none

/-- The longest valid prefix, decoded, and the bytes from `valid_up_to` on. The first argument
bounds the number of characters and is the number of bytes. Standard library, `str::from_utf8`. -/
def validPrefix : Nat → List UInt8 → Str × List UInt8
  | 0, bs => ([], bs)
  | n + 1, bs =>
    match decodeChar bs with
    | some (c, rest) =>
      let (s, rest) := validPrefix n rest
      (c :: s, rest)
    | none => ([], bs)

/-- `str::from_utf8`: on success the text, on failure the valid prefix. -/
def fromUtf8 (bs : List UInt8) : Except (Str × List UInt8) Str :=
  match validPrefix bs.length bs with
  | (s, []) => .ok s
  | (s, rest) => .error (s, rest)

/-- The results of successive `read` calls on a file: data or an I/O error, then end of file. The
size of each piece is up to the operating system (at most the buffer capacity). -/
abbrev ReadCalls := List (Except Unit (List UInt8))

/-- `BufReader::fill_buf`: the unread part of the buffer, or the next read if there is none.
Standard library, `std::io::BufReader`. -/
def fillBuf (buffer : List UInt8) (reads : ReadCalls) : Except Unit (List UInt8 × ReadCalls) :=
  if buffer ≠ [] then .ok (buffer, reads)
  else
    match reads with
    | [] => .ok ([], [])
    | .ok piece :: rest => .ok (piece, rest)
    | .error () :: _ => .error ()

/-- The loop `'read`. `limit = none` is `usize::max_value()`, which no length exceeds.
`template.rs` 162-206. -/
def fromFileLoop (limit : Option Nat) : Nat → List UInt8 → ReadCalls → Str → M (Except FileError Str)
  | 0, _, _, _ => throw .fuel
  | fuel + 1, buffer, reads, input =>
    match fillBuf buffer reads with
    | .error () => return .error .read
    | .ok (data, reads) =>
      if data = [] then return .ok input
      else
        -- the valid text of this piece and the unread bytes after `consume`
        let valid : Option (Str × List UInt8) :=
          match fromUtf8 data with
          | .ok s => some (s, [])
          | .error (s, rest) => if s = [] then none else some (s, rest)
        match valid with
        | none => return .error .decode
        | some (s, rest) =>
          let input := input ++ s
          match limit with
          | some l =>
            if l < utf8Len input then return .error (.input (.lengthLimitExceeded l))
            else fromFileLoop limit fuel rest reads input
          | none => fromFileLoop limit fuel rest reads input

/-- Number of bytes in all reads, as a bound for the loop. -/
def ReadCalls.size : ReadCalls → Nat
  | [] => 0
  | .ok piece :: rest => piece.length + ReadCalls.size rest
  | .error () :: rest => ReadCalls.size rest

/-- `Template::from_file`; `file = none` if the file cannot be opened. `template.rs` 149-213. -/
def Template.fromFile (file : Option ReadCalls) (options : Options) :
    M (Except FileError Template) := do
  match file with
  | none => return .error .open
  | some reads =>
    match ← fromFileLoop options.maxInputLen (reads.size + 1) [] reads [] with
    | .error e => return .error e
    | .ok input =>
      match ← Template.fromStr input options with
      | .error e => return .error (.input e)
      | .ok t => return .ok t

end Fuser
