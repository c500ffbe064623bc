import Verif.Spec.Grammar
import Verif.Model.File

/-!
# Specification of files
-/

namespace Fuser.Spec

/-- The UTF-8 encoding of a text, with the encoding of characters as defined by Lean's library. -/
abbrev encodeUtf8 (s : List Char) : List UInt8 := s.flatMap String.utf8EncodeChar

/-- The outcome of loading from a text, as an outcome of loading from a file. -/
def asFile : Except InputError Template → Except FileError Template
  | .ok t => .ok t
  | .error e => .error (.input e)

/-- No character starts here. -/
def NoChar (bs : List UInt8) : Prop := ∀ c rest, bs ≠ String.utf8EncodeChar c ++ rest

/-- What comes of reading a file, when the text `input` was read before: the text of the file, or
an error. An empty read is the end of the file. Each read is taken by itself: its longest valid text
counts against the limit, and bytes after it are an error even if the next read would complete
them. -/
inductive Loads (limit : Option Nat) : List Char → ReadCalls → Except FileError (List Char) → Prop
  | none {input} : Loads limit input [] (.ok input)
  | empty {input reads} : Loads limit input (.ok [] :: reads) (.ok input)
  | failed {input reads} : Loads limit input (.error () :: reads) (.error .read)
  | text {input s reads r} : s ≠ [] → Fits limit (input ++ s) → Loads limit (input ++ s) reads r →
      Loads limit input (.ok (encodeUtf8 s) :: reads) r
  | tooLong {input s rest reads l} : s ≠ [] → NoChar rest → limit = some l →
      l < ((input ++ s).map Char.utf8Size).sum →
      Loads limit input (.ok (encodeUtf8 s ++ rest) :: reads)
        (.error (.input (.lengthLimitExceeded l)))
  | undecodable {input s rest reads} : rest ≠ [] → NoChar rest → (s ≠ [] → Fits limit (input ++ s)) →
      Loads limit input (.ok (encodeUtf8 s ++ rest) :: reads) (.error .decode)

end Fuser.Spec
