import Mathlib.Data.List.Forall2

/-!
# Specification of text encoding, identifiers and numbers

Independent of the model: nothing here mentions how the crate computes.
-/

namespace Fuser.Spec

/-- The character references a safe text may contain, with their meaning. -/
def entities : List (List Char × Char) :=
  [("&amp;".toList, '&'), ("&lt;".toList, '<'), ("&gt;".toList, '>'), ("&quot;".toList, '"')]

/-- A text without markup: no angle bracket, no quote, and every ampersand starts one of the
`entities`. -/
def Safe (t : List Char) : Prop :=
  (∀ c ∈ t, c ≠ '<' ∧ c ≠ '>' ∧ c ≠ '"') ∧
  ∀ pre post, t = pre ++ '&' :: post → ∃ e ∈ entities, e.1 <+: '&' :: post

/-- What a reader of the page sees: character references replaced by their characters. -/
def decode : List Char → List Char
  | '&' :: 'a' :: 'm' :: 'p' :: ';' :: r => '&' :: decode r
  | '&' :: 'l' :: 't' :: ';' :: r => '<' :: decode r
  | '&' :: 'g' :: 't' :: ';' :: r => '>' :: decode r
  | '&' :: 'q' :: 'u' :: 'o' :: 't' :: ';' :: r => '"' :: decode r
  | c :: r => c :: decode r
  | [] => []

/-- ASCII letters that differ only in case, or equal characters. -/
def SameLetter (c d : Char) : Prop :=
  c = d ∨ ('A' ≤ c ∧ c ≤ 'Z' ∧ d.toNat = c.toNat + 32) ∨
    ('A' ≤ d ∧ d ≤ 'Z' ∧ c.toNat = d.toNat + 32)

/-- Equality ignoring ASCII case. -/
def SameName (a b : List Char) : Prop := List.Forall₂ SameLetter a b

/-- Only ASCII characters. -/
def Ascii (s : List Char) : Prop := ∀ c ∈ s, c.toNat < 128

/-- Code points of white space, as in the Unicode property `White_Space`. -/
def spaceCodes : List Nat :=
  [0x09, 0x0A, 0x0B, 0x0C, 0x0D, 0x20, 0x85, 0xA0, 0x1680, 0x2000, 0x2001, 0x2002, 0x2003, 0x2004,
   0x2005, 0x2006, 0x2007, 0x2008, 0x2009, 0x200A, 0x2028, 0x2029, 0x202F, 0x205F, 0x3000]

/-- White space. -/
def Space (c : Char) : Prop := c.toNat ∈ spaceCodes

instance (c : Char) : Decidable (Space c) := by unfold Space; infer_instance

/-- The characters not allowed in identifiers. -/
def forbidden : List Char := ['=', '"', '/', '>', '<', '&', ',', ';']

/-- Valid identifiers. -/
def ValidIdent (s : List Char) : Prop :=
  s ≠ [] ∧ Ascii s ∧ (∀ c ∈ s, ¬ Space c) ∧ (∀ c ∈ s, c ∉ forbidden)

/-- `c` is the first character of `s` with property `P`. -/
def FirstWith (P : Char → Prop) (c : Char) (s : List Char) : Prop :=
  P c ∧ ∃ pre post, s = pre ++ c :: post ∧ ∀ d ∈ pre, ¬ P d

/-- The value of a decimal numeral. -/
def readNat (s : List Char) : Nat := s.foldl (fun n c => 10 * n + (c.toNat - 48)) 0

/-- The value of a decimal numeral with optional sign. -/
def readInt : List Char → Int
  | '-' :: s => -(readNat s : Int)
  | s => readNat s

/-- Plain decimal numerals: at least one digit, nothing else, with a minus sign if negative. There are no
leading zeros and no negative zero. -/
def IsNumeral (s : List Char) : Prop :=
  ∃ ds, ds ≠ [] ∧ (∀ c ∈ ds, '0' ≤ c ∧ c ≤ '9') ∧
    (s = ds ∧ (ds = ['0'] ∨ ds.head? ≠ some '0') ∨ s = '-' :: ds ∧ ds.head? ≠ some '0')

end Fuser.Spec
