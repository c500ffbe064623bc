import Verif.Spec.Select
import Verif.Model.Parse

/-!
# Specification of the template language

A grammar: how each event is spelled, how spellings are put together, and when a sequence of events
is well nested. Nothing here mentions how the crate parses.
-/

namespace Fuser.Spec

/-- A text of white space only. -/
def Blank (s : List Char) : Prop := ∀ c ∈ s, Space c

/-- The text does not start with white space. -/
def Tight (s : List Char) : Prop := ∀ c, s.head? = some c → ¬ Space c

/-- The characters that end a word. -/
def terminators : List Char := [' ', '\t', '\r', '\n', '>', '<', '"', '/', '=', '\'', '&']

/-- What follows a word: the end, or a terminator. -/
def Ends (s : List Char) : Prop := ∀ c, s.head? = some c → c ∈ terminators

/-- Names in the template language: valid identifiers without terminators. -/
def Name (s : List Char) : Prop := ValidIdent s ∧ ∀ c ∈ s, c ∉ terminators

/-- A parsed name. -/
def owned (s : List Char) : Identifier := ⟨.actual s⟩

/-- The rest of a start tag after its name and white space: attributes, an optional `/`, and `>`. -/
inductive TagTail : Attributes → Bool → List Char → Prop
  | open : TagTail [] false ['>']
  | selfClose {w} : Blank w → TagTail [] true ('/' :: (w ++ ['>']))
  | bare {n w r as sc} : Name n → Blank w → Ends (w ++ r) → TagTail as sc r →
      TagTail (⟨owned n, none⟩ :: as) sc (n ++ w ++ r)
  | valued {n w₁ w₂ w₃ v w₄ r as sc} : Name n → Blank w₁ → Ends (w₁ ++ ['=']) → Blank w₂ →
      Blank w₃ → Tight v → '"' ∉ v → Blank w₄ → TagTail as sc r →
      TagTail (⟨owned n, some (.actual v)⟩ :: as) sc
        (n ++ w₁ ++ '=' :: w₂ ++ '"' :: w₃ ++ v ++ '"' :: w₄ ++ r)

/-- The names of void elements. -/
def voidNames : List (List Char) :=
  ["area", "base", "br", "col", "embed", "hr", "img", "input", "keygen", "link",
   "menuitem", "meta", "param", "source", "track", "wbr"].map String.toList

/-- Name of a void element. -/
def VoidName (n : List Char) : Prop := ∃ v ∈ voidNames, SameName n v

/-- Name of a raw text element. -/
def RawName (n : List Char) : Prop :=
  SameName n "script".toList ∨ SameName n "style".toList ∨ SameName n "title".toList ∨
  SameName n "textarea".toList

/-- The kinds of start tags: void names always give void tags, other names self-closed or opening
tags depending on the slash. -/
inductive StartEvent : Identifier → Attributes → Bool → Event → Prop
  | void {t as sc} : VoidName t.str → StartEvent t as sc (.voidTag t as)
  | selfClosed {t as} : ¬ VoidName t.str → StartEvent t as true (.selfClosedTag t as)
  | opening {t as} : ¬ VoidName t.str → StartEvent t as false (.openingTag t as)

/-- The text starts like a doctype directive. -/
def DoctypeStart (s : List Char) : Prop :=
  ∃ w d r, s = "<!".toList ++ w ++ d ++ r ∧ Blank w ∧ SameName d "doctype".toList ∧ Ends r

/-- The text starts like a comment. -/
def CommentStart (s : List Char) : Prop := "<!--".toList <+: s

/-- How an event outside raw text is spelled. -/
inductive Piece : Event → List Char → Prop
  | data {s} : s ≠ [] → '<' ∉ s → Piece (.data (.actual s)) s
  | comment {s} : ¬ "-->".toList <:+: s →
      Piece (.comment (.actual s)) ("<!--".toList ++ s ++ "-->".toList)
  | doctype {w₁ d w₂ c w₃} : Blank w₁ → SameName d "doctype".toList → Blank w₂ → Ends (w₂ ++ c) →
      SameName c "html".toList → Blank w₃ →
      Piece (.doctype (.actual c)) ("<!".toList ++ w₁ ++ d ++ w₂ ++ c ++ w₃ ++ ['>'])
  | closing {w₁ w₂ n w₃} : Blank w₁ → Blank w₂ → Name n → Blank w₃ → Ends (w₃ ++ ['>']) →
      Piece (.closingTag (owned n)) ('<' :: w₁ ++ '/' :: w₂ ++ n ++ w₃ ++ ['>'])
  | start {w₁ n w₂ as sc r e} : Blank w₁ → Name n → Blank w₂ → Ends (w₂ ++ r) → TagTail as sc r →
      ¬ CommentStart ('<' :: w₁ ++ n ++ w₂ ++ r) → ¬ DoctypeStart ('<' :: w₁ ++ n ++ w₂ ++ r) →
      StartEvent (owned n) as sc e → Piece e ('<' :: w₁ ++ n ++ w₂ ++ r)

/-- A document: events with their spellings. -/
abbrev Doc := List (Event × List Char)

/-- The text of a document. -/
def Doc.text (d : Doc) : List Char := d.flatMap Prod.snd

/-- The events of a document. -/
def Doc.events (d : Doc) : List Event := d.map Prod.fst

/-- A closing tag of this name starts the text. -/
def ClosesAt (t : List Char) (s : List Char) : Prop :=
  ∃ n p r, s = p ++ r ∧ Piece (.closingTag n) p ∧ SameName n.str t

/-- The event opens a raw text element of the given name. -/
def OpensRaw (e : Event) (t : List Char) : Prop :=
  ∃ as, e = .openingTag (owned t) as ∧ RawName t

/-- How spellings are put together, when the text `b` follows: data is as long as possible, and the
text after the opening tag of a raw text element is taken verbatim up to the first closing tag of
that element. -/
inductive Reads : Doc → List Char → Prop
  | nil {b} : Reads [] b
  | plain {e p d b} : Piece e p → (¬ ∃ t, OpensRaw e t) →
      (∀ s c, e = .data s → (Doc.text d ++ b).head? = some c → c = '<') → Reads d b →
      Reads ((e, p) :: d) b
  | rawStart {e p t b} : Piece e p → OpensRaw e t → Reads [(e, p)] b
  | raw {e p t c d b} : Piece e p → OpensRaw e t →
      (∀ x y, c = x ++ y → y ≠ [] → ¬ ClosesAt t (y ++ (Doc.text d ++ b))) →
      (Doc.text d ++ b = [] → c ≠ []) → (Doc.text d ++ b ≠ [] → ClosesAt t (Doc.text d ++ b)) →
      Reads d b → Reads ((e, p) :: (.rawData (.actual c), c) :: d) b

/-- The event neither opens nor closes an element. -/
def Leaf : Event → Prop
  | .openingTag _ _ => False
  | .closingTag _ => False
  | _ => True

/-- Well nested with nesting depth at most `n`. -/
inductive Nests : Nat → List Event → Prop
  | nil {n} : Nests n []
  | leaf {n e es} : Leaf e → Nests n es → Nests n (e :: es)
  | element {n t as c inner es} : SameName c.str t.str → Nests n inner → Nests (n + 1) es →
      Nests (n + 1) (.openingTag t as :: (inner ++ .closingTag c :: es))

/-- Well nested. -/
def Balanced (es : List Event) : Prop := ∃ n, Nests n es

/-- The position after a text, counted from the beginning of the input. -/
def posAfter (a : List Char) : Location :=
  ⟨1 + a.count '\n', 1 + (a.reverse.takeWhile (· ≠ '\n')).length, (a.map Char.utf8Size).sum⟩

/-- The length of the text in bytes obeys the limit. -/
def Fits (limit : Option Nat) (s : List Char) : Prop :=
  ∀ n, limit = some n → (s.map Char.utf8Size).sum ≤ n

/-- The location is a position in the text, with the text from there on being `b`. -/
def IsPos (s : List Char) (l : Location) (b : List Char) : Prop :=
  ∃ a, s = a ++ b ∧ l = posAfter a

/-- Attributes of a start tag, when the text `r` follows. -/
inductive AttrsThen : Attributes → List Char → List Char → Prop
  | nil {r} : Tight r → AttrsThen [] [] r
  | bare {n w t r as} : Name n → Blank w → Ends (w ++ (t ++ r)) → (t ++ r).head? ≠ some '=' →
      AttrsThen as t r → AttrsThen (⟨owned n, none⟩ :: as) (n ++ w ++ t) r
  | valued {n w₁ w₂ w₃ v w₄ t r as} : Name n → Blank w₁ → Ends (w₁ ++ ['=']) → Blank w₂ →
      Blank w₃ → Tight v → '"' ∉ v → Blank w₄ → AttrsThen as t r →
      AttrsThen (⟨owned n, some (.actual v)⟩ :: as)
        (n ++ w₁ ++ '=' :: w₂ ++ '"' :: w₃ ++ v ++ '"' :: w₄ ++ t) r

/-- A word followed by `r` that is no valid identifier. -/
def BadWord (e : IdentifierError) (s : List Char) : Prop :=
  ∃ n r, s = n ++ r ∧ n ≠ [] ∧ (∀ c ∈ n, c ∉ terminators) ∧ Ends r ∧ IdentError n e

/-- What can go wrong in a start tag of the given name after some attributes, with `a` the text of
the input before the defect and `r` the text from there. -/
inductive TailFail (tag : List Char) : List Char → List Char → ParseError → Prop
  | identifier {a r e} : BadWord e r → TailFail tag a r (.invalidAttributeIdentifier (posAfter a) e)
  | value {a n w₁ w₂ r} : Name n → Blank w₁ → Ends (w₁ ++ ['=']) → Blank w₂ → Tight r →
      r.head? ≠ some '"' →
      TailFail tag a (n ++ w₁ ++ '=' :: w₂ ++ r)
        (.invalidAttributeValue (posAfter (a ++ n ++ w₁ ++ '=' :: w₂)) tag n)
  | unclosedValue {a n w₁ w₂ r} : Name n → Blank w₁ → Ends (w₁ ++ ['=']) → Blank w₂ → '"' ∉ r →
      TailFail tag a (n ++ w₁ ++ '=' :: w₂ ++ '"' :: r)
        (.unclosedAttributeValue (posAfter (a ++ n ++ w₁ ++ '=' :: w₂)) tag n)
  | noEnd {a r} : Ends r → r.head? ≠ some '/' → r.head? ≠ some '>' →
      TailFail tag a r (.expectedOpeningTagClose tag (posAfter a))
  | noEndSlash {a w r} : Blank w → Tight r → r.head? ≠ some '>' →
      TailFail tag a ('/' :: w ++ r) (.expectedOpeningTagClose tag (posAfter (a ++ '/' :: w)))

/-- What can go wrong when reading one piece, with `a` the text of the input before it, and `b`
the text from there. -/
inductive LexFail : List Char → List Char → ParseError → Prop
  | unclosedComment {a r} : ¬ "-->".toList <:+: r →
      LexFail a ("<!--".toList ++ r) (.unclosedComment (posAfter a))
  | unclosedDoctype {a w d r} : Blank w → SameName d "doctype".toList → Ends r → '>' ∉ r →
      LexFail a ("<!".toList ++ w ++ d ++ r) (.unclosedDoctype (posAfter a))
  | unsupportedDoctype {a w d u c v r} : Blank w → SameName d "doctype".toList → Blank u →
      '>' ∉ c → Tight c → Tight c.reverse → Blank v → Ends (u ++ c ++ v ++ ['>']) →
      ¬ SameName c "html".toList →
      LexFail a ("<!".toList ++ w ++ d ++ u ++ c ++ v ++ '>' :: r)
        (.unsupportedDoctype (posAfter a) c)
  | closingIdentifier {a w₁ w₂ r} : Blank w₁ → Blank w₂ → Tight r → Ends r →
      LexFail a ('<' :: w₁ ++ '/' :: w₂ ++ r)
        (.expectedClosingTagIdentifier (posAfter (a ++ '<' :: w₁ ++ '/' :: w₂)))
  | closingInvalid {a w₁ w₂ r e} : Blank w₁ → Blank w₂ → Tight r → BadWord e r →
      LexFail a ('<' :: w₁ ++ '/' :: w₂ ++ r)
        (.invalidClosingTagIdentifier (posAfter (a ++ '<' :: w₁ ++ '/' :: w₂)) e)
  | closingEnd {a w₁ w₂ n w₃ r} : Blank w₁ → Blank w₂ → Name n → Blank w₃ → Ends (w₃ ++ r) →
      Tight r → r.head? ≠ some '>' →
      LexFail a ('<' :: w₁ ++ '/' :: w₂ ++ n ++ w₃ ++ r)
        (.expectedClosingTagClose n (posAfter (a ++ '<' :: w₁ ++ '/' :: w₂ ++ n ++ w₃)))
  | openingIdentifier {a w₁ r} : Blank w₁ → Tight r → Ends r → r.head? ≠ some '/' →
      LexFail a ('<' :: w₁ ++ r) (.expectedOpeningTagIdentifier (posAfter (a ++ '<' :: w₁)))
  | openingInvalid {a w₁ r e} : Blank w₁ → Tight r → BadWord e r →
      ¬ CommentStart ('<' :: w₁ ++ r) → ¬ DoctypeStart ('<' :: w₁ ++ r) →
      LexFail a ('<' :: w₁ ++ r) (.invalidOpeningTagIdentifier (posAfter (a ++ '<' :: w₁)) e)
  | openingTail {a w₁ n w₂ as t r e} : Blank w₁ → Name n → Blank w₂ → Ends (w₂ ++ (t ++ r)) →
      AttrsThen as t r → TailFail n (a ++ '<' :: w₁ ++ n ++ w₂ ++ t) r e →
      ¬ CommentStart ('<' :: w₁ ++ n ++ w₂ ++ t ++ r) →
      ¬ DoctypeStart ('<' :: w₁ ++ n ++ w₂ ++ t ++ r) →
      LexFail a ('<' :: w₁ ++ n ++ w₂ ++ t ++ r) e

/-- An open element with the text before its opening tag. -/
abbrev Opened := Identifier × List Char

/-- The elements open after a document, innermost first, when `a` is the text before the document
and `st` the elements open there. At most `limit` elements may be open. -/
inductive Opens (limit : Option Nat) : List Char → List Opened → Doc → List Opened → Prop
  | nil {a st} : Opens limit a st [] st
  | opening {a st t as p d st'} : limit ≠ some st.length →
      Opens limit (a ++ p) ((t, a) :: st) d st' → Opens limit a st ((.openingTag t as, p) :: d) st'
  | closing {a st c t x p d st'} : SameName c.str t.str → Opens limit (a ++ p) st d st' →
      Opens limit a ((t, x) :: st) ((.closingTag c, p) :: d) st'
  | leaf {a st e p d st'} : Leaf e → Opens limit (a ++ p) st d st' →
      Opens limit a st ((e, p) :: d) st'

/-- How an open element is reported. -/
def Opened.report (o : Opened) : List Char × Location := (o.1.str, posAfter o.2)

/-- What can go wrong after a readable document with text `a`, when `st` are the open elements and
`b` is the text that follows. -/
inductive Fails (limit : Option Nat) : List Char → List Opened → List Char → ParseError → Prop
  | missing {a o st} : Fails limit a (o :: st) []
      (.missingClosingTags o.report (st.reverse.map Opened.report))
  | lex {a st b e} : b ≠ [] → LexFail a b e → Fails limit a st b e
  | tooDeep {a st t as p r n} : Piece (.openingTag t as) p → limit = some n → n = st.length →
      Fails limit a st (p ++ r) (.stackLimitExceeded t.str (posAfter a) n)
  | unexpected {a c p r} : Piece (.closingTag c) p →
      Fails limit a [] (p ++ r) (.unexpectedClosingTag c.str (posAfter a))
  | mismatched {a o st c p r} : Piece (.closingTag c) p → ¬ SameName c.str o.1.str →
      Fails limit a (o :: st) (p ++ r)
        (.mismatchedClosingTag o.1.str (posAfter o.2) c.str (posAfter a))

/-- The document stops in the middle of a raw text element. -/
def InRaw (d : Doc) : Prop := ∃ d' e p t, d = d' ++ [(e, p)] ∧ OpensRaw e t

end Fuser.Spec
