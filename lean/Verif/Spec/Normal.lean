import Verif.Spec.Canonical
import Verif.Spec.Tree

/-!
# Specification of what a page looks like after rendering and parsing

Neighbouring texts are one text, empty texts are gone, white space at the beginning of attribute
values is gone, and everything in a raw text element is one raw text.
-/

namespace Fuser.Spec

/-- The text without leading white space, owned. -/
def stripText (d : Deferred) : Deferred := .actual (d.str.dropWhile fun c => decide (Space c))

/-- The attributes without leading white space in values, owned. -/
def stripAttributes (as : Attributes) : Attributes :=
  as.map fun a => ⟨ownName a.name, a.value.map stripText⟩

/-- The event with all texts owned, and no leading white space in attribute values. -/
def stripEvent : Event → Event
  | .openingTag t as => .openingTag (ownName t) (stripAttributes as)
  | .selfClosedTag t as => .selfClosedTag (ownName t) (stripAttributes as)
  | .voidTag t as => .voidTag (ownName t) (stripAttributes as)
  | e => ownEvent e

/-- A text before a page. -/
def addText (s : List Char) : List Event → List Event
  | .data c :: es => .data (.actual (s ++ c.str)) :: es
  | es => if s = [] then es else .data (.actual s) :: es

/-- Neighbouring texts are joined, empty texts are dropped. -/
def joined : List Event → List Event
  | [] => []
  | .data c :: es => addText c.str (joined es)
  | e :: es => stripEvent e :: joined es

/-- The event is neither text nor raw text. -/
def notText : Event → Bool
  | .data _ => false
  | .rawData _ => false
  | _ => true

/-- Attributes that can be written in a tag: names, and values without quotes. -/
def SpelledAttributes (as : Attributes) : Prop :=
  ∀ a ∈ as, Name a.name.str ∧ ∀ v, a.value = some v → '"' ∉ v.str

/-- Events other than text that can be written outside raw text. -/
def Spelled : Event → Prop
  | .noop => False
  | .rawData _ => False
  | .data _ => False
  | .doctype c => SameName c.str "html".toList
  | .comment c => ¬ "-->".toList <:+: c.str
  | .closingTag t => Name t.str
  | .openingTag t as => Name t.str ∧ ¬ VoidName t.str ∧ SpelledAttributes as
  | .selfClosedTag t as => Name t.str ∧ ¬ VoidName t.str ∧ SpelledAttributes as
  | .voidTag t as => Name t.str ∧ VoidName t.str ∧ SpelledAttributes as

/-- The events are texts, together this text. -/
inductive Texts : List Event → List Char → Prop
  | nil : Texts [] []
  | data {c es s} : Texts es s → Texts (.data c :: es) (c.str ++ s)
  | raw {c es s} : Texts es s → Texts (.rawData c :: es) (c.str ++ s)

/-- The second list is what the first one looks like after rendering and parsing. -/
inductive Normal : List Event → List Event → Prop
  | nil : Normal [] []
  | data {c es ms} : '<' ∉ c.str → Normal es ms → Normal (.data c :: es) (addText c.str ms)
  | plain {e es ms} : Spelled e → ¬ Confusing e → (∀ t as, e = .openingTag t as → ¬ RawName t.str) →
      Normal es ms → Normal (e :: es) (stripEvent e :: ms)
  | raw {t as ts s n es ms} : Spelled (.openingTag t as) → ¬ Confusing (.openingTag t as) →
      RawName t.str → Texts ts s →
      (∀ x p y m, s = x ++ p ++ y → Piece (.closingTag m) p → ¬ SameName m.str t.str) →
      SameName n.str t.str → Name n.str → Normal es ms →
      Normal (.openingTag t as :: (ts ++ .closingTag n :: es))
        (.openingTag (ownName t) (stripAttributes as) :: .rawData (.actual s) ::
          .closingTag (ownName n) :: ms)

end Fuser.Spec
