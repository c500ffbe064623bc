import Verif.Spec.Grammar

/-!
# Specification of canonical event lists

The event lists the parser can produce, except that a tag must not look like a comment or doctype
when written without white space before its name.
-/

namespace Fuser.Spec

/-- The same text, owned. -/
def ownText (d : Deferred) : Deferred := .actual d.str

/-- The same identifier, owned. -/
def ownName (i : Identifier) : Identifier := ⟨ownText i.text⟩

/-- The same attributes, owned. -/
def ownAttributes (as : Attributes) : Attributes :=
  as.map fun a => ⟨ownName a.name, a.value.map ownText⟩

/-- The same event, with all texts owned instead of static. -/
def ownEvent : Event → Event
  | .noop => .noop
  | .doctype c => .doctype (ownText c)
  | .comment c => .comment (ownText c)
  | .data c => .data (ownText c)
  | .rawData c => .rawData (ownText c)
  | .openingTag t as => .openingTag (ownName t) (ownAttributes as)
  | .closingTag t => .closingTag (ownName t)
  | .selfClosedTag t as => .selfClosedTag (ownName t) (ownAttributes as)
  | .voidTag t as => .voidTag (ownName t) (ownAttributes as)

/-- Attributes that can be written in a tag: names, and values without quotes and leading white
space. -/
def PlainAttributes (as : Attributes) : Prop :=
  ∀ a ∈ as, Name a.name.str ∧ ∀ v, a.value = some v → Tight v.str ∧ '"' ∉ v.str

/-- A start tag that looks like a comment or doctype when written without white space before its
name. -/
def LooksLikeDirective (t : Identifier) (as : Attributes) : Prop :=
  "!--".toList <+: t.str ∨ SameName t.str "!doctype".toList ∨
  (t.str = "!".toList ∧ ∃ a, as.head? = some a ∧ SameName a.name.str "doctype".toList)

/-- Events that can be written outside raw text. -/
def Writable : Event → Prop
  | .noop => False
  | .rawData _ => False
  | .doctype c => SameName c.str "html".toList
  | .comment c => ¬ "-->".toList <:+: c.str
  | .data c => c.str ≠ [] ∧ '<' ∉ c.str
  | .closingTag t => Name t.str
  | .openingTag t as => Name t.str ∧ ¬ VoidName t.str ∧ PlainAttributes as
  | .selfClosedTag t as => Name t.str ∧ ¬ VoidName t.str ∧ PlainAttributes as
  | .voidTag t as => Name t.str ∧ VoidName t.str ∧ PlainAttributes as

/-- The event is a start tag that looks like a directive. -/
def Confusing : Event → Prop
  | .openingTag t as => LooksLikeDirective t as
  | .selfClosedTag t as => LooksLikeDirective t as
  | .voidTag t as => LooksLikeDirective t as
  | _ => False

/-- Event lists with data, raw text and closing tags of raw text elements in their places. -/
inductive Canonical : List Event → Prop
  | nil : Canonical []
  | plain {e es} : Writable e → (∀ t as, e = .openingTag t as → ¬ RawName t.str) →
      (∀ c c', e = .data c → es.head? ≠ some (.data c')) → Canonical es → Canonical (e :: es)
  | raw {t as c n es} : Writable (.openingTag t as) → RawName t.str → SameName n.str t.str →
      (∀ x p y m, c.str = x ++ p ++ y → Piece (.closingTag m) p → ¬ SameName m.str t.str) →
      Canonical (.closingTag n :: es) →
      Canonical (.openingTag t as :: .rawData c :: .closingTag n :: es)

/-- `Reread es es'`: the events `es`, written and read again, are `es'`. Data right after the
opening tag of a raw text element is read as raw text; everything else is read as what it is. -/
inductive Reread : List Event → List Event → Prop
  | nil : Reread [] []
  | raw {t as d es es'} : RawName t.str → Reread es es' →
      Reread (.openingTag t as :: .data d :: es) (.openingTag t as :: .rawData d :: es')
  | keep {e es es'} :
      (∀ t as d, e = .openingTag t as → RawName t.str → es.head? ≠ some (.data d)) →
      Reread es es' → Reread (e :: es) (e :: es')

end Fuser.Spec
