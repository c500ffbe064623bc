import Verif.Spec.Rewrite

/-!
# Specification of laws for transforms
-/

namespace Fuser.Spec

/-- Calls that treat every part of a page alike: they neither number the matches, nor stop after the
first one, nor add something at the ends. What a selected element is changed into is arbitrary. -/
def Local {a k : Kind} : Prog a k → Prop
  | .src => True
  | .forget p => Local p
  | .apply p q => Local p ∧ Local q
  | .fallOk p => Local p
  | .fallErr _ => True
  | .selectRaw p _ _ b => Local p ∧ ∀ i, b i = b 0
  | .remove p => Local p
  | .orElse p n r q => Local p ∧ (0 < n → Local r) ∧ (n = 0 → Local q)
  | _ => False

/-- The element start with changed attributes. -/
def withAttributes (op : Attributes → Attributes) : Event → Event
  | .openingTag t as => .openingTag t (op as)
  | .selfClosedTag t as => .selfClosedTag t (op as)
  | .voidTag t as => .voidTag t (op as)
  | e => e

/-- A change of attributes and contents of an element that leaves the element selected. -/
def StaysSelected (s : Selector) {a k : Kind} : Prog a k → Prop
  | .src => True
  | .forget p => StaysSelected s p
  | .apply p q => StaysSelected s p ∧ StaysSelected s q
  | .fallOk p => StaysSelected s p
  | .attr p op => StaysSelected s p ∧
      ∀ e, s.matches e = true → s.matches (withAttributes op.apply e) = true
  | .contents p _ => StaysSelected s p ∧
      ∀ t as, s.matches (.selfClosedTag t as) = true → s.matches (.openingTag t as) = true
  | _ => False

/-- Only changes of attributes. -/
def OnlyAttributes {a k : Kind} : Prog a k → Prop
  | .src => True
  | .forget p => OnlyAttributes p
  | .apply p q => OnlyAttributes p ∧ OnlyAttributes q
  | .fallOk p => OnlyAttributes p
  | .attr p _ => OnlyAttributes p
  | _ => False

/-- What is done to the attributes. -/
def change {a k : Kind} : Prog a k → Attributes → Attributes
  | .forget p, as => change p as
  | .apply p q, as => change q (change p as)
  | .fallOk p, as => change p as
  | .attr p op, as => op.apply (change p as)
  | _, as => as

/-- The selector does not see the change. -/
def Blind (s : Selector) (op : Attributes → Attributes) : Prop :=
  ∀ e, s.matches (withAttributes op e) = s.matches e

/-- The name of the attributes a call is about. -/
def aboutName : AttrOp → List Char
  | .removeClass _ => "class".toList
  | .removeAttribute n => n.str
  | .addAttribute n _ => n.str
  | .replaceAttribute n _ => n.str
  | .addToAttribute n _ _ => n.str
  | .setAttribute n _ => n.str

/-- The identifiers in the call are valid, as all identifiers the crate lets users make. -/
def ValidCall : AttrOp → Prop
  | .removeClass c => ValidIdent c.str
  | .removeAttribute n => ValidIdent n.str
  | .addAttribute n _ => ValidIdent n.str
  | .replaceAttribute n _ => ValidIdent n.str
  | .addToAttribute n _ _ => ValidIdent n.str
  | .setAttribute n _ => ValidIdent n.str

/-- The attributes a selector looks at. -/
def looksAt : Selector → List (List Char)
  | .id _ => ["id".toList]
  | .tag _ => []
  | .class _ => ["class".toList]
  | .classes _ => ["class".toList]
  | .static _ i c => (if i.isSome then ["id".toList] else []) ++
      if c.isSome then ["class".toList] else []
  | .custom _ => []

/-- The same calls with other contents. -/
def withContents (f : Content → Content) {a k : Kind} : Prog a k → Prog a k
  | .src => .src
  | .forget p => .forget (withContents f p)
  | .apply p q => .apply (withContents f p) (withContents f q)
  | .fallOk p => .fallOk (withContents f p)
  | .fallErr e => .fallErr e
  | .selectRaw p s direct b => .selectRaw (withContents f p) s direct fun i => withContents f (b i)
  | .selectOnceRaw p s direct b => .selectOnceRaw (withContents f p) s direct (withContents f b)
  | .remove p => .remove (withContents f p)
  | .prepend p c => .prepend (withContents f p) (f c)
  | .append p c => .append (withContents f p) (f c)
  | .repeat p n b => .repeat (withContents f p) n fun i => withContents f (b i)
  | .orElse p n r q => .orElse (withContents f p) n (withContents f r) (withContents f q)
  | .applyTemplate p g => .applyTemplate (withContents f p) g
  | .contents p b => .contents (withContents f p) (withContents f b)
  | .attr p op => .attr (withContents f p) op

/-- Results without the placeholders. -/
def visible (rs : List (Except StreamError Event)) : List (Except StreamError Event) :=
  rs.filter fun r => match r with
    | .ok .noop => false
    | _ => true

/-- The content is left alone, except that user-defined streams stop for good at their first end or
error. -/
def stopped : Content → Content
  | .script rs => .script ((untilEnd rs).map fun r => r.map some)
  | .resultOk c => .resultOk (stopped c)
  | c => c

end Fuser.Spec
