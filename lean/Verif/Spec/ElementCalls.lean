import Verif.Spec.Rewrite
import Verif.Spec.Attr

/-!
# Specification of chains of calls on one element

What a chain of calls about attributes and contents comes down to.
-/

namespace Fuser.Spec

/-- A call on an element: attributes are set, removed or added, and events are put before or behind the
contents or in place of them, or the contents are removed. -/
inductive ElementCall
  | set (n : Identifier) (v : Option Value)
  | remove (n : Identifier)
  | add (n : Identifier) (v : Option Value)
  | before (es : List Event)
  | behind (es : List Event)
  | instead (es : List Event)
  | clear

/-- The call of the crate. -/
def ElementCall.on {a : Kind} (p : Prog a .elem) : ElementCall → Prog a .elem
  | .set n v => p.setAttribute (.ok n) v
  | .remove n => p.removeAttribute (.ok n)
  | .add n v => p.addAttribute (.ok n) v
  | .before es => p.prependContents (.template ⟨es⟩)
  | .behind es => p.appendContents (.template ⟨es⟩)
  | .instead es => p.replaceContents (.template ⟨es⟩)
  | .clear => p.removeContents

/-- Names are valid, and contents are pages. -/
def ElementCall.Proper : ElementCall → Prop
  | .set n _ => ValidIdent n.str
  | .remove n => ValidIdent n.str
  | .add n _ => ValidIdent n.str
  | .before es => Page es
  | .behind es => Page es
  | .instead es => Page es
  | .clear => True

/-- Calls one after the other. -/
abbrev Chain := List ElementCall

namespace Chain

/-- The calls on an element. -/
def calls (cs : Chain) : Prog .elem .elem := cs.foldl ElementCall.on .src

/-- The names that are set or removed. -/
def names : Chain → List Identifier
  | [] => []
  | .set n _ :: cs => n :: names cs
  | .remove n :: cs => n :: names cs
  | _ :: cs => names cs

/-- Attributes of this name are set or removed. -/
def Touches (cs : Chain) (n : Identifier) : Prop := ∃ m ∈ names cs, SameName n.str m.str

open Classical in
/-- The attributes that are put in and not touched later. -/
noncomputable def left : Chain → Attributes
  | [] => []
  | .set n v :: cs => if Touches cs n then left cs else ⟨n, v⟩ :: left cs
  | .add n v :: cs => if Touches cs n then left cs else ⟨n, v⟩ :: left cs
  | _ :: cs => left cs

open Classical in
/-- The attributes in the end: those that are not touched, and those that were put in. -/
noncomputable def attributes (cs : Chain) (as : Attributes) : Attributes :=
  as.filter (fun a => decide (¬ Touches cs a.name)) ++ left cs

/-- Some call is about the contents. -/
def opens : Chain → Bool
  | [] => false
  | .set _ _ :: cs => opens cs
  | .remove _ :: cs => opens cs
  | .add _ _ :: cs => opens cs
  | _ => true

/-- No call puts something in place of the contents. -/
def keeps : Chain → Bool
  | [] => true
  | .instead _ :: _ => false
  | .clear :: _ => false
  | _ :: cs => keeps cs

/-- What is before the contents in the end, or in place of them. -/
def front : Chain → List Event
  | [] => []
  | .before es :: cs => front cs ++ if keeps cs then es else []
  | .instead es :: cs => front cs ++ if keeps cs then es else []
  | _ :: cs => front cs

/-- What is behind the contents in the end. -/
def back : Chain → List Event
  | [] => []
  | .behind es :: cs => (if keeps cs then es else []) ++ back cs
  | _ :: cs => back cs

/-- The contents in the end. -/
def contents (cs : Chain) (inner : List Event) : List Event :=
  front cs ++ (if keeps cs then inner else []) ++ back cs

/-- What two chains have to have in common. -/
structure Same (cs ds : Chain) : Prop where
  touched : ∀ n, Touches cs n ↔ Touches ds n
  left : Chain.left cs = Chain.left ds
  opens : Chain.opens cs = Chain.opens ds
  keeps : Chain.keeps cs = Chain.keeps ds
  parts : Chain.keeps cs = true → front cs = front ds ∧ back cs = back ds
  whole : front cs ++ back cs = front ds ++ back ds

/-- First removals, then additions, and then at most two calls about the contents. -/
noncomputable def normal (cs : Chain) : Chain :=
  (names cs).map .remove ++ (left cs).map (fun a => .add a.name a.value) ++
    if opens cs then
      if keeps cs then [.before (front cs), .behind (back cs)]
      else [.instead (front cs ++ back cs)]
    else []

end Chain

end Fuser.Spec
