import Verif.Spec.Laws
import Verif.Spec.Attr

/-!
# Specification of what calls keep in its order
-/

namespace Fuser.Spec

/-- What is seen of a list of events, if `v` is what is seen of each event. -/
def seen {α : Type} (v : Event → List α) (es : List Event) : List α := es.flatMap v

/-- Two tags of an empty element in place of one keep to the comparison. -/
def OneOrTwo {α : Type} (v : Event → List α) (R : List α → List α → Prop) : Prop :=
  ∀ t as, R (v (.selfClosedTag t as)) (v (.openingTag t as) ++ v (.closingTag t))

/-- Comparisons of lists that can be made piece by piece. -/
structure Piecewise {α : Type} (R : List α → List α → Prop) : Prop where
  same : ∀ x, R x x
  trans : ∀ {x y z}, R x y → R y z → R x z
  append : ∀ {x y x' y'}, R x y → R x' y' → R (x ++ x') (y ++ y')

/-- Each call alone keeps to the comparison: what is removed, added, repeated or changed. -/
def KeepsTo {α : Type} (v : Event → List α) (R : List α → List α → Prop) {a k : Kind} :
    Prog a k → Prop
  | .src => True
  | .forget p => KeepsTo v R p
  | .apply p q => KeepsTo v R p ∧ KeepsTo v R q
  | .fallOk p => KeepsTo v R p
  | .fallErr _ => True
  | .selectRaw p _ _ b => KeepsTo v R p ∧ ∀ i, KeepsTo v R (b i)
  | .selectOnceRaw p _ _ b => KeepsTo v R p ∧ KeepsTo v R b
  | .remove _ => ∀ x, R x []
  | .prepend p c => KeepsTo v R p ∧ ∀ es, outcome (results c) = .ok es → R [] (seen v es)
  | .append p c => KeepsTo v R p ∧ ∀ es, outcome (results c) = .ok es → R [] (seen v es)
  | .repeat p n b => KeepsTo v R p ∧ (∀ i, KeepsTo v R (b i)) ∧
    ∀ x ys, List.length ys = n → (∀ y ∈ ys, R x y) → R x ys.flatten
  | .orElse p _ r q => KeepsTo v R p ∧ KeepsTo v R r ∧ KeepsTo v R q
  | .applyTemplate p g => KeepsTo v R p ∧
    ∀ t t', g t = .ok t' → R (seen v t.events) (seen v t'.events)
  | .contents p b => KeepsTo v R p ∧ KeepsTo v R b
  | .attr p op => KeepsTo v R p ∧ ∀ e, isStart e = true → R (v e) (v (withAttributes op.apply e))

/-- An event with a part of its attributes only, and with two tags for an empty element. -/
def tags (part : Attributes → Attributes) : Event → List Event
  | .openingTag t as => [.openingTag t (part as)]
  | .selfClosedTag t as => [.openingTag t (part as), .closingTag t]
  | .voidTag t as => [.voidTag t (part as)]
  | e => [e]

/-- The events without attributes, and with two tags for an empty element. -/
def bare (es : List Event) : List Event := seen (tags fun _ => []) es

/-- Calls that remove nothing. -/
def OnlyInserts {a k : Kind} : Prog a k → Prop
  | .src => True
  | .forget p => OnlyInserts p
  | .apply p q => OnlyInserts p ∧ OnlyInserts q
  | .fallOk p => OnlyInserts p
  | .fallErr _ => True
  | .selectRaw p _ _ b => OnlyInserts p ∧ ∀ i, OnlyInserts (b i)
  | .selectOnceRaw p _ _ b => OnlyInserts p ∧ OnlyInserts b
  | .remove _ => False
  | .prepend p _ => OnlyInserts p
  | .append p _ => OnlyInserts p
  | .repeat p n b => OnlyInserts p ∧ (∀ i, OnlyInserts (b i)) ∧ 1 ≤ n
  | .orElse p _ r q => OnlyInserts p ∧ OnlyInserts r ∧ OnlyInserts q
  | .applyTemplate p g => OnlyInserts p ∧
    ∀ t t', g t = .ok t' → (bare t.events).Sublist (bare t'.events)
  | .contents p b => OnlyInserts p ∧ OnlyInserts b
  | .attr p _ => OnlyInserts p

/-- Calls that give no part of the page to a function on templates. -/
def NoFunctions {a k : Kind} : Prog a k → Prop
  | .src => True
  | .forget p => NoFunctions p
  | .apply p q => NoFunctions p ∧ NoFunctions q
  | .fallOk p => NoFunctions p
  | .fallErr _ => True
  | .selectRaw p _ _ b => NoFunctions p ∧ ∀ i, NoFunctions (b i)
  | .selectOnceRaw p _ _ b => NoFunctions p ∧ NoFunctions b
  | .remove p => NoFunctions p
  | .prepend p _ => NoFunctions p
  | .append p _ => NoFunctions p
  | .repeat p _ b => NoFunctions p ∧ ∀ i, NoFunctions (b i)
  | .orElse p _ r q => NoFunctions p ∧ NoFunctions r ∧ NoFunctions q
  | .applyTemplate _ _ => False
  | .contents p b => NoFunctions p ∧ NoFunctions b
  | .attr p _ => NoFunctions p

/-- Calls that insert nothing. -/
def OnlyRemoves {a k : Kind} : Prog a k → Prop
  | .src => True
  | .forget p => OnlyRemoves p
  | .apply p q => OnlyRemoves p ∧ OnlyRemoves q
  | .fallOk p => OnlyRemoves p
  | .fallErr _ => True
  | .selectRaw p _ _ b => OnlyRemoves p ∧ ∀ i, OnlyRemoves (b i)
  | .selectOnceRaw p _ _ b => OnlyRemoves p ∧ OnlyRemoves b
  | .remove _ => True
  | .prepend _ _ => False
  | .append _ _ => False
  | .repeat p n b => OnlyRemoves p ∧ (∀ i, OnlyRemoves (b i)) ∧ n ≤ 1
  | .orElse p _ r q => OnlyRemoves p ∧ OnlyRemoves r ∧ OnlyRemoves q
  | .applyTemplate p g => OnlyRemoves p ∧
    ∀ t t', g t = .ok t' → (bare t'.events).Sublist (bare t.events)
  | .contents p b => OnlyRemoves p ∧ OnlyRemoves b
  | .attr p _ => OnlyRemoves p

/-- Calls that only change attributes of one name, anywhere in the page. -/
def OnlyAbout (n : List Char) {a k : Kind} : Prog a k → Prop
  | .src => True
  | .forget p => OnlyAbout n p
  | .apply p q => OnlyAbout n p ∧ OnlyAbout n q
  | .fallOk p => OnlyAbout n p
  | .fallErr _ => True
  | .selectRaw p _ _ b => OnlyAbout n p ∧ ∀ i, OnlyAbout n (b i)
  | .selectOnceRaw p _ _ b => OnlyAbout n p ∧ OnlyAbout n b
  | .orElse p _ r q => OnlyAbout n p ∧ OnlyAbout n r ∧ OnlyAbout n q
  | .contents p b => OnlyAbout n p ∧ OnlyAbout n b
  | .attr p op => OnlyAbout n p ∧ ValidCall op ∧ SameName (aboutName op) n
  | _ => False

end Fuser.Spec
