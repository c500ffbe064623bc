import Verif.Spec.Calculus

/-!
# Specification of forms

A form is a list of fields that do not meet on a page.
-/

namespace Fuser.Spec

/-- One field of a form: the elements that it is about, whether only those at the top are meant, and
what is done to them. -/
structure Field where
  selector : Selector
  direct : Bool := false
  call : Nat → Prog .elem .gen

/-- The fields are selected one after the other. -/
def fillForm : Prog .gen .gen → List Field → Prog .gen .gen
  | p, [] => p
  | p, f :: fs => fillForm (if f.direct then p.selectDirect (.ok f.selector) f.call
      else p.select (.ok f.selector) f.call) fs

/-- The calls give a result for every element. -/
def NeverFails {k : Kind} (p : Prog .elem k) : Prop :=
  ∀ es, Element es → Page es → ∃ m, run p es = some (.ok m)

/-- A selector of elements by what stands in their tags, and calls that never fail. -/
structure Field.Proper (f : Field) : Prop where
  starts : OnlyStarts f.selector
  blind : SlashBlind f.selector
  nested : ∀ i, WellNested (f.call i)
  never : ∀ i, NeverFails (f.call i)

/-- Two fields do not meet on the page, and the calls of none make a match for the other. -/
structure Field.Unlike (es : List Event) (f g : Field) : Prop where
  meet : NeverMeet f.selector g.selector es
  left : ∀ i, MakesNone g.selector (f.call i)
  right : ∀ i, MakesNone f.selector (g.call i)

/-- What the calls made of an element they make of their result again. -/
def Rests {k : Kind} (p : Prog .elem k) : Prop :=
  ∀ es m, Element es → Page es → run p es = some (.ok m) → run p m = some (.ok m)

/-- Chains of calls that set or remove attributes. -/
def SetsAndRemoves {a k : Kind} : Prog a k → Prop
  | .src => True
  | .forget p => SetsAndRemoves p
  | .apply p q => SetsAndRemoves p ∧ SetsAndRemoves q
  | .fallOk p => SetsAndRemoves p
  | .attr p (.setAttribute n _) => SetsAndRemoves p ∧ ValidIdent n.str
  | .attr p (.removeAttribute n) => SetsAndRemoves p ∧ ValidIdent n.str
  | _ => False

/-- Attributes are set or removed, and the contents are replaced or left alone. -/
inductive Filling : Prog .elem .gen → Prop
  | tag {p : Prog .elem .elem} : SetsAndRemoves p → Filling (.forget p)
  | contents {p : Prog .elem .elem} {c : Content} : SetsAndRemoves p → NoErrors c → PageContent c →
      Filling (.forget (p.replaceContents c))

end Fuser.Spec
