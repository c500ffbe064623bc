import Verif.Model.Api
import Verif.Spec.Messages
import Verif.Spec.Rewrite

/-!
# Selection calls and the errors they report
-/

namespace Fuser.Spec

/-- The selection calls on a stream, with the selector open. -/
def selectionCalls {a k k' : Kind} (p : Prog a k) (b : Nat → Prog .elem k') :
    List (Except StreamError Selector → Prog a .gen) :=
  [fun s => p.select s b, fun s => p.selectOnce s (b 0), fun s => p.selectDirect s b,
    fun s => p.selectDirectOnce s (b 0)]

/-- The selection calls on an element stream, with the selector open. -/
def subselectionCalls {a k' : Kind} (q : Prog a .elem) (b : Nat → Prog .elem k') :
    List (Except StreamError Selector → Prog a .elem) :=
  [fun s => q.subselect s b, fun s => q.subselectOnce s (b 0), fun s => q.subselectDirect s b,
    fun s => q.subselectDirectOnce s (b 0)]

/-- An error of a transform about an identifier in a selector of the given kind. -/
def Blames (kind : ErrorKind) (i : IdentifierError) (r : Option (Except StreamError (List Event))) :
    Prop :=
  ∃ s c, r = some (.error s) ∧ followed 1 (.stream s) = some c ∧ errorType c = .selector ∧
    errorKind c = kind ∧ followed 2 (.stream s) = some (.identifier i)

end Fuser.Spec
