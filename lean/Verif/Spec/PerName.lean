import Verif.Spec.Laws
import Verif.Spec.Report

/-!
# Specification of attribute calls name by name
-/

namespace Fuser.Spec

/-- Attribute calls one after the other. -/
def attrCalls (ops : List AttrOp) : Prog .elem .elem := ops.foldl .attr .src

open Classical in
/-- The calls about attributes of this name, in order. -/
noncomputable def aboutOnly (n : List Char) (ops : List AttrOp) : List AttrOp :=
  ops.filter fun op => decide (SameName (aboutName op) n)

/-- The element start with its attributes of this name only. -/
noncomputable def onlyNamed (n : List Char) (e : Event) : Event := withAttributes (ofName n) e

end Fuser.Spec
