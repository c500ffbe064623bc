import Verif.Spec.PerName

/-!
# Specification of calls about classes and ids
-/

namespace Fuser.Spec

/-- A call on the attributes of an element: about a class, about the id, or about attributes of another
name. -/
inductive MarkCall
  | addClass (x : Identifier)
  | removeClass (x : Identifier)
  | setId (x : Identifier)
  | removeId
  | other (op : AttrOp)

/-- The call. -/
def MarkCall.op : MarkCall → AttrOp
  | .addClass x => .addClass x
  | .removeClass x => .removeClass x
  | .setId x => .setId x
  | .removeId => .removeId
  | .other op => op

/-- The names are valid, as all that the crate lets users make, and the other calls are not about
`class` or `id`. -/
def MarkCall.Proper : MarkCall → Prop
  | .addClass x | .removeClass x | .setId x => ValidIdent x.str
  | .removeId => True
  | .other op => ValidCall op ∧ ¬ SameName (aboutName op) "class".toList ∧
      ¬ SameName (aboutName op) "id".toList

/-- No call removes the class. -/
def NotRemoved (c : List Char) (ms : List MarkCall) : Prop :=
  ∀ x, MarkCall.removeClass x ∈ ms → ¬ SameName x.str c

/-- The class was added after the last call that removes it, or it was there and no call removes it. -/
def ClassAfter (c : List Char) (ms : List MarkCall) (before : Prop) : Prop :=
  (∃ pre x post, ms = pre ++ .addClass x :: post ∧ SameName x.str c ∧ NotRemoved c post) ∨
  (before ∧ NotRemoved c ms)

/-- No call is about the id. -/
def IdLeft (ms : List MarkCall) : Prop := MarkCall.removeId ∉ ms ∧ ∀ x, MarkCall.setId x ∉ ms

/-- The last call about the id sets it to this one, or it was there and no call is about the id. -/
def IdAfter (i : List Char) (ms : List MarkCall) (before : Prop) : Prop :=
  (∃ pre x post, ms = pre ++ .setId x :: post ∧ SameName x.str i ∧ IdLeft post) ∨
  (before ∧ IdLeft ms)

end Fuser.Spec
