import Verif.Spec.Messages

/-!
# Conversion of errors
-/

namespace Fuser

open Spec

/-- The error an error of a transform comes from. -/
def convertedFrom : StreamError → AnyError
  | .assertion e => .assertion e
  | .input e => .input e
  | .file e => .file e
  | .identifier e => .identifier e
  | .selector (.id e) => .id (.identifier e)
  | .selector (.tag e) => .tag (.identifier e)
  | .selector (.class e) => .class (.identifier e)
  | .selector (.classes e) => .classes e
  | .staticSelector e => .static e

theorem converted_from {e : AnyError} {s : StreamError} (h : e.toStream = some s)
    (ht : errorType e ≠ .stream) : e = convertedFrom s := by
  cases e with
  | stream e => exact absurd rfl ht
  | id e => cases e; cases h; rfl
  | tag e => cases e; cases h; rfl
  | «class» e => cases e; cases h; rfl
  | _ => cases h <;> rfl

end Fuser
