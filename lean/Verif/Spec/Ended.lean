import Verif.Model.UserState

/-!
# Streams pulled again and again

What a caller of `Stream::next_event` sees who does not stop at the end of the stream or at an
error.
-/

namespace Fuser.Spec

variable {σ : Type}

/-- The results of the first pulls of a stream; `none` if one of them does not return. -/
def pulls : Nat → Env → Node → Option (List Res)
  | 0, _, _ => some []
  | m + 1, env, n => do
    let (r, n, env) ← next env n
    let rs ← pulls m env n
    some (r :: rs)

/-- The results of the first pulls of a stream with user code, with the state of the user code after
each. -/
def pullsUser : Nat → σ → UEnv σ → UNode σ → Option (List (Res × σ))
  | 0, _, _, _ => some []
  | m + 1, u, env, n => do
    let (r, n, env, u) ← nextUser u env n
    let rs ← pullsUser m u env n
    some ((r, u) :: rs)

/-- The result is an event. -/
def IsEvent (r : Res) : Prop := ∃ e, r = .ev e

/-- The first result that is no event is followed by ends only, and no user code runs after it. -/
inductive StaysEnded : List (Res × σ) → Prop
  | nil : StaysEnded []
  | ev {e u rs} : StaysEnded rs → StaysEnded ((.ev e, u) :: rs)
  | last {r u rs} : ¬ IsEvent r → (∀ x ∈ rs, x = (.done, u)) → StaysEnded ((r, u) :: rs)

/-- How a stream ends. -/
def endOf : Option StreamError → Res
  | none => .done
  | some e => .err e

end Fuser.Spec
