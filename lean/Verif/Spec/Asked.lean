import Verif.Model.UserState
import Verif.Spec.Rewrite

/-!
# How often user code runs

Numbers of calls of user code, read off the documents.
-/

namespace Fuser.Spec

variable {σ : Type}

/-- The result of a builder with user code on given events, in a given state of the user code, with
the state after it; see `run`. -/
def runUser {a k : Kind} (p : UProg σ a k) (es : List Event) (u : σ) : Option (Outcome × σ) :=
  (collectUser u [] (p.build (.tmpl es 0))).map fun x => (x.1, x.2.2)

/-- There is a result, and it is not an error. -/
def goesWell {α : Type} : Option (Except StreamError α) → Bool
  | some (.ok _) => true
  | _ => false

/-- The calls of the builder of a selection, with their number at the end and whether the end of the
forest is reached without an error. -/
def selectCalls (s : Selector) (direct : Bool) (b : Nat → Forest → Forest) :
    Nat → Nat → Forest → Nat × Bool
  | _, count, .nil => (count, true)
  | _, count, .fail _ => (count, false)
  | level, count, .leaf e rest =>
    if inScope direct level && s.matches e then
      if goesWell (some (b count (single e)).events) then
        selectCalls s direct b level (count + 1) rest
      else (count + 1, false)
    else selectCalls s direct b level count rest
  | level, count, .elem t as children close rest =>
    if inScope direct level && s.matches (.openingTag t as) then
      if goesWell (some (b count (.elem t as children close .nil)).events) then
        selectCalls s direct b level (count + 1) rest
      else (count + 1, false)
    else
      let c := selectCalls s direct b (level + 1) count children
      if c.2 then
        -- a selector that matches an end tag: the builder is called and fails
        if inScope direct (level + 1) && s.matches (.closingTag close) then (c.1 + 1, false)
        else selectCalls s direct b level c.1 rest
      else c

/-- Whether the builder that is called at the first match is called; `none` if there is an error
before that. -/
def onceCalled (s : Selector) (direct : Bool) : Nat → Forest → Option Bool
  | _, .nil => some false
  | _, .fail _ => none
  | level, .leaf e rest =>
    if inScope direct level && s.matches e then some true else onceCalled s direct level rest
  | level, .elem t as children close rest =>
    if inScope direct level && s.matches (.openingTag t as) then some true
    else
      match onceCalled s direct (level + 1) children with
      | some false =>
        if inScope direct (level + 1) && s.matches (.closingTag close) then some true
        else onceCalled s direct level rest
      | r => r

/-- The number of times an iterator of `n` items is asked: once for every item up to the first that
fails, or once more than there are items. -/
def asks (n : Nat) (ok : Nat → Bool) : Nat := ((List.range n).takeWhile ok).length + 1

/-- The number of answers a stream is asked for: events up to the first answer that is none. -/
def answers (rs : List (Except StreamError (Option Event))) : Nat :=
  (rs.takeWhile fun r => match r with | .ok (some _) => true | _ => false).length + 1

/-- The element has contents: it is not void. -/
def hasContents : Forest → Bool
  | .elem _ _ _ _ _ => true
  | .leaf (.selfClosedTag _ _) _ => true
  | _ => false

end Fuser.Spec
