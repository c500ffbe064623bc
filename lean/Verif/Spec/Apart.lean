import Verif.Spec.Keep

/-!
# Specification of selections that do not meet
-/

namespace Fuser.Spec

/-- No event is matched. -/
def Unmatched (s : Selector) (es : List Event) : Prop := ∀ e ∈ es, s.matches e = false

/-- Elements matched by one of the selectors have nothing in them, themselves included, that the other
one matches. -/
def NeverMeet (s r : Selector) (es : List Event) : Prop :=
  ∀ x e m y, es = x ++ (e :: m) ++ y → Element (e :: m) →
    (s.matches e = true → Unmatched r (e :: m)) ∧ (r.matches e = true → Unmatched s (e :: m))

/-- The selector does not see whether an element is closed by a slash. -/
def SlashBlind (s : Selector) : Prop :=
  ∀ t as, s.matches (.selfClosedTag t as) = s.matches (.openingTag t as)

/-- The calls make no match: from a page without matches, they make one without matches. -/
def MakesNone (s : Selector) {a k : Kind} (p : Prog a k) : Prop :=
  Keeps (fun e => s.matches e = false) p

/-- The calls never fail on a matched element, and leave no match of it. -/
def Clears (s : Selector) {k : Kind} (p : Prog .elem k) : Prop :=
  ∀ e m, Element (e :: m) → Page (e :: m) → s.matches e = true →
    ∃ m', run p (e :: m) = some (.ok m') ∧ Unmatched s m'

/-- The first match is selected, and then the first one of what is left, as often as the number
tells; each time with the next builder. -/
def oneByOne (s : Selector) {k : Kind} (b : Nat → Prog .elem k) : Nat → Prog .gen .gen
  | 0 => .src
  | n + 1 => (oneByOne s b n).selectOnce (.ok s) (b n)

/-- The selector that matches what one of two selectors matches. -/
def anyOf (s r : Selector) : Selector := .custom fun e => s.matches e || r.matches e

end Fuser.Spec
