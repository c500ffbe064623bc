import Verif.Spec.Tree

/-!
# Specification of single transform calls on event lists
-/

namespace Fuser.Spec

/-- What comes out of a stream: events, or an error. -/
abbrev Outcome := Except StreamError (List Event)

/-- The outcome of a chain of calls on a stream with the given events; `none` if it never ends. -/
def run {a k : Kind} (p : Prog a k) (es : List Event) : Option Outcome :=
  (collect [] (p.build (.tmpl es 0))).map Prod.fst

/-- One outcome after the other: the first error wins. -/
def andThen (a b : Outcome) : Outcome := do return (← a) ++ (← b)

/-- Outcomes one after the other: the first error wins. -/
def inOrder (rs : List Outcome) : Outcome := rs.foldr andThen (.ok [])

/-- What comes out of a stream with the given results of `next_event`. -/
def outcome : List (Except StreamError Event) → Outcome
  | [] => .ok []
  | .error e :: _ => .error e
  | .ok e :: rs => andThen (.ok (if e = .noop then [] else [e])) (outcome rs)

/-- A complete element. -/
inductive Element : List Event → Prop
  | selfClosed (t as) : Element [.selfClosedTag t as]
  | void (t as) : Element [.voidTag t as]
  | pair {t as inner c} : SameName c.str t.str → Balanced inner →
      Element (.openingTag t as :: (inner ++ [.closingTag c]))

/-- The events a stream of the kind may have: element streams hold one element. -/
def Fit : Kind → List Event → Prop
  | .gen, _ => True
  | .elem, es => Element es

/-- Something at the top level: an element or an event without inside. -/
def Item (m : List Event) : Prop := Element m ∨ ∃ e, m = [e] ∧ Leaf e

/-- The selector only matches starts of elements. True for all selectors of the crate. -/
def OnlyStarts (s : Selector) : Prop := ∀ e, s.matches e = true → isStart e = true

/-- Every selector in the calls only matches starts of elements. -/
def StartSelectors {a k : Kind} : Prog a k → Prop
  | .src => True
  | .forget p => StartSelectors p
  | .apply p q => StartSelectors p ∧ StartSelectors q
  | .fallOk p => StartSelectors p
  | .fallErr _ => True
  | .selectRaw p s _ b => StartSelectors p ∧ OnlyStarts s ∧ ∀ i, StartSelectors (b i)
  | .selectOnceRaw p s _ b => StartSelectors p ∧ OnlyStarts s ∧ StartSelectors b
  | .remove p => StartSelectors p
  | .prepend p _ => StartSelectors p
  | .append p _ => StartSelectors p
  | .repeat p _ b => StartSelectors p ∧ ∀ i, StartSelectors (b i)
  | .orElse p _ r q => StartSelectors p ∧ StartSelectors r ∧ StartSelectors q
  | .applyTemplate p _ => StartSelectors p
  | .contents p b => StartSelectors p ∧ StartSelectors b
  | .attr p _ => StartSelectors p

/-- The error is written somewhere in the calls: an invalid selector or identifier, an error of a
content, or an error of a function on templates. -/
def Raises {a k : Kind} : Prog a k → StreamError → Prop
  | .src, _ => False
  | .forget p, e => Raises p e
  | .apply p q, e => Raises p e ∨ Raises q e
  | .fallOk p, e => Raises p e
  | .fallErr x, e => e = x
  | .selectRaw p _ _ b, e => Raises p e ∨ ∃ i, Raises (b i) e
  | .selectOnceRaw p _ _ b, e => Raises p e ∨ Raises b e
  | .remove p, e => Raises p e
  | .prepend p c, e => Raises p e ∨ .error e ∈ results c
  | .append p c, e => Raises p e ∨ .error e ∈ results c
  | .repeat p _ b, e => Raises p e ∨ ∃ i, Raises (b i) e
  | .orElse p _ r q, e => Raises p e ∨ Raises r e ∨ Raises q e
  | .applyTemplate p g, e => Raises p e ∨ ∃ t, g t = .error e
  | .contents p b, e => Raises p e ∨ Raises b e
  | .attr p _, e => Raises p e

/-- No error is met in the forest. -/
def Sound : Forest → Prop
  | .nil => True
  | .leaf _ rest => Sound rest
  | .elem _ _ children _ rest => Sound children ∧ Sound rest
  | .fail _ => False

/-- The first error in document order. -/
inductive FirstError (e : StreamError) : Forest → Prop
  | here : FirstError e (.fail e)
  | leaf {x rest} : FirstError e rest → FirstError e (.leaf x rest)
  | inside {t as children c rest} : FirstError e children →
      FirstError e (.elem t as children c rest)
  | after {t as children c rest} : Sound children → FirstError e rest →
      FirstError e (.elem t as children c rest)

/-- `es` is rewritten to `r`: every element whose start matches is given to the builder as a whole,
everything else is kept. `i` counts the calls of the builder. -/
inductive Rewrites (s : Selector) (b : Nat → List Event → Option Outcome) :
    Nat → List Event → Outcome → Prop
  | nil {i} : Rewrites s b i [] (.ok [])
  | keep {i e es r} : s.matches e = false → Rewrites s b i es r →
      Rewrites s b i (e :: es) (andThen (.ok [e]) r)
  | swap {i e m es r r'} : Element (e :: m) → s.matches e = true → b i (e :: m) = some r →
      Rewrites s b (i + 1) es r' → Rewrites s b i (e :: m ++ es) (andThen r r')

/-- As `Rewrites`, but only for the elements at the top level. -/
inductive RewritesTop (s : Selector) (b : Nat → List Event → Option Outcome) :
    Nat → List Event → Outcome → Prop
  | nil {i} : RewritesTop s b i [] (.ok [])
  | keep {i e m es r} : Item (e :: m) → s.matches e = false → RewritesTop s b i es r →
      RewritesTop s b i (e :: m ++ es) (andThen (.ok (e :: m)) r)
  | swap {i e m es r r'} : Element (e :: m) → s.matches e = true → b i (e :: m) = some r →
      RewritesTop s b (i + 1) es r' → RewritesTop s b i (e :: m ++ es) (andThen r r')

/-- No item at the top level matches. -/
inductive NoneOnTop (s : Selector) : List Event → Prop
  | nil : NoneOnTop s []
  | cons {e m es} : Item (e :: m) → s.matches e = false → NoneOnTop s es →
      NoneOnTop s (e :: m ++ es)

end Fuser.Spec
