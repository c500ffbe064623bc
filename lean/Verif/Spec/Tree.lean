import Verif.Model.Api
import Verif.Spec.Grammar

/-!
# Specification of transforms: rewriting of trees

A page is a forest. The meaning of a chain of Api calls is a function on forests that never mentions
streams, states or sharing. `fail` marks the place in document order where an error is met.
-/

namespace Fuser.Spec

/-- Siblings in document order. -/
inductive Forest
  | nil
  /-- anything without an inside: text, comment, doctype, void or self-closed element -/
  | leaf (e : Event) (rest : Forest)
  /-- an element with an opening tag, children and a closing tag -/
  | elem (tag : Identifier) (attributes : Attributes) (children : Forest) (close : Identifier)
      (rest : Forest)
  /-- an error is met here -/
  | fail (error : StreamError)
  deriving DecidableEq

namespace Forest

/-- The events of the forest in document order, or the first error in document order. -/
def events : Forest → Except StreamError (List Event)
  | nil => .ok []
  | leaf e rest => do return e :: (← rest.events)
  | elem t as children close rest => do
    return .openingTag t as :: (← children.events) ++ .closingTag close :: (← rest.events)
  | fail e => .error e

/-- One forest after another. -/
def append : Forest → Forest → Forest
  | nil, g => g
  | leaf e rest, g => leaf e (rest.append g)
  | elem t as children close rest, g => elem t as children close (rest.append g)
  | fail e, _ => fail e

end Forest

/-- The results of pulling a stream, as a forest: first component. The second component has the
closing tags that are still to be matched, each with the forest after it. -/
def grow : List (Except StreamError Event) → Forest × List (Identifier × Forest)
  | [] => (.nil, [])
  | .error e :: _ => (.fail e, [])
  | .ok e :: rs =>
    match e, grow rs with
    | .noop, g => g
    | .closingTag c, (f, open') => (.nil, (c, f) :: open')
    | .openingTag t as, (f, (c, rest) :: open') => (.elem t as f c rest, open')
    | .openingTag t as, (f, []) => (.elem t as f t .nil, [])
    | e, (f, open') => (.leaf e f, open')

/-- The results of pulling a stream, as a forest. -/
def tree (rs : List (Except StreamError Event)) : Forest := (grow rs).1

/-- The events of a template as a forest. -/
def treeOf (es : List Event) : Forest := tree (es.map .ok)

/-- What a stream yields before its first end or error, with that error, if these are the results of
the calls of `next_event`. -/
def untilEnd : List (Except StreamError (Option Event)) → List (Except StreamError Event)
  | [] => []
  | .ok none :: _ => []
  | .error e :: _ => [.error e]
  | .ok (some e) :: rs => .ok e :: untilEnd rs

/-- What a content yields. -/
def results : Content → List (Except StreamError Event)
  | .data d => [.ok (.data d)]
  | .template t => t.events.map .ok
  | .script rs => untilEnd rs
  | .resultOk c => results c
  | .resultErr e => [.error e]

/-- The event starts an element. -/
def isStart : Event → Bool
  | .openingTag _ _ => true
  | .selfClosedTag _ _ => true
  | .voidTag _ _ => true
  | _ => false

/-- What a builder gets for a matched event without inside: the element, or a stream that fails
because the selector matched something that is not an element. -/
def single (e : Event) : Forest :=
  if isStart e then .leaf e .nil else .fail (.expectedOpen (some e))

/-- Whether a selector looks at depth `level`. -/
def inScope (direct : Bool) (level : Nat) : Bool := !direct || level == 0

/-- `select` and `select_direct`: matching elements are replaced by what the builder makes of them,
and not searched; other elements are kept and their children are searched. `count` numbers the
calls of the builder; the second component is the number of calls at the end. -/
def selectTree (s : Selector) (direct : Bool) (b : Nat → Forest → Forest) :
    Nat → Nat → Forest → Forest × Nat
  | _, count, .nil => (.nil, count)
  | _, count, .fail e => (.fail e, count)
  | level, count, .leaf e rest =>
    if inScope direct level && s.matches e then
      let r := selectTree s direct b level (count + 1) rest
      ((b count (single e)).append r.1, r.2)
    else
      let r := selectTree s direct b level count rest
      (.leaf e r.1, r.2)
  | level, count, .elem t as children close rest =>
    if inScope direct level && s.matches (.openingTag t as) then
      let r := selectTree s direct b level (count + 1) rest
      ((b count (.elem t as children close .nil)).append r.1, r.2)
    else
      let c := selectTree s direct b (level + 1) count children
      let r := selectTree s direct b level c.2 rest
      if inScope direct (level + 1) && s.matches (.closingTag close) then
        (.elem t as (c.1.append (b c.2 (single (.closingTag close)))) close r.1, r.2)
      else (.elem t as c.1 close r.1, r.2)

/-- `select_once` and `select_direct_once`: the first match in document order is replaced by what
the builder makes of it, everything else is kept. The second component says whether there was a
match. -/
def selectOnceTree (s : Selector) (direct : Bool) (b : Forest → Forest) :
    Nat → Forest → Forest × Bool
  | _, .nil => (.nil, false)
  | _, .fail e => (.fail e, false)
  | level, .leaf e rest =>
    if inScope direct level && s.matches e then ((b (single e)).append rest, true)
    else
      let r := selectOnceTree s direct b level rest
      (.leaf e r.1, r.2)
  | level, .elem t as children close rest =>
    if inScope direct level && s.matches (.openingTag t as) then
      ((b (.elem t as children close .nil)).append rest, true)
    else
      let c := selectOnceTree s direct b (level + 1) children
      if c.2 then (.elem t as c.1 close rest, true)
      else if inScope direct (level + 1) && s.matches (.closingTag close) then
        (.elem t as (c.1.append (b (single (.closingTag close)))) close rest, true)
      else
        let r := selectOnceTree s direct b level rest
        (.elem t as c.1 close r.1, r.2)

/-- Nothing, unless the forest fails. -/
def removed (f : Forest) : Forest :=
  match f.events with
  | .ok _ => .nil
  | .error e => .fail e

/-- The forests `b i`, ..., `b (i + n - 1)` in order. -/
def copies (b : Nat → Forest) : Nat → Nat → Forest
  | _, 0 => .nil
  | i, n + 1 => (b i).append (copies b (i + 1) n)

/-- `repeat`: a transformed copy for each item, unless the forest fails. -/
def repeated (n : Nat) (b : Nat → Forest → Forest) (f : Forest) : Forest :=
  match f.events with
  | .ok _ => copies (fun i => b i f) 0 n
  | .error e => .fail e

/-- `apply_as_template`: the function is applied to the events of the forest, unless the forest
fails. -/
def applied (g : Template → Except StreamError Template) (f : Forest) : Forest :=
  match f.events with
  | .ok es =>
    match g ⟨es⟩ with
    | .ok t => treeOf t.events
    | .error e => .fail e
  | .error e => .fail e

/-- Change of the children of an element: a self-closed element is opened, a void element stays. -/
def onChildren (b : Forest → Forest) : Forest → Forest
  | .elem t as children close rest => .elem t as (b children) close rest
  | .leaf (.selfClosedTag t as) rest => .elem t as (b .nil) t rest
  | f => f

/-- Change of the attributes of an element. -/
def onAttributes (op : Attributes → Attributes) : Forest → Forest
  | .elem t as children close rest => .elem t (op as) children close rest
  | .leaf (.selfClosedTag t as) rest => .leaf (.selfClosedTag t (op as)) rest
  | .leaf (.voidTag t as) rest => .leaf (.voidTag t (op as)) rest
  | f => f

/-- The meaning of a chain of Api calls. -/
def meaning {a k : Kind} : Prog a k → Forest → Forest
  | .src, f => f
  | .forget p, f => meaning p f
  | .apply p q, f => meaning q (meaning p f)
  | .fallOk p, f => meaning p f
  | .fallErr e, _ => .fail e
  | .selectRaw p s direct b, f =>
    (selectTree s direct (fun i => meaning (b i)) 0 0 (meaning p f)).1
  | .selectOnceRaw p s direct b, f => (selectOnceTree s direct (meaning b) 0 (meaning p f)).1
  | .remove p, f => removed (meaning p f)
  | .prepend p c, f => (tree (results c)).append (meaning p f)
  | .append p c, f => (meaning p f).append (tree (results c))
  | .repeat p n b, f => repeated n (fun i => meaning (b i)) (meaning p f)
  | .orElse p n r q, f => if 0 < n then meaning r (meaning p f) else meaning q (meaning p f)
  | .applyTemplate p g, f => applied g (meaning p f)
  | .contents p b, f => onChildren (meaning b) (meaning p f)
  | .attr p op, f => onAttributes op.apply (meaning p f)

/-- A well nested stream, when the elements `st` are open, innermost first. The stream may fail at
any point. -/
inductive Nested : List Identifier → List (Except StreamError Event) → Prop
  | done : Nested [] []
  | fail {st e rs} : Nested st (.error e :: rs)
  | leaf {st e rs} : Leaf e → Nested st rs → Nested st (.ok e :: rs)
  | opening {st t as rs} : Nested (t :: st) rs → Nested st (.ok (.openingTag t as) :: rs)
  | closing {st t c rs} : SameName c.str t.str → Nested st rs →
      Nested (t :: st) (.ok (.closingTag c) :: rs)

/-- The name of an element start. -/
def startName : Event → Option Identifier
  | .openingTag t _ => some t
  | .selfClosedTag t _ => some t
  | .voidTag t _ => some t
  | _ => none

/-- Element names are ASCII, as in all identifiers the crate accepts. -/
def AsciiNames (es : List Event) : Prop := ∀ e ∈ es, ∀ t, startName e = some t → Ascii t.str

/-- A well nested page, without the internal placeholder. -/
def Page (es : List Event) : Prop := Balanced es ∧ AsciiNames es ∧ .noop ∉ es

/-- A content that yields a well nested stream. -/
def PageContent (c : Content) : Prop :=
  Nested [] (results c) ∧ ∀ e t, .ok e ∈ results c → startName e = some t → Ascii t.str

/-- Every content inserted by the calls is well nested, and functions on templates give well nested
results on well nested templates. -/
def WellNested {a k : Kind} : Prog a k → Prop
  | .src => True
  | .forget p => WellNested p
  | .apply p q => WellNested p ∧ WellNested q
  | .fallOk p => WellNested p
  | .fallErr _ => True
  | .selectRaw p _ _ b => WellNested p ∧ ∀ i, WellNested (b i)
  | .selectOnceRaw p _ _ b => WellNested p ∧ WellNested b
  | .remove p => WellNested p
  | .prepend p c => WellNested p ∧ PageContent c
  | .append p c => WellNested p ∧ PageContent c
  | .repeat p _ b => WellNested p ∧ ∀ i, WellNested (b i)
  | .orElse p _ r q => WellNested p ∧ WellNested r ∧ WellNested q
  | .applyTemplate p g => WellNested p ∧ ∀ t t', Page t.events → g t = .ok t' → Page t'.events
  | .contents p b => WellNested p ∧ WellNested b
  | .attr p _ => WellNested p

end Fuser.Spec
