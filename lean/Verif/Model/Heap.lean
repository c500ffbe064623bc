import Verif.Model.Stream

/-!
# Streams with shared cells

A second model of the streams, closer to the memory of the program than `Verif.Model.Stream`: the
`Rc<RefCell<S>>` shared between a selection and the streams its builders get are cells of a heap,
handles are addresses, and a cell is marked while it is borrowed. Borrowing a cell twice, which
panics in Rust, gives `none` here. The lines for each call and each kind of stream are those given
at `Prog`, `Node` and `next`. Simplification: cells are never freed.
-/

namespace Fuser

/-- Run-time states of streams; see `Node` for the ones without an address. -/
inductive HNode
  | dead
  /-- a handle, `Rc<RefCell<S>>` (`event.rs` 702-707) -/
  | shared (address : Nat)
  | tmpl (events : List Event) (index : Nat)
  | once (data : Option Data)
  | script (results : List (Except StreamError (Option Event)))
  | fallStart (stream : HNode)
  | fallError (e : StreamError)
  | fallEmit (stream : HNode)
  | expandStart (stream : HNode)
  | expandEmit (stream : HNode)
  | expandClose (tag : Identifier)
  | peek (stream : HNode) (buffered : Option Event)
  | combFirst (first second : HNode)
  | combSecond (second : HNode)
  | singleStart (event : Event) (stream : HNode)
  | singleUntil (tag : Identifier) (stream : HNode) (level : Nat)
  /-- `source: Shared<S>` (`modifier/select/mod.rs` 154-160) -/
  | selScan (source : Nat) (s : Selector) (direct : Bool) (k : Kind)
      (builder : Nat → Prog .elem k) (count level : Nat)
  | selActive (source : Nat) (s : Selector) (direct : Bool) (k : Kind)
      (builder : Nat → Prog .elem k) (count level : Nat) (stream : HNode)
  /-- `source: Shared<S>` (`modifier/select/mod.rs` 56-62) -/
  | onceScan (source : Nat) (s : Selector) (direct : Bool) (k : Kind)
      (builder : Prog .elem k) (level : Nat)
  | onceActive (source : Nat) (stream : HNode)
  | oncePass (source : Nat)
  | contOpen (source : HNode) (k : Kind) (builder : Prog .gen k)
  /-- `source: SharedPeek<S>` (`modifier/select/select_contents.rs` 110-114) -/
  | contContent (source : Nat) (stream : HNode) (tag : Identifier)
  | contClose (source : Nat) (tag : Identifier)
  /-- `stream: SharedPeek<S>` (`modifier/select/select_contents.rs` 171-175) -/
  | curContent (source : Nat) (tag : Identifier) (level : Nat)
  | attrStart (op : AttrOp) (stream : HNode)
  | attrEmit (stream : HNode)
  | remove (stream : HNode)
  | repCollect (stream : HNode) (n : Nat) (k k' : Kind) (builder : Nat → Prog k k')
  | repNext (template : List Event) (i n : Nat) (k k' : Kind) (builder : Nat → Prog k k')
  | repEmit (template : List Event) (i n : Nat) (k k' : Kind) (builder : Nat → Prog k k')
      (stream : HNode)
  /-- `RepeatOrElseState::Start` (`modifier/repeat.rs` 21-26): nothing is built yet -/
  | orElseStart (stream : HNode) (n : Nat) (k k₁ k₂ : Kind) (rep : Prog k k₁)
      (fallback : Prog k k₂)
  | orElseRun (stream : HNode)
  | applyCollect (stream : HNode) (f : Template → Except StreamError Template)
  | applyEmit (stream : HNode)

/-- The cells; `none` is a cell that is borrowed. -/
abbrev Heap := List (Option HNode)

/-- `RefCell::borrow_mut`; `none` is the panic of a second borrow. (Rust standard library.) -/
def Heap.borrow (h : Heap) (a : Nat) : Option (HNode × Heap) :=
  match h[a]? with
  | some (some n) => some (n, h.set a none)
  | _ => none

/-- The end of a borrow, with the new state of the stream in the cell. (Rust standard library.) -/
def Heap.release (h : Heap) (a : Nat) (n : HNode) : Heap := h.set a (some n)

/-- `Rc::new(RefCell::new(..))`. (Rust standard library.) -/
def Heap.alloc (h : Heap) (n : HNode) : Nat × Heap := (h.length, h ++ [some n])

/-- `IntoStream::into_stream`; see `Content.intoStream`. -/
def Content.intoHeapStream : Content → HNode
  | .data d => .once (some d)
  | .template t => .tmpl t.events 0
  | .script rs => .script rs
  | .resultOk c => .fallStart c.intoHeapStream
  | .resultErr e => .fallError e

/-- Building the stream of a chain of Api calls on a given stream; see `Prog.build`. The cells are
made in `Select::new` and `SelectOnce::new` (`modifier/select/mod.rs` 69-79, 169-177). -/
def Prog.buildHeap {a k : Kind} : Prog a k → HNode → Heap → HNode × Heap
  | .src, n, h => (n, h)
  | .forget p, n, h => p.buildHeap n h
  | .apply p q, n, h =>
    let (n, h) := p.buildHeap n h
    q.buildHeap n h
  | .fallOk p, n, h =>
    let (n, h) := p.buildHeap n h
    (.fallStart n, h)
  | .fallErr e, _, h => (.fallError e, h)
  | .selectRaw (k' := k') p s direct b, n, h =>
    let (n, h) := p.buildHeap n h
    let (a, h) := h.alloc n
    (.selScan a s direct k' b 0 0, h)
  | .selectOnceRaw (k' := k') p s direct b, n, h =>
    let (n, h) := p.buildHeap n h
    let (a, h) := h.alloc n
    (.onceScan a s direct k' b 0, h)
  | .remove p, n, h =>
    let (n, h) := p.buildHeap n h
    (.remove n, h)
  | .prepend p c, n, h =>
    let (n, h) := p.buildHeap n h
    (.combFirst c.intoHeapStream n, h)
  | .append p c, n, h =>
    let (n, h) := p.buildHeap n h
    (.combFirst n c.intoHeapStream, h)
  | .repeat (k := k) (k' := k') p m b, n, h =>
    let (n, h) := p.buildHeap n h
    (.repCollect n m k k' b, h)
  | .orElse (k := k) (k₁ := k₁) (k₂ := k₂) p m r f, n, h =>
    let (n, h) := p.buildHeap n h
    (.orElseStart n m k k₁ k₂ r f, h)
  | .applyTemplate p f, n, h =>
    let (n, h) := p.buildHeap n h
    (.applyCollect n f, h)
  | .contents (k := k) p b, n, h =>
    let (n, h) := p.buildHeap n h
    (.contOpen (.expandStart n) k b, h)
  | .attr p op, n, h =>
    let (n, h) := p.buildHeap n h
    (.attrStart op n, h)

/-- Outcome of a pull: the result, the new state of the stream, the new heap. -/
abbrev HPull := Res × HNode × Heap

/-- `modifier::passthrough` inside `State::step`. `modifier/mod.rs` 68-93. -/
def passthroughHeap (cont : HNode → HNode) : HPull → HPull
  | (.ev e, n, h) => (.ev e, cont n, h)
  | (.done, _, h) => (.done, .dead, h)
  | (.err e, _, h) => (.err e, .dead, h)

/-- `EmitUntilClose` after an event was pulled. `modifier/select/element.rs` 43-63. -/
def singleUntilStepHeap (tag : Identifier) (level : Nat) (e : Event) (n : HNode) : HNode :=
  if e.isOpeningTagFor tag then .singleUntil tag n (level + 1)
  else if e.isClosingTagFor tag then
    if level = 0 then .dead else .singleUntil tag n (level - 1)
  else .singleUntil tag n level

mutual

/-- `Stream::next_event` for every kind of stream; `none` is divergence or a panic of a second
borrow. The lines for the cases are those given at `next`. -/
def nextHeap (h : Heap) (n : HNode) : Option HPull :=
  match n with
  | .dead => some (.done, .dead, h)
  -- `event.rs` 702-707: `self.borrow_mut().next_event()`
  | .shared a => do
    let (cell, h) ← h.borrow a
    let (r, cell, h) ← nextHeap h cell
    some (r, .shared a, h.release a cell)
  | .tmpl events index =>
    match events[index]? with
    | some e => some (.ev e, .tmpl events (index + 1), h)
    | none => some (.done, .tmpl events index, h)
  | .once data =>
    match data with
    | some d => some (.ev (.data d), .once none, h)
    | none => some (.done, .once none, h)
  | .script results =>
    match results with
    | .ok (some e) :: rest => some (.ev e, .script rest, h)
    | .ok none :: rest => some (.done, .script rest, h)
    | .error e :: rest => some (.err e, .script rest, h)
    | [] => some (.done, .script [], h)
  | .fallStart s => some (.ev .noop, .fallEmit s, h)
  | .fallError e => some (.err e, .dead, h)
  | .fallEmit s => do some (passthroughHeap .fallEmit (← nextHeap h s))
  | .expandStart s => do
    let (r, s, h) ← nextSkipNoopHeap h s
    match r with
    | .ev (.openingTag tag as) => some (.ev (.openingTag tag as), .expandEmit s, h)
    | .ev (.selfClosedTag tag as) => some (.ev (.openingTag tag as), .expandClose tag, h)
    | .ev (.voidTag tag as) => some (.ev (.voidTag tag as), .dead, h)
    | .ev other => some (.err (.expectedOpen (some other)), .dead, h)
    | .done => some (.err (.expectedOpen none), .dead, h)
    | .err e => some (.err e, .dead, h)
  | .expandEmit s => do some (passthroughHeap .expandEmit (← nextHeap h s))
  | .expandClose tag => some (.ev (.closingTag tag), .dead, h)
  | .peek s buffered =>
    match buffered with
    | some e => some (.ev e, .peek s none, h)
    | none => do
      let (r, s, h) ← nextSkipNoopHeap h s
      some (r, .peek s none, h)
  | .combFirst s other => do
    let (r, s, h) ← nextSkipNoopHeap h s
    match r with
    | .ev e => some (.ev e, .combFirst s other, h)
    | .done => some (.ev .noop, .combSecond other, h)
    | .err e => some (.err e, .dead, h)
  | .combSecond s => do
    let (r, s, h) ← nextSkipNoopHeap h s
    match r with
    | .ev e => some (.ev e, .combSecond s, h)
    | .done => some (.done, .dead, h)
    | .err e => some (.err e, .dead, h)
  | .singleStart e s =>
    match e with
    | .openingTag tag as => some (.ev (.openingTag tag as), .singleUntil tag s 0, h)
    | .selfClosedTag tag as => some (.ev (.selfClosedTag tag as), .dead, h)
    | .voidTag tag as => some (.ev (.voidTag tag as), .dead, h)
    | other => some (.err (.expectedOpen (some other)), .dead, h)
  | .singleUntil tag s level => do
    let (r, s, h) ← nextHeap h s
    match r with
    | .ev e => some (.ev e, singleUntilStepHeap tag level e s, h)
    | .done => some (.done, .dead, h)
    | .err e => some (.err e, .dead, h)
  -- `source.next_event_skip_noop()` on the handle; the builder gets `source.clone()`
  | .selScan a s direct k b count level => do
    let (r, _, h) ← nextSkipNoopHeap h (.shared a)
    match r with
    | .ev e =>
      if restrictInclude direct level && s.matches e then
        let (stream, h) := (b count).buildHeap (.singleStart e (.shared a)) h
        some (.ev .noop, .selActive a s direct k b (count + 1) level stream, h)
      else
        match levelAdjust level e with
        | .ok newLevel => some (.ev e, .selScan a s direct k b count newLevel, h)
        | .error err => some (.err err, .dead, h)
    | .done => some (.done, .dead, h)
    | .err e => some (.err e, .dead, h)
  | .selActive a s direct k b count level stream => do
    let (r, stream, h) ← nextHeap h stream
    match r with
    | .done => some (.ev .noop, .selScan a s direct k b count level, h)
    | .ev e => some (.ev e, .selActive a s direct k b count level stream, h)
    | .err e => some (.err e, .dead, h)
  | .onceScan a s direct k b level => do
    let (r, _, h) ← nextSkipNoopHeap h (.shared a)
    match r with
    | .ev e =>
      if restrictInclude direct level && s.matches e then
        let (stream, h) := b.buildHeap (.singleStart e (.shared a)) h
        some (.ev .noop, .onceActive a stream, h)
      else
        match levelAdjust level e with
        | .ok newLevel => some (.ev e, .onceScan a s direct k b newLevel, h)
        | .error err => some (.err err, .dead, h)
    | .done => some (.done, .dead, h)
    | .err e => some (.err e, .dead, h)
  | .onceActive a stream => do
    let (r, stream, h) ← nextHeap h stream
    match r with
    | .done => some (.ev .noop, .oncePass a, h)
    | .ev e => some (.ev e, .onceActive a stream, h)
    | .err e => some (.err e, .dead, h)
  | .oncePass a => do
    let (r, _, h) ← nextHeap h (.shared a)
    match r with
    | .ev e => some (.ev e, .oncePass a, h)
    | .done => some (.done, .dead, h)
    | .err e => some (.err e, .dead, h)
  -- the cell is made after the opening tag (`modifier/select/select_contents.rs` 61-67)
  | .contOpen source _ b => do
    let (r, source, h) ← nextSkipNoopHeap h source
    match r with
    | .ev (.openingTag tag as) =>
      let (a, h) := h.alloc (.peek source none)
      let (stream, h) := b.buildHeap (.curContent a tag 0) h
      some (.ev (.openingTag tag as), .contContent a stream tag, h)
    | .ev (.voidTag tag as) => some (.ev (.voidTag tag as), .dead, h)
    | .ev other => some (.err (.expectedOpen (some other)), .dead, h)
    | .done => some (.err (.expectedOpen none), .dead, h)
    | .err e => some (.err e, .dead, h)
  | .contContent a stream tag => do
    let (r, stream, h) ← nextHeap h stream
    match r with
    | .done => some (.ev .noop, .contClose a tag, h)
    | .ev e => some (.ev e, .contContent a stream tag, h)
    | .err e => some (.err e, .dead, h)
  | .contClose a tag => do
    let (r, _, h) ← nextSkipNoopHeap h (.shared a)
    match r with
    | .ev (.closingTag closedTag) =>
      if closedTag.eq tag then some (.ev (.closingTag closedTag), .dead, h)
      else some (.err (.unexpectedClose closedTag), .dead, h)
    | .ev other => some (.err (.expectedClose (some other) tag), .dead, h)
    | .done => some (.err (.expectedClose none tag), .dead, h)
    | .err e => some (.err e, .dead, h)
  | .curContent a tag level => do
    -- `has_reached_end`: one borrow for `peek`, at the top level
    let (r, h) ←
      (if level = 0 then do
        let (cell, h) ← h.borrow a
        match cell with
        | .peek s buffered =>
          match buffered with
          | some e => some (Res.ev e, h.release a (.peek s (some e)))
          | none => do
            let (r, s, h) ← nextSkipNoopHeap h s
            match r with
            | .ev e => some (Res.ev e, h.release a (.peek s (some e)))
            | r => some (r, h.release a (.peek s none))
        | _ => none
      else some (Res.ev .noop, h))
    match r with
    | .err e => some (.err e, .dead, h)
    | .done => some (.err (.missingClose tag), .dead, h)
    | .ev peeked =>
      if level = 0 && peeked.isClosingTagFor tag then some (.done, .dead, h)
      else do
        -- and one borrow for the event
        let (r, _, h) ← nextHeap h (.shared a)
        match r with
        | .err e => some (.err e, .dead, h)
        | .done => some (.err (.missingClose tag), .dead, h)
        | .ev e =>
          match levelAdjust level e with
          | .ok newLevel => some (.ev e, .curContent a tag newLevel, h)
          | .error _ => some (.err (.missingClose tag), .dead, h)
  | .attrStart op s => do
    let (r, s, h) ← nextSkipNoopHeap h s
    match r with
    | .ev (.openingTag tag as) => some (.ev (.openingTag tag (op.apply as)), .attrEmit s, h)
    | .ev (.selfClosedTag tag as) => some (.ev (.selfClosedTag tag (op.apply as)), .dead, h)
    | .ev (.voidTag tag as) => some (.ev (.voidTag tag (op.apply as)), .dead, h)
    | .ev other => some (.err (.expectedOpen (some other)), .dead, h)
    | .done => some (.err (.expectedOpen none), .dead, h)
    | .err e => some (.err e, .dead, h)
  | .attrEmit s => do some (passthroughHeap .attrEmit (← nextHeap h s))
  | .remove s => do
    let (r, s, h) ← drainHeap h s
    some (r, .remove s, h)
  | .repCollect s n k k' b => do
    let (r, h) ← collectHeap h s
    match r with
    | .ok events => some (.ev .noop, .repNext events 0 n k k' b, h)
    | .error e => some (.err e, .dead, h)
  | .repNext events i n k k' b =>
    if i < n then
      let (stream, h) := (b i).buildHeap (.tmpl events 0) h
      some (.ev .noop, .repEmit events (i + 1) n k k' b stream, h)
    else some (.done, .dead, h)
  | .repEmit events i n k k' b stream => do
    let (r, stream, h) ← nextHeap h stream
    match r with
    | .ev e => some (.ev e, .repEmit events i n k k' b stream, h)
    | .done => some (.ev .noop, .repNext events i n k k' b, h)
    | .err e => some (.err e, .dead, h)
  | .orElseStart s n _ _ _ rep fallback =>
    if 0 < n then
      let (stream, h) := rep.buildHeap s h
      some (.ev .noop, .orElseRun stream, h)
    else
      let (stream, h) := fallback.buildHeap s h
      some (.ev .noop, .orElseRun stream, h)
  | .orElseRun s => do some (passthroughHeap .orElseRun (← nextHeap h s))
  | .applyCollect s f => do
    let (r, h) ← collectHeap h s
    match r with
    | .ok events =>
      match f ⟨events⟩ with
      | .ok t => some (.ev .noop, .applyEmit (.tmpl t.events 0), h)
      | .error e => some (.err e, .dead, h)
    | .error e => some (.err e, .dead, h)
  | .applyEmit s => do some (passthroughHeap .applyEmit (← nextHeap h s))
partial_fixpoint

/-- `Stream::next_event_skip_noop`. `event.rs` 683-690. -/
def nextSkipNoopHeap (h : Heap) (n : HNode) : Option HPull := do
  let (r, n, h) ← nextHeap h n
  match r with
  | .ev .noop => nextSkipNoopHeap h n
  | r => some (r, n, h)
partial_fixpoint

/-- The loop of `Remove::next_event`. `modifier/remove.rs` 25-26. -/
def drainHeap (h : Heap) (n : HNode) : Option HPull := do
  let (r, n, h) ← nextHeap h n
  match r with
  | .ev _ => drainHeap h n
  | r => some (r, n, h)
partial_fixpoint

/-- `Template::from_stream`. `template.rs` 345-356. -/
def collectHeap (h : Heap) (n : HNode) : Option (Except StreamError (List Event) × Heap) := do
  let (r, n, h) ← nextSkipNoopHeap h n
  match r with
  | .ev e => do
    let (r, h) ← collectHeap h n
    match r with
    | .ok events => some (.ok (e :: events), h)
    | .error err => some (.error err, h)
  | .done => some (.ok [], h)
  | .err e => some (.error e, h)
partial_fixpoint

end

/-- `Template::transform` on the heap; `none` is divergence or a panic. `template.rs` 359-366. -/
def Template.transformHeap {k : Kind} (t : Template) (p : Prog .gen k) :
    Option (Except StreamError Template) := do
  let (n, h) := p.buildHeap (.tmpl t.events 0) []
  let (r, _) ← collectHeap h n
  match r with
  | .ok events => some (.ok ⟨events⟩)
  | .error e => some (.error e)

end Fuser
