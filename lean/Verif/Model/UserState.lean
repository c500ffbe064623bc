import Verif.Model.Stream

/-!
# Streams with user code that shares state

A third model of the streams, for transforms whose user code has a state `σ` in common: builder
closures, the functions given to `apply_as_template`, the iterators given to `repeat` and
user-defined streams all may read and change it, in the order in which the library calls them. So
closures can count together, a stream can be used in two places, an iterator can be read by two
calls or have no end, and a user-defined stream can have no end. The lines for each call and each
kind of stream are those given at `Prog`, `Node` and `next`; only the uses of the state are
explained here. Every piece of user code is a function to what it gives (`builder`, `pull`, `more`,
`f`) and a function to the state after it (`after`). They get the state of the moment and, where
they can be called more than once, the number of earlier calls, as in `Prog`.

Simplification: selectors do not use the state (`Selector::matches` gets `&self`, `select.rs`
20-24), and user code does not panic.
-/

namespace Fuser

/-- Content; see `Content`. A user-defined stream is asked with the state of the moment. -/
inductive UContent (σ : Type)
  | data (data : Data)
  | template (template : Template)
  | stream (pull : Nat → σ → Except StreamError (Option Event)) (after : σ → σ)
  | resultOk (content : UContent σ)
  | resultErr (error : StreamError)

/-- Chains of Api calls whose closures use the state; see `Prog`. -/
inductive UProg (σ : Type) : Kind → Kind → Type
  | src {a} : UProg σ a a
  | forget {a} (p : UProg σ a .elem) : UProg σ a .gen
  /-- the builder is called at once, so it belongs to the enclosing closure
  (`transform.rs` 247-253) -/
  | apply {a b c} (p : UProg σ a b) (builder : UProg σ b c) : UProg σ a c
  | fallOk {a k} (p : UProg σ a k) : UProg σ a k
  | fallErr {a k} (e : StreamError) : UProg σ a k
  /-- the closure is called at every match (`modifier/select/mod.rs` 207-213) -/
  | selectRaw {a k k'} (p : UProg σ a k) (s : Selector) (direct : Bool)
      (builder : Nat → σ → UProg σ .elem k') (after : σ → σ) : UProg σ a .gen
  /-- the closure is called at the first match (`modifier/select/mod.rs` 106-112) -/
  | selectOnceRaw {a k k'} (p : UProg σ a k) (s : Selector) (direct : Bool)
      (builder : σ → UProg σ .elem k') (after : σ → σ) : UProg σ a .gen
  | remove {a k} (p : UProg σ a k) : UProg σ a .gen
  | prepend {a k} (p : UProg σ a k) (c : UContent σ) : UProg σ a .gen
  | append {a k} (p : UProg σ a k) (c : UContent σ) : UProg σ a .gen
  /-- the iterator is asked for an item, and if there is one, the closure is called with it
  (`modifier/repeat.rs` 187-195); `after` is both together -/
  | repeat {a k k'} (p : UProg σ a k) (more : Nat → σ → Bool)
      (builder : Nat → σ → UProg σ k k') (after : σ → σ) : UProg σ a .gen
  /-- the iterator is asked for an item, and if there is none, the closure of the fallback is
  called (`modifier/repeat.rs` 48-59); `after` is both together -/
  | orElse {a k k₁ k₂} (p : UProg σ a k) (more : σ → Bool) (rep : σ → UProg σ k k₁)
      (fallback : σ → UProg σ k k₂) (after : σ → σ) : UProg σ a .gen
  /-- the function is called when the template is complete (`modifier/apply.rs` 77-82) -/
  | applyTemplate {a k} (p : UProg σ a k) (f : σ → Template → Except StreamError Template)
      (after : σ → Template → σ) : UProg σ a .gen
  /-- the closure is called after the opening tag (`modifier/select/select_contents.rs` 61-67) -/
  | contents {a k} (p : UProg σ a .elem) (builder : σ → UProg σ .gen k) (after : σ → σ) :
      UProg σ a .elem
  | attr {a} (p : UProg σ a .elem) (op : AttrOp) : UProg σ a .elem

/-- Run-time states of streams; see `Node`. -/
inductive UNode (σ : Type)
  | dead
  | shared
  | tmpl (events : List Event) (index : Nat)
  | once (data : Option Data)
  | stream (count : Nat) (pull : Nat → σ → Except StreamError (Option Event)) (after : σ → σ)
  | fallStart (stream : UNode σ)
  | fallError (e : StreamError)
  | fallEmit (stream : UNode σ)
  | expandStart (stream : UNode σ)
  | expandEmit (stream : UNode σ)
  | expandClose (tag : Identifier)
  | peek (stream : UNode σ) (buffered : Option Event)
  | combFirst (first second : UNode σ)
  | combSecond (second : UNode σ)
  | singleStart (event : Event) (stream : UNode σ)
  | singleUntil (tag : Identifier) (stream : UNode σ) (level : Nat)
  | selScan (source : UNode σ) (s : Selector) (direct : Bool) (k : Kind)
      (builder : Nat → σ → UProg σ .elem k) (after : σ → σ) (count level : Nat)
  | selActive (source : UNode σ) (s : Selector) (direct : Bool) (k : Kind)
      (builder : Nat → σ → UProg σ .elem k) (after : σ → σ) (count level : Nat)
      (stream : UNode σ)
  | onceScan (source : UNode σ) (s : Selector) (direct : Bool) (k : Kind)
      (builder : σ → UProg σ .elem k) (after : σ → σ) (level : Nat)
  | onceActive (source stream : UNode σ)
  | oncePass (source : UNode σ)
  | contOpen (source : UNode σ) (k : Kind) (builder : σ → UProg σ .gen k) (after : σ → σ)
  | contContent (source stream : UNode σ) (tag : Identifier)
  | contClose (source : UNode σ) (tag : Identifier)
  | curContent (tag : Identifier) (level : Nat)
  | attrStart (op : AttrOp) (stream : UNode σ)
  | attrEmit (stream : UNode σ)
  | remove (stream : UNode σ)
  | repCollect (stream : UNode σ) (k k' : Kind) (more : Nat → σ → Bool)
      (builder : Nat → σ → UProg σ k k') (after : σ → σ)
  | repNext (template : List Event) (i : Nat) (k k' : Kind) (more : Nat → σ → Bool)
      (builder : Nat → σ → UProg σ k k') (after : σ → σ)
  | repEmit (template : List Event) (i : Nat) (k k' : Kind) (more : Nat → σ → Bool)
      (builder : Nat → σ → UProg σ k k') (after : σ → σ) (stream : UNode σ)
  /-- nothing is built yet (`modifier/repeat.rs` 21-26) -/
  | orElseStart (stream : UNode σ) (k k₁ k₂ : Kind) (more : σ → Bool)
      (rep : σ → UProg σ k k₁) (fallback : σ → UProg σ k k₂) (after : σ → σ)
  | orElseRun (stream : UNode σ)
  | applyCollect (stream : UNode σ) (f : σ → Template → Except StreamError Template)
      (after : σ → Template → σ)
  | applyEmit (stream : UNode σ)

variable {σ : Type}

/-- `IntoStream::into_stream`; see `Content.intoStream`. -/
def UContent.intoStream : UContent σ → UNode σ
  | .data d => .once (some d)
  | .template t => .tmpl t.events 0
  | .stream pull after => .stream 0 pull after
  | .resultOk c => .fallStart c.intoStream
  | .resultErr e => .fallError e

/-- Building the stream of a chain of Api calls on a given stream; see `Prog.build`. -/
def UProg.build {a k : Kind} : UProg σ a k → UNode σ → UNode σ
  | .src, n => n
  | .forget p, n => p.build n
  | .apply p q, n => q.build (p.build n)
  | .fallOk p, n => .fallStart (p.build n)
  | .fallErr e, _ => .fallError e
  | .selectRaw (k' := k') p s direct b g, n => .selScan (p.build n) s direct k' b g 0 0
  | .selectOnceRaw (k' := k') p s direct b g, n => .onceScan (p.build n) s direct k' b g 0
  | .remove p, n => .remove (p.build n)
  | .prepend p c, n => .combFirst c.intoStream (p.build n)
  | .append p c, n => .combFirst (p.build n) c.intoStream
  | .repeat (k := k) (k' := k') p m b g, n => .repCollect (p.build n) k k' m b g
  | .orElse (k := k) (k₁ := k₁) (k₂ := k₂) p m r f g, n =>
    .orElseStart (p.build n) k k₁ k₂ m r f g
  | .applyTemplate p f g, n => .applyCollect (p.build n) f g
  | .contents (k := k) p b g, n => .contOpen (.expandStart (p.build n)) k b g
  | .attr p op, n => .attrStart op (p.build n)

/-- The cells shared by the enclosing streams, innermost first; see `Env`. -/
abbrev UEnv (σ : Type) := List (UNode σ)

/-- Outcome of a pull: the result, the new state of the stream, of the cells, of the user code. -/
abbrev UPull (σ : Type) := Res × UNode σ × UEnv σ × σ

/-- `modifier::passthrough` inside `State::step`. `modifier/mod.rs` 68-93. -/
def passthroughUser (cont : UNode σ → UNode σ) : UPull σ → UPull σ
  | (.ev e, n, env, u) => (.ev e, cont n, env, u)
  | (.done, _, env, u) => (.done, .dead, env, u)
  | (.err e, _, env, u) => (.err e, .dead, env, u)

/-- `EmitUntilClose` after an event was pulled. `modifier/select/element.rs` 43-63. -/
def singleUntilStepUser (tag : Identifier) (level : Nat) (e : Event) (n : UNode σ) : UNode σ :=
  if e.isOpeningTagFor tag then .singleUntil tag n (level + 1)
  else if e.isClosingTagFor tag then
    if level = 0 then .dead else .singleUntil tag n (level - 1)
  else .singleUntil tag n level

mutual

/-- `Stream::next_event` for every kind of stream; `none` is divergence. The lines for the cases are
those given at `next`. -/
def nextUser (u : σ) (env : UEnv σ) (n : UNode σ) : Option (UPull σ) :=
  match n with
  | .dead => some (.done, .dead, env, u)
  | .shared =>
    match env with
    | [] => none
    | cell :: rest => do
      let (r, cell, rest, u) ← nextUser u rest cell
      some (r, .shared, cell :: rest, u)
  | .tmpl events index =>
    match events[index]? with
    | some e => some (.ev e, .tmpl events (index + 1), env, u)
    | none => some (.done, .tmpl events index, env, u)
  | .once data =>
    match data with
    | some d => some (.ev (.data d), .once none, env, u)
    | none => some (.done, .once none, env, u)
  -- user code
  | .stream i pull after =>
    match pull i u with
    | .ok (some e) => some (.ev e, .stream (i + 1) pull after, env, after u)
    | .ok none => some (.done, .stream (i + 1) pull after, env, after u)
    | .error e => some (.err e, .stream (i + 1) pull after, env, after u)
  | .fallStart s => some (.ev .noop, .fallEmit s, env, u)
  | .fallError e => some (.err e, .dead, env, u)
  | .fallEmit s => do some (passthroughUser .fallEmit (← nextUser u env s))
  | .expandStart s => do
    let (r, s, env, u) ← nextSkipNoopUser u env s
    match r with
    | .ev (.openingTag tag as) => some (.ev (.openingTag tag as), .expandEmit s, env, u)
    | .ev (.selfClosedTag tag as) => some (.ev (.openingTag tag as), .expandClose tag, env, u)
    | .ev (.voidTag tag as) => some (.ev (.voidTag tag as), .dead, env, u)
    | .ev other => some (.err (.expectedOpen (some other)), .dead, env, u)
    | .done => some (.err (.expectedOpen none), .dead, env, u)
    | .err e => some (.err e, .dead, env, u)
  | .expandEmit s => do some (passthroughUser .expandEmit (← nextUser u env s))
  | .expandClose tag => some (.ev (.closingTag tag), .dead, env, u)
  | .peek s buffered =>
    match buffered with
    | some e => some (.ev e, .peek s none, env, u)
    | none => do
      let (r, s, env, u) ← nextSkipNoopUser u env s
      some (r, .peek s none, env, u)
  | .combFirst s other => do
    let (r, s, env, u) ← nextSkipNoopUser u env s
    match r with
    | .ev e => some (.ev e, .combFirst s other, env, u)
    | .done => some (.ev .noop, .combSecond other, env, u)
    | .err e => some (.err e, .dead, env, u)
  | .combSecond s => do
    let (r, s, env, u) ← nextSkipNoopUser u env s
    match r with
    | .ev e => some (.ev e, .combSecond s, env, u)
    | .done => some (.done, .dead, env, u)
    | .err e => some (.err e, .dead, env, u)
  | .singleStart e s =>
    match e with
    | .openingTag tag as => some (.ev (.openingTag tag as), .singleUntil tag s 0, env, u)
    | .selfClosedTag tag as => some (.ev (.selfClosedTag tag as), .dead, env, u)
    | .voidTag tag as => some (.ev (.voidTag tag as), .dead, env, u)
    | other => some (.err (.expectedOpen (some other)), .dead, env, u)
  | .singleUntil tag s level => do
    let (r, s, env, u) ← nextUser u env s
    match r with
    | .ev e => some (.ev e, singleUntilStepUser tag level e s, env, u)
    | .done => some (.done, .dead, env, u)
    | .err e => some (.err e, .dead, env, u)
  -- the closure is called with the state of the moment
  | .selScan source s direct k b g count level => do
    let (r, source, env, u) ← nextSkipNoopUser u env source
    match r with
    | .ev e =>
      if restrictInclude direct level && s.matches e then
        some (.ev .noop,
          .selActive source s direct k b g (count + 1) level
            ((b count u).build (.singleStart e .shared)), env, g u)
      else
        match levelAdjust level e with
        | .ok newLevel => some (.ev e, .selScan source s direct k b g count newLevel, env, u)
        | .error err => some (.err err, .dead, env, u)
    | .done => some (.done, .dead, env, u)
    | .err e => some (.err e, .dead, env, u)
  | .selActive source s direct k b g count level stream => do
    let (r, stream, cells, u) ← nextUser u (source :: env) stream
    match cells with
    | [] => none
    | source :: env =>
      match r with
      | .done => some (.ev .noop, .selScan source s direct k b g count level, env, u)
      | .ev e => some (.ev e, .selActive source s direct k b g count level stream, env, u)
      | .err e => some (.err e, .dead, env, u)
  | .onceScan source s direct k b g level => do
    let (r, source, env, u) ← nextSkipNoopUser u env source
    match r with
    | .ev e =>
      if restrictInclude direct level && s.matches e then
        some (.ev .noop, .onceActive source ((b u).build (.singleStart e .shared)), env, g u)
      else
        match levelAdjust level e with
        | .ok newLevel => some (.ev e, .onceScan source s direct k b g newLevel, env, u)
        | .error err => some (.err err, .dead, env, u)
    | .done => some (.done, .dead, env, u)
    | .err e => some (.err e, .dead, env, u)
  | .onceActive source stream => do
    let (r, stream, cells, u) ← nextUser u (source :: env) stream
    match cells with
    | [] => none
    | source :: env =>
      match r with
      | .done => some (.ev .noop, .oncePass source, env, u)
      | .ev e => some (.ev e, .onceActive source stream, env, u)
      | .err e => some (.err e, .dead, env, u)
  | .oncePass source => do some (passthroughUser .oncePass (← nextUser u env source))
  | .contOpen source _ b g => do
    let (r, source, env, u) ← nextSkipNoopUser u env source
    match r with
    | .ev (.openingTag tag as) =>
      some (.ev (.openingTag tag as),
        .contContent (.peek source none) ((b u).build (.curContent tag 0)) tag, env, g u)
    | .ev (.voidTag tag as) => some (.ev (.voidTag tag as), .dead, env, u)
    | .ev other => some (.err (.expectedOpen (some other)), .dead, env, u)
    | .done => some (.err (.expectedOpen none), .dead, env, u)
    | .err e => some (.err e, .dead, env, u)
  | .contContent source stream tag => do
    let (r, stream, cells, u) ← nextUser u (source :: env) stream
    match cells with
    | [] => none
    | source :: env =>
      match r with
      | .done => some (.ev .noop, .contClose source tag, env, u)
      | .ev e => some (.ev e, .contContent source stream tag, env, u)
      | .err e => some (.err e, .dead, env, u)
  | .contClose source tag => do
    let (r, _, env, u) ← nextSkipNoopUser u env source
    match r with
    | .ev (.closingTag closedTag) =>
      if closedTag.eq tag then some (.ev (.closingTag closedTag), .dead, env, u)
      else some (.err (.unexpectedClose closedTag), .dead, env, u)
    | .ev other => some (.err (.expectedClose (some other) tag), .dead, env, u)
    | .done => some (.err (.expectedClose none tag), .dead, env, u)
    | .err e => some (.err e, .dead, env, u)
  | .curContent tag level =>
    match env with
    | .peek s buffered :: env => do
      let (r, s, buffered, env, u) ←
        (if level = 0 then
          match buffered with
          | some e => some (Res.ev e, s, some e, env, u)
          | none => do
            let (r, s, env, u) ← nextSkipNoopUser u env s
            match r with
            | .ev e => some (Res.ev e, s, some e, env, u)
            | r => some (r, s, none, env, u)
        else some (Res.ev .noop, s, buffered, env, u))
      match r with
      | .err e => some (.err e, .dead, .peek s buffered :: env, u)
      | .done => some (.err (.missingClose tag), .dead, .peek s buffered :: env, u)
      | .ev peeked =>
        if level = 0 && peeked.isClosingTagFor tag then
          some (.done, .dead, .peek s buffered :: env, u)
        else do
          let (r, cell, env, u) ← nextUser u env (.peek s buffered)
          match r with
          | .err e => some (.err e, .dead, cell :: env, u)
          | .done => some (.err (.missingClose tag), .dead, cell :: env, u)
          | .ev e =>
            match levelAdjust level e with
            | .ok newLevel => some (.ev e, .curContent tag newLevel, cell :: env, u)
            | .error _ => some (.err (.missingClose tag), .dead, cell :: env, u)
    | _ => none
  | .attrStart op s => do
    let (r, s, env, u) ← nextSkipNoopUser u env s
    match r with
    | .ev (.openingTag tag as) => some (.ev (.openingTag tag (op.apply as)), .attrEmit s, env, u)
    | .ev (.selfClosedTag tag as) => some (.ev (.selfClosedTag tag (op.apply as)), .dead, env, u)
    | .ev (.voidTag tag as) => some (.ev (.voidTag tag (op.apply as)), .dead, env, u)
    | .ev other => some (.err (.expectedOpen (some other)), .dead, env, u)
    | .done => some (.err (.expectedOpen none), .dead, env, u)
    | .err e => some (.err e, .dead, env, u)
  | .attrEmit s => do some (passthroughUser .attrEmit (← nextUser u env s))
  | .remove s => do
    let (r, s, env, u) ← drainUser u env s
    some (r, .remove s, env, u)
  | .repCollect s k k' m b g => do
    let (r, env, u) ← collectUser u env s
    match r with
    | .ok events => some (.ev .noop, .repNext events 0 k k' m b g, env, u)
    | .error e => some (.err e, .dead, env, u)
  | .repNext events i k k' m b g =>
    if m i u then
      some (.ev .noop, .repEmit events (i + 1) k k' m b g ((b i u).build (.tmpl events 0)), env,
        g u)
    else some (.done, .dead, env, g u)
  | .repEmit events i k k' m b g stream => do
    let (r, stream, env, u) ← nextUser u env stream
    match r with
    | .ev e => some (.ev e, .repEmit events i k k' m b g stream, env, u)
    | .done => some (.ev .noop, .repNext events i k k' m b g, env, u)
    | .err e => some (.err e, .dead, env, u)
  | .orElseStart s _ _ _ m rep fallback g =>
    if m u then some (.ev .noop, .orElseRun ((rep u).build s), env, g u)
    else some (.ev .noop, .orElseRun ((fallback u).build s), env, g u)
  | .orElseRun s => do some (passthroughUser .orElseRun (← nextUser u env s))
  | .applyCollect s f g => do
    let (r, env, u) ← collectUser u env s
    match r with
    | .ok events =>
      match f u ⟨events⟩ with
      | .ok t => some (.ev .noop, .applyEmit (.tmpl t.events 0), env, g u ⟨events⟩)
      | .error e => some (.err e, .dead, env, g u ⟨events⟩)
    | .error e => some (.err e, .dead, env, u)
  | .applyEmit s => do some (passthroughUser .applyEmit (← nextUser u env s))
partial_fixpoint

/-- `Stream::next_event_skip_noop`. `event.rs` 683-690. -/
def nextSkipNoopUser (u : σ) (env : UEnv σ) (n : UNode σ) : Option (UPull σ) := do
  let (r, n, env, u) ← nextUser u env n
  match r with
  | .ev .noop => nextSkipNoopUser u env n
  | r => some (r, n, env, u)
partial_fixpoint

/-- The loop of `Remove::next_event`. `modifier/remove.rs` 25-26. -/
def drainUser (u : σ) (env : UEnv σ) (n : UNode σ) : Option (UPull σ) := do
  let (r, n, env, u) ← nextUser u env n
  match r with
  | .ev _ => drainUser u env n
  | r => some (r, n, env, u)
partial_fixpoint

/-- `Template::from_stream`. `template.rs` 345-356. -/
def collectUser (u : σ) (env : UEnv σ) (n : UNode σ) :
    Option (Except StreamError (List Event) × UEnv σ × σ) := do
  let (r, n, env, u) ← nextSkipNoopUser u env n
  match r with
  | .ev e => do
    let (r, env, u) ← collectUser u env n
    match r with
    | .ok events => some (.ok (e :: events), env, u)
    | .error err => some (.error err, env, u)
  | .done => some (.ok [], env, u)
  | .err e => some (.error e, env, u)
partial_fixpoint

end

/-- `Template::transform` in a state of the user code, with the state after it; `none` is divergence.
`template.rs` 359-366. -/
def Template.transformUser {k : Kind} (t : Template) (p : UProg σ .gen k) (u : σ) :
    Option (Except StreamError Template × σ) := do
  let (r, _, u) ← collectUser u [] (p.build (.tmpl t.events 0))
  match r with
  | .ok events => some (.ok ⟨events⟩, u)
  | .error e => some (.error e, u)

end Fuser
