import Verif.Model.Parse
import Verif.Model.Select

/-!
# Transform programs and the stream machine

Model of `src/transform.rs`, `src/builder.rs`, `src/content.rs`, `src/modifier/**` and the stream
parts of `src/event.rs` and `src/template.rs`.

* `Prog` is a deep embedding of a chain of Api calls on a stream.
* `Node` is the run-time state of a stream, one constructor per Rust state.
* `next` is `Stream::next_event`, one case per match arm.

`State<T>` (`modifier/mod.rs` 53-82) holds an `Option` of the inner state, which is taken out before
a step: after an error or the end it stays `None`. That is the node `dead`.
-/

namespace Fuser

/-- `FileError`, without paths and operating system details. `template.rs` 60-89. -/
inductive FileError
  | input (error : InputError)
  | open
  | read
  | decode
  deriving DecidableEq, Repr

/-- `MalformedReason`. `event.rs` 619-637. -/
inductive MalformedReason
  | unexpectedClosingTag (tag : Identifier)
  | expectedOpeningTag (event : Option Event)
  | expectedClosingTag (event : Option Event) (tag : Identifier)
  deriving DecidableEq, Repr

/-- `StreamError`; `AssertionError` has the single case `Malformed`. `event.rs` 459-466, 491-522. -/
inductive StreamError
  | assertion (error : MalformedReason)
  | input (error : InputError)
  | file (error : FileError)
  | identifier (error : IdentifierError)
  | selector (error : SelectorError)
  | staticSelector (error : StaticError)
  deriving DecidableEq, Repr

/-- `From<InputError> for StreamError`. `event.rs` 560-565. -/
def InputError.toStream (error : InputError) : StreamError := .input error

/-- `From<FileError> for StreamError`. `event.rs` 567-572. -/
def FileError.toStream (error : FileError) : StreamError := .file error

/-- `From<IdentifierError> for StreamError`. `event.rs` 574-579. -/
def IdentifierError.toStream (error : IdentifierError) : StreamError := .identifier error

/-- `From<IdError> for StreamError`. `select.rs` 106-115. -/
def IdError.toStream : IdError → StreamError
  | .identifier error => .selector (.id error)

/-- `From<TagError> for StreamError`. `select.rs` 213-222. -/
def TagError.toStream : TagError → StreamError
  | .identifier error => .selector (.tag error)

/-- `From<ClassError> for StreamError`. `select.rs` 331-340. -/
def ClassError.toStream : ClassError → StreamError
  | .identifier error => .selector (.class error)

/-- `From<ClassesError> for StreamError`. `select.rs` 445-452. -/
def ClassesError.toStream (error : ClassesError) : StreamError := .selector (.classes error)

/-- `From<StaticError> for StreamError`. `select.rs` 600-605. -/
def StaticError.toStream (error : StaticError) : StreamError := .staticSelector error

/-- `StreamError::unexpected_close`. `event.rs` 583-589. -/
def StreamError.unexpectedClose (tag : Identifier) : StreamError :=
  .assertion (.unexpectedClosingTag tag)

/-- `StreamError::missing_close`. `event.rs` 591-598. -/
def StreamError.missingClose (tag : Identifier) : StreamError :=
  .assertion (.expectedClosingTag none tag)

/-- `StreamError::expected_close`. `event.rs` 600-606. -/
def StreamError.expectedClose (event : Option Event) (tag : Identifier) : StreamError :=
  .assertion (.expectedClosingTag event tag)

/-- `StreamError::expected_open`. `event.rs` 608-614. -/
def StreamError.expectedOpen (event : Option Event) : StreamError :=
  .assertion (.expectedOpeningTag event)

/-- The attribute modifiers with their data. `modifier/attribute.rs` 41-223. -/
inductive AttrOp
  | removeClass (name : Identifier)
  | removeAttribute (name : Identifier)
  | addAttribute (name : Identifier) (value : Option Value)
  | replaceAttribute (name : Identifier) (value : Option Value)
  | addToAttribute (name : Identifier) (value separator : Value)
  | setAttribute (name : Identifier) (value : Option Value)

/-- The `modify` closures given to `attribute_step`. `modifier/attribute.rs` 52-54 (`RemoveClass`),
82-84 (`RemoveAttribute`), 112-114 (`AddAttribute`), 142-144 (`ReplaceAttribute`),
172-174 (`AddToAttribute`), 206-208 (`SetAttribute`). -/
def AttrOp.apply : AttrOp → Attributes → Attributes
  | .removeClass name, as => Attributes.removeClass as name
  | .removeAttribute name, as => Attributes.removeAttribute as name
  | .addAttribute name value, as => Attributes.addAttribute as name value
  | .replaceAttribute name value, as => Attributes.replaceAttribute as name value
  | .addToAttribute name value separator, as =>
    Attributes.addToAttribute as name value separator
  | .setAttribute name value, as => Attributes.setAttribute as name value

/-- Content that can be inserted, i.e. the `IntoStream` instances. `content.rs` 10-117,
`template.rs` 379-404. `script` stands for user-defined streams: the results of the successive
calls of `next_event` (`StreamResult`, `event.rs` 453), which may go on after an end or an error;
from then on the end. Simplification: such a stream does not go on for ever and is not shared. -/
inductive Content
  | data (data : Data)
  | template (template : Template)
  | script (results : List (Except StreamError (Option Event)))
  | resultOk (content : Content)
  | resultErr (error : StreamError)

/-- Whether the stream type implements `ElementStream` (`event.rs` 711-714). -/
inductive Kind
  | gen
  | elem
  deriving DecidableEq, Repr

/-- Chains of Api calls: `Prog a k` is a transform that starts from a stream of kind `a` and gives a
stream of kind `k`. Api calls that only combine others are definitions below.

A builder closure is a program; an `FnMut` builder is a function from the number of earlier
invocations (for `repeat`: from the index of the item) to programs, since the closure may be
stateful. -/
inductive Prog : Kind → Kind → Type
  /-- the stream the builder was given -/
  | src {a} : Prog a a
  /-- use an element stream where any stream is allowed -/
  | forget {a} (p : Prog a .elem) : Prog a .gen
  /-- `Api::apply` (`transform.rs` 247-253) -/
  | apply {a b c} (p : Prog a b) (builder : Prog b c) : Prog a c
  /-- `Fallible::new(Ok(..))` (`modifier/mod.rs` 116-120) -/
  | fallOk {a k} (p : Prog a k) : Prog a k
  /-- `Fallible::new(Err(..))` (`modifier/mod.rs` 116-120); the input stream is dropped -/
  | fallErr {a k} (e : StreamError) : Prog a k
  /-- `SelectAny`, `SelectDirect` (`modifier/select/select_any.rs` 22-26, `select_direct.rs`
  22-26, `modifier/select/mod.rs` 169-177) -/
  | selectRaw {a k k'} (p : Prog a k) (s : Selector) (direct : Bool)
      (builder : Nat → Prog .elem k') : Prog a .gen
  /-- `SelectAnyOnce`, `SelectDirectOnce` (`modifier/select/select_any.rs` 54-58,
  `select_direct.rs` 54-58, `modifier/select/mod.rs` 69-79) -/
  | selectOnceRaw {a k k'} (p : Prog a k) (s : Selector) (direct : Bool)
      (builder : Prog .elem k') : Prog a .gen
  /-- `Api::remove` (`transform.rs` 839-841, `modifier/remove.rs` 17-19) -/
  | remove {a k} (p : Prog a k) : Prog a .gen
  /-- `Api::prepend` (`transform.rs` 873-878, `modifier/prepend.rs` 19-23) -/
  | prepend {a k} (p : Prog a k) (c : Content) : Prog a .gen
  /-- `Api::append` (`transform.rs` 910-915, `modifier/append.rs` 20-24) -/
  | append {a k} (p : Prog a k) (c : Content) : Prog a .gen
  /-- `Api::repeat` for `n` items (`transform.rs` 987-996, `modifier/repeat.rs` 129-133); the
  builder gets a stored copy of the same kind (`MaybeElementTemplate`) -/
  | repeat {a k k'} (p : Prog a k) (n : Nat) (builder : Nat → Prog k k') : Prog a .gen
  /-- the state machine shared by `repeat_or_else` and `repeat_contents_or_else`
  (`modifier/repeat.rs` 15-66) for `n` items: either the repeat transform or the fallback -/
  | orElse {a k k₁ k₂} (p : Prog a k) (n : Nat) (rep : Prog k k₁) (fallback : Prog k k₂) :
      Prog a .gen
  /-- `Api::apply_as_template` (`transform.rs` 588-594, `modifier/apply.rs` 63-67) -/
  | applyTemplate {a k} (p : Prog a k) (f : Template → Except StreamError Template) : Prog a .gen
  /-- `Api::subselect_contents` (`transform.rs` 1195-1202, `modifier/select/select_contents.rs`
  29-34) -/
  | contents {a k} (p : Prog a .elem) (builder : Prog .gen k) : Prog a .elem
  /-- the attribute modifiers (`modifier/attribute.rs`) -/
  | attr {a} (p : Prog a .elem) (op : AttrOp) : Prog a .elem

/-- Run-time states of streams. Forwarding wrappers are identified with the inner stream. -/
inductive Node
  /-- `State { inner: None }` (`modifier/mod.rs` 71-74) -/
  | dead
  /-- a handle to the innermost shared cell, `Rc<RefCell<S>>` (`event.rs` 702-707) -/
  | shared
  /-- `TemplateStream` (`template.rs` 120-123) -/
  | tmpl (events : List Event) (index : Nat)
  /-- `content::Stream` (`content.rs` 107-110) -/
  | once (data : Option Data)
  /-- a user-defined stream -/
  | script (results : List (Except StreamError (Option Event)))
  /-- `FallibleState::Start` with `Ok` (`modifier/mod.rs` 97-99) -/
  | fallStart (stream : Node)
  /-- `FallibleState::Start` with `Err` (`modifier/mod.rs` 97-99) -/
  | fallError (e : StreamError)
  /-- `FallibleState::Emit` (`modifier/mod.rs` 100-102) -/
  | fallEmit (stream : Node)
  /-- `ExpandState::Start` (`modifier/mod.rs` 184-186) -/
  | expandStart (stream : Node)
  /-- `ExpandState::EmitStream` (`modifier/mod.rs` 187-189) -/
  | expandEmit (stream : Node)
  /-- `ExpandState::EmitClosingTag` (`modifier/mod.rs` 190-192) -/
  | expandClose (tag : Identifier)
  /-- `Peek` (`modifier/mod.rs` 196-199) -/
  | peek (stream : Node) (buffered : Option Event)
  /-- `CombineState::First` (`modifier/mod.rs` 271) -/
  | combFirst (first second : Node)
  /-- `CombineState::Second` (`modifier/mod.rs` 272) -/
  | combSecond (second : Node)
  /-- `SingleElementState::Start` (`modifier/select/element.rs` 71-74) -/
  | singleStart (event : Event) (stream : Node)
  /-- `SingleElementState::EmitUntilClose` (`modifier/select/element.rs` 75-79) -/
  | singleUntil (tag : Identifier) (stream : Node) (level : Nat)
  /-- `Select` in `SelectState::Scanning` (`modifier/select/mod.rs` 154-160, 231-233);
  `count` is the number of builder invocations so far -/
  | selScan (source : Node) (s : Selector) (direct : Bool) (k : Kind)
      (builder : Nat → Prog .elem k) (count level : Nat)
  /-- `Select` in `SelectState::Active` (`modifier/select/mod.rs` 234-237) -/
  | selActive (source : Node) (s : Selector) (direct : Bool) (k : Kind)
      (builder : Nat → Prog .elem k) (count level : Nat) (stream : Node)
  /-- `SelectOnceState::Scanning` (`modifier/select/mod.rs` 141-146) -/
  | onceScan (source : Node) (s : Selector) (direct : Bool) (k : Kind)
      (builder : Prog .elem k) (level : Nat)
  /-- `SelectOnceState::Active` (`modifier/select/mod.rs` 147-149) -/
  | onceActive (source stream : Node)
  /-- `SelectOnceState::Passthrough` (`modifier/select/mod.rs` 150) -/
  | oncePass (source : Node)
  /-- `SelectContentState::Open` (`modifier/select/select_contents.rs` 106-109) -/
  | contOpen (source : Node) (k : Kind) (builder : Prog .gen k)
  /-- `SelectContentState::Content` (`modifier/select/select_contents.rs` 110-114) -/
  | contContent (source stream : Node) (tag : Identifier)
  /-- `SelectContentState::Close` (`modifier/select/select_contents.rs` 115-118) -/
  | contClose (source : Node) (tag : Identifier)
  /-- `CurrentContent` on the innermost shared cell, a `Peek`
  (`modifier/select/select_contents.rs` 122-124, 171-175) -/
  | curContent (tag : Identifier) (level : Nat)
  /-- `State::Start` (`modifier/attribute.rs` 10-13) -/
  | attrStart (op : AttrOp) (stream : Node)
  /-- `State::Emit` (`modifier/attribute.rs` 14-16) -/
  | attrEmit (stream : Node)
  /-- `Remove` (`modifier/remove.rs` 11-13) -/
  | remove (stream : Node)
  /-- `State::Collect` (`modifier/repeat.rs` 152-156); `n` items -/
  | repCollect (stream : Node) (n : Nat) (k k' : Kind) (builder : Nat → Prog k k')
  /-- `State::Next` (`modifier/repeat.rs` 157-161); `i` items are already taken -/
  | repNext (template : List Event) (i n : Nat) (k k' : Kind) (builder : Nat → Prog k k')
  /-- `State::Emit` (`modifier/repeat.rs` 162-167) -/
  | repEmit (template : List Event) (i n : Nat) (k k' : Kind) (builder : Nat → Prog k k')
      (stream : Node)
  /-- `RepeatOrElseState::Start` (`modifier/repeat.rs` 21-26); the two streams are what will be
  built from `stream` in the two cases -/
  | orElseStart (n : Nat) (rep fallback : Node)
  /-- `RepeatOrElseState::Fallback`, `RepeatOrElseState::Repeat` (`modifier/repeat.rs` 27-32) -/
  | orElseRun (stream : Node)
  /-- `TemplateState::Collect` (`modifier/apply.rs` 91-94) -/
  | applyCollect (stream : Node) (f : Template → Except StreamError Template)
  /-- `TemplateState::Emit` (`modifier/apply.rs` 95-97) -/
  | applyEmit (stream : Node)

/-- `Template::to_stream`. `template.rs` 338-343. -/
def Template.toStream (t : Template) : Node := .tmpl t.events 0

/-- `IntoStream::into_stream`. `content.rs` 10-101 (data, streams and results),
`template.rs` 379-404 (templates). -/
def Content.intoStream : Content → Node
  | .data d => .once (some d)
  | .template t => t.toStream
  | .script rs => .script rs
  | .resultOk c => .fallStart c.intoStream
  | .resultErr e => .fallError e

/-- Building the stream of a chain of Api calls on a given stream: the constructors of the
modifiers, i.e. `transform::build_once`/`build_mut`/`build_mut_mapped` (`transform.rs` 13-35).
The lines for each call are given at the constructors of `Prog`. -/
def Prog.build {a k : Kind} : Prog a k → Node → Node
  | .src, n => n
  | .forget p, n => p.build n
  | .apply p q, n => q.build (p.build n)
  | .fallOk p, n => .fallStart (p.build n)
  | .fallErr e, _ => .fallError e
  | .selectRaw (k' := k') p s direct b, n => .selScan (p.build n) s direct k' b 0 0
  | .selectOnceRaw (k' := k') p s direct b, n => .onceScan (p.build n) s direct k' b 0
  | .remove p, n => .remove (p.build n)
  | .prepend p c, n => .combFirst c.intoStream (p.build n)
  | .append p c, n => .combFirst (p.build n) c.intoStream
  | .repeat (k := k) (k' := k') p m b, n => .repCollect (p.build n) m k k' b
  | .orElse p m r f, n => .orElseStart m (r.build (p.build n)) (f.build (p.build n))
  | .applyTemplate p f, n => .applyCollect (p.build n) f
  | .contents (k := k) p b, n => .contOpen (.expandStart (p.build n)) k b
  | .attr p op, n => .attrStart op (p.build n)

/-- `StreamResult`. `event.rs` 453. -/
inductive Res
  | ev (e : Event)
  | done
  | err (e : StreamError)

/-- `Restrict::include`. `modifier/select/mod.rs` 29-48. -/
def restrictInclude (direct : Bool) (level : Nat) : Bool := !direct || level == 0

/-- `Level::adjust`. `modifier/mod.rs` 39-50. -/
def levelAdjust (level : Nat) (e : Event) : Except StreamError Nat :=
  match e.openingTagName with
  | some _ => .ok (level + 1)
  | none =>
    match e.closingTagName with
    | some name => if level = 0 then .error (.unexpectedClose name) else .ok (level - 1)
    | none => .ok level

/-- The cells shared by the enclosing streams, innermost first. -/
abbrev Env := List Node

/-- Outcome of a pull: the result, the new state of the stream, the new state of the cells. -/
abbrev Pull := Res × Node × Env

/-- `modifier::passthrough` inside `State::step`. `modifier/mod.rs` 68-93. -/
def passthrough (cont : Node → Node) : Pull → Pull
  | (.ev e, n, env) => (.ev e, cont n, env)
  | (.done, _, env) => (.done, .dead, env)
  | (.err e, _, env) => (.err e, .dead, env)

/-- `EmitUntilClose` after an event was pulled. `modifier/select/element.rs` 43-63. -/
def singleUntilStep (tag : Identifier) (level : Nat) (e : Event) (n : Node) : Node :=
  if e.isOpeningTagFor tag then .singleUntil tag n (level + 1)
  else if e.isClosingTagFor tag then
    if level = 0 then .dead else .singleUntil tag n (level - 1)
  else .singleUntil tag n level

mutual

/-- `Stream::next_event` for every kind of stream; `none` is divergence (and access to a cell that
does not exist, which is proved impossible). Lines are given at the cases. -/
def next (env : Env) (n : Node) : Option Pull :=
  match n with
  -- `modifier/mod.rs` 71-74
  | .dead => some (.done, .dead, env)
  -- `event.rs` 702-707
  | .shared =>
    match env with
    | [] => none
    | cell :: rest => do
      let (r, cell, rest) ← next rest cell
      some (r, .shared, cell :: rest)
  -- `template.rs` 127-135
  | .tmpl events index =>
    match events[index]? with
    | some e => some (.ev e, .tmpl events (index + 1), env)
    | none => some (.done, .tmpl events index, env)
  -- `content.rs` 114-116
  | .once data =>
    match data with
    | some d => some (.ev (.data d), .once none, env)
    | none => some (.done, .once none, env)
  -- user code
  | .script results =>
    match results with
    | .ok (some e) :: rest => some (.ev e, .script rest, env)
    | .ok none :: rest => some (.done, .script rest, env)
    | .error e :: rest => some (.err e, .script rest, env)
    | [] => some (.done, .script [], env)
  -- `modifier/mod.rs` 129-132
  | .fallStart s => some (.ev .noop, .fallEmit s, env)
  | .fallError e => some (.err e, .dead, env)
  -- `modifier/mod.rs` 133-134
  | .fallEmit s => do some (passthrough .fallEmit (← next env s))
  -- `modifier/mod.rs` 159-173
  | .expandStart s => do
    let (r, s, env) ← nextSkipNoop env s
    match r with
    | .ev (.openingTag tag as) => some (.ev (.openingTag tag as), .expandEmit s, env)
    | .ev (.selfClosedTag tag as) => some (.ev (.openingTag tag as), .expandClose tag, env)
    | .ev (.voidTag tag as) => some (.ev (.voidTag tag as), .dead, env)
    | .ev other => some (.err (.expectedOpen (some other)), .dead, env)
    | .done => some (.err (.expectedOpen none), .dead, env)
    | .err e => some (.err e, .dead, env)
  -- `modifier/mod.rs` 174-175
  | .expandEmit s => do some (passthrough .expandEmit (← next env s))
  -- `modifier/mod.rs` 176-177
  | .expandClose tag => some (.ev (.closingTag tag), .dead, env)
  -- `modifier/mod.rs` 228-233
  | .peek s buffered =>
    match buffered with
    | some e => some (.ev e, .peek s none, env)
    | none => do
      let (r, s, env) ← nextSkipNoop env s
      some (r, .peek s none, env)
  -- `modifier/mod.rs` 257-260
  | .combFirst s other => do
    let (r, s, env) ← nextSkipNoop env s
    match r with
    | .ev e => some (.ev e, .combFirst s other, env)
    | .done => some (.ev .noop, .combSecond other, env)
    | .err e => some (.err e, .dead, env)
  -- `modifier/mod.rs` 261-264
  | .combSecond s => do
    let (r, s, env) ← nextSkipNoop env s
    match r with
    | .ev e => some (.ev e, .combSecond s, env)
    | .done => some (.done, .dead, env)
    | .err e => some (.err e, .dead, env)
  -- `modifier/select/element.rs` 27-37
  | .singleStart e s =>
    match e with
    | .openingTag tag as => some (.ev (.openingTag tag as), .singleUntil tag s 0, env)
    | .selfClosedTag tag as => some (.ev (.selfClosedTag tag as), .dead, env)
    | .voidTag tag as => some (.ev (.voidTag tag as), .dead, env)
    | other => some (.err (.expectedOpen (some other)), .dead, env)
  -- `modifier/select/element.rs` 38-64
  | .singleUntil tag s level => do
    let (r, s, env) ← next env s
    match r with
    | .ev e => some (.ev e, singleUntilStep tag level e s, env)
    | .done => some (.done, .dead, env)
    | .err e => some (.err e, .dead, env)
  -- `modifier/select/mod.rs` 205-220
  | .selScan source s direct k b count level => do
    let (r, source, env) ← nextSkipNoop env source
    match r with
    | .ev e =>
      if restrictInclude direct level && s.matches e then
        some (.ev .noop,
          .selActive source s direct k b (count + 1) level
            ((b count).build (.singleStart e .shared)), env)
      else
        match levelAdjust level e with
        | .ok newLevel => some (.ev e, .selScan source s direct k b count newLevel, env)
        | .error err => some (.err err, .dead, env)
    | .done => some (.done, .dead, env)
    | .err e => some (.err e, .dead, env)
  -- `modifier/select/mod.rs` 221-224
  | .selActive source s direct k b count level stream => do
    let (r, stream, cells) ← next (source :: env) stream
    match cells with
    | [] => none
    | source :: env =>
      match r with
      | .done => some (.ev .noop, .selScan source s direct k b count level, env)
      | .ev e => some (.ev e, .selActive source s direct k b count level stream, env)
      | .err e => some (.err e, .dead, env)
  -- `modifier/select/mod.rs` 104-124
  | .onceScan source s direct k b level => do
    let (r, source, env) ← nextSkipNoop env source
    match r with
    | .ev e =>
      if restrictInclude direct level && s.matches e then
        some (.ev .noop, .onceActive source (b.build (.singleStart e .shared)), env)
      else
        match levelAdjust level e with
        | .ok newLevel => some (.ev e, .onceScan source s direct k b newLevel, env)
        | .error err => some (.err err, .dead, env)
    | .done => some (.done, .dead, env)
    | .err e => some (.err e, .dead, env)
  -- `modifier/select/mod.rs` 125-128
  | .onceActive source stream => do
    let (r, stream, cells) ← next (source :: env) stream
    match cells with
    | [] => none
    | source :: env =>
      match r with
      | .done => some (.ev .noop, .oncePass source, env)
      | .ev e => some (.ev e, .onceActive source stream, env)
      | .err e => some (.err e, .dead, env)
  -- `modifier/select/mod.rs` 129-132
  | .oncePass source => do some (passthrough .oncePass (← next env source))
  -- `modifier/select/select_contents.rs` 50-69
  | .contOpen source _ b => do
    let (r, source, env) ← nextSkipNoop env source
    match r with
    | .ev (.openingTag tag as) =>
      some (.ev (.openingTag tag as),
        .contContent (.peek source none) (b.build (.curContent tag 0)) tag, env)
    | .ev (.voidTag tag as) => some (.ev (.voidTag tag as), .dead, env)
    | .ev other => some (.err (.expectedOpen (some other)), .dead, env)
    | .done => some (.err (.expectedOpen none), .dead, env)
    | .err e => some (.err e, .dead, env)
  -- `modifier/select/select_contents.rs` 70-80
  | .contContent source stream tag => do
    let (r, stream, cells) ← next (source :: env) stream
    match cells with
    | [] => none
    | source :: env =>
      match r with
      | .done => some (.ev .noop, .contClose source tag, env)
      | .ev e => some (.ev e, .contContent source stream tag, env)
      | .err e => some (.err e, .dead, env)
  -- `modifier/select/select_contents.rs` 81-96
  | .contClose source tag => do
    let (r, _, env) ← nextSkipNoop env source
    match r with
    | .ev (.closingTag closedTag) =>
      if closedTag.eq tag then some (.ev (.closingTag closedTag), .dead, env)
      else some (.err (.unexpectedClose closedTag), .dead, env)
    | .ev other => some (.err (.expectedClose (some other) tag), .dead, env)
    | .done => some (.err (.expectedClose none tag), .dead, env)
    | .err e => some (.err e, .dead, env)
  -- `modifier/select/select_contents.rs` 139-168 and `Peek::peek`, `modifier/mod.rs` 210-221
  | .curContent tag level =>
    match env with
    | .peek s buffered :: env => do
      -- `has_reached_end`: fill the buffer at the top level
      let (r, s, buffered, env) ←
        (if level = 0 then
          match buffered with
          | some e => some (Res.ev e, s, some e, env)
          | none => do
            let (r, s, env) ← nextSkipNoop env s
            match r with
            | .ev e => some (Res.ev e, s, some e, env)
            | r => some (r, s, none, env)
        else some (Res.ev .noop, s, buffered, env))
      match r with
      | .err e => some (.err e, .dead, .peek s buffered :: env)
      | .done => some (.err (.missingClose tag), .dead, .peek s buffered :: env)
      | .ev peeked =>
        if level = 0 && peeked.isClosingTagFor tag then
          some (.done, .dead, .peek s buffered :: env)
        else do
          let (r, cell, env) ← next env (.peek s buffered)
          match r with
          | .err e => some (.err e, .dead, cell :: env)
          | .done => some (.err (.missingClose tag), .dead, cell :: env)
          | .ev e =>
            match levelAdjust level e with
            | .ok newLevel => some (.ev e, .curContent tag newLevel, cell :: env)
            | .error _ => some (.err (.missingClose tag), .dead, cell :: env)
    | _ => none
  -- `modifier/attribute.rs` 25-36
  | .attrStart op s => do
    let (r, s, env) ← nextSkipNoop env s
    match r with
    | .ev (.openingTag tag as) => some (.ev (.openingTag tag (op.apply as)), .attrEmit s, env)
    | .ev (.selfClosedTag tag as) => some (.ev (.selfClosedTag tag (op.apply as)), .dead, env)
    | .ev (.voidTag tag as) => some (.ev (.voidTag tag (op.apply as)), .dead, env)
    | .ev other => some (.err (.expectedOpen (some other)), .dead, env)
    | .done => some (.err (.expectedOpen none), .dead, env)
    | .err e => some (.err e, .dead, env)
  -- `modifier/attribute.rs` 37
  | .attrEmit s => do some (passthrough .attrEmit (← next env s))
  -- `modifier/remove.rs` 24-27
  | .remove s => do
    let (r, s, env) ← drain env s
    some (r, .remove s, env)
  -- `modifier/repeat.rs` 183-186
  | .repCollect s n k k' b => do
    let (r, env) ← collect env s
    match r with
    | .ok events => some (.ev .noop, .repNext events 0 n k k' b, env)
    | .error e => some (.err e, .dead, env)
  -- `modifier/repeat.rs` 187-195
  | .repNext events i n k k' b =>
    if i < n then
      some (.ev .noop, .repEmit events (i + 1) n k k' b ((b i).build (.tmpl events 0)), env)
    else some (.done, .dead, env)
  -- `modifier/repeat.rs` 196-205
  | .repEmit events i n k k' b stream => do
    let (r, stream, env) ← next env stream
    match r with
    | .ev e => some (.ev e, .repEmit events i n k k' b stream, env)
    | .done => some (.ev .noop, .repNext events i n k k' b, env)
    | .err e => some (.err e, .dead, env)
  -- `modifier/repeat.rs` 48-59
  | .orElseStart n rep fallback =>
    if 0 < n then some (.ev .noop, .orElseRun rep, env)
    else some (.ev .noop, .orElseRun fallback, env)
  -- `modifier/repeat.rs` 60-63
  | .orElseRun s => do some (passthrough .orElseRun (← next env s))
  -- `modifier/apply.rs` 77-82
  | .applyCollect s f => do
    let (r, env) ← collect env s
    match r with
    | .ok events =>
      match f ⟨events⟩ with
      | .ok t => some (.ev .noop, .applyEmit t.toStream, env)
      | .error e => some (.err e, .dead, env)
    | .error e => some (.err e, .dead, env)
  -- `modifier/apply.rs` 83-84
  | .applyEmit s => do some (passthrough .applyEmit (← next env s))
partial_fixpoint

/-- `Stream::next_event_skip_noop`. `event.rs` 683-690. -/
def nextSkipNoop (env : Env) (n : Node) : Option Pull := do
  let (r, n, env) ← next env n
  match r with
  | .ev .noop => nextSkipNoop env n
  | r => some (r, n, env)
partial_fixpoint

/-- The loop of `Remove::next_event`. `modifier/remove.rs` 25-26. -/
def drain (env : Env) (n : Node) : Option Pull := do
  let (r, n, env) ← next env n
  match r with
  | .ev _ => drain env n
  | r => some (r, n, env)
partial_fixpoint

/-- `Template::from_stream`. `template.rs` 345-356. -/
def collect (env : Env) (n : Node) : Option (Except StreamError (List Event) × Env) := do
  let (r, n, env) ← nextSkipNoop env n
  match r with
  | .ev e => do
    let (r, env) ← collect env n
    match r with
    | .ok events => some (.ok (e :: events), env)
    | .error err => some (.error err, env)
  | .done => some (.ok [], env)
  | .err e => some (.error e, env)
partial_fixpoint

end

/-- `Template::transform`; `none` is divergence. `template.rs` 359-366. -/
def Template.transform {k : Kind} (t : Template) (p : Prog .gen k) :
    Option (Except StreamError Template) := do
  let (r, _) ← collect [] (p.build t.toStream)
  match r with
  | .ok events => some (.ok ⟨events⟩)
  | .error e => some (.error e)

end Fuser
