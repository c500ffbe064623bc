# Verification of html5-fuser: design

Subject: the Rust crate in `/repo` (`html5-fuser`), read as text. Everything below is a Lean 4
model of that code and proofs about the model.

## Layout

| directory | contents |
|---|---|
| `lean/Verif/Model/*.lean` | the model, function by function, each definition citing file and lines |
| `lean/Verif/Spec/*.lean` | small independent specifications used in theorem statements |
| `lean/Verif/Proof/*.lean` | helper lemmas |
| `lean/Verif/Props/*.lean` | the property theorems (names start with the property id) and, beside each, an `example` of a non-trivial case |
| `lean/Verif/Tests/*.lean` | the crate's own unit tests and documentation examples, run on the model; tests of the model, not proofs of properties |

## What is modelled

* **Strings** are `List Char`. A Rust `char` and a Lean `Char` are both Unicode scalar values.
  Byte lengths are sums of `Char.utf8Size`. Slicing is by byte offset and yields an explicit
  `panic` value when the offset is out of range or not on a character boundary, as in Rust.
* **Text** (`src/text/*`): the two storage forms (`Deferred::StaticStr`, `Deferred::Actual`)
  are kept apart, because derived equality sees the difference. Tendrils are plain strings; their
  32 bit lengths are not modelled, so texts of 4 GiB and more (where `StrTendril` panics) are out of
  scope. No text of a parsed template is longer than its input (C100).
* **Events and attributes** (`src/event.rs`): all event kinds, attribute operations, rendering
  (`Display`), stream errors. `Rc` sharing of immutable data is dropped.
* **Input, location, parser** (`src/input.rs`, `src/location.rs`, `src/parse.rs`): all
  functions. `expect` failures and bad slices are explicit `panic` results. Loops carry a fuel
  counter with an explicit `fuel` result; `Template::from_str` starts with a fuel computed from
  the input and it is proved that fuel never runs out, so the fuel is not a restriction.
* **Templates** (`src/template.rs`): `from_str`, `from_file` (over a model of
  `BufReader::fill_buf`/`consume` with arbitrary read sizes and a UTF-8 decoder), `with_element`,
  `with_transformed_element`, `from_stream`, `transform`, rendering.
* **Selectors** (`src/select.rs`): `Tag`, `Id`, `Class`, `Classes`, `Static`, the static selector
  syntax; user-defined selectors as arbitrary predicates on events.
* **Transforms** (`src/transform.rs`, `src/builder.rs`, `src/modifier/**`, `src/content.rs`): a
  deep embedding `Prog` of chains of Api calls, indexed by whether input and output are element
  streams (the `ElementStream` bound), and a pull machine `next` on stream states `Node`, one
  constructor per Rust stream state, one case per match arm. `next`, `next_event_skip_noop`, the
  draining loop of `Remove` and the collecting loop of `Template::from_stream` are defined by
  `partial_fixpoint` in `Option`; `none` means divergence. So termination is a theorem, not an
  assumption.
* **Errors**: all error types with their messages (`Display`), descriptions and causes.
* **Sharing** (`Rc<RefCell<S>>`): builders get a handle to a source that the enclosing `Select` or
  `SelectContent` keeps as well. The model evaluates the inner stream in an environment (a stack
  of shared cells) whose top is the source; the handle pulls from the top cell. Builders are
  polymorphic in the Api lifetime, so a handle never escapes to an outer stream; hence the stack.
  A second model of the streams (`Model/Heap.lean`) has the cells on an explicit heap, with
  addresses as handles and a mark on borrowed cells; C83 proves that the two agree and that no cell
  is borrowed twice.

### Simplifications and what is not modelled

* `usize` counters (depth, line, column, offset) are natural numbers. For the parser C91 shows that
  they stay below the length of the text. For streams the depth grows by at most one with an event
  and is tested before it is decreased.
* Memory exhaustion and paths are not modelled. A file is an outcome of opening (failure, or a list
  of outcomes of reads: bytes or an error); `ErrorKind::Interrupted` is an error like others.
* Builder closures: an `FnMut` builder is a function from the number of earlier invocations to a
  program, iterators given to `repeat` are numbers of items, and user-defined streams are finite
  scripts of events, ends and errors, which may go on after an end or an error (C90). User code with
  a state in common, streams used in two places, and iterators and streams without end are in a third
  model of the streams (`Model/UserState.lean`); C106 takes the properties of all transforms that end
  over to it. Selectors that change something when they are asked, and user code that panics, are not
  modelled.
* Forwarding wrappers (`Box`, `Derived`, `ApplyEither`, `SelectAny`, `SubSelectAny`, ...), whose
  `next_event` only calls the inner stream, are identified with the inner stream.
* `Display` with format parameters is modelled for texts, names, events and templates
  (`Model/Format.lean`); error messages are written by `write!`, which ignores them.
* `Debug` formatting is not modelled. File errors do not store the path and the inner error of the
  standard library; the path is an argument of the message.
* The RefCell borrow flag: see above, a cell is never re-entered in the stack model by construction.

## Trusted base

* The Lean kernel, and the axioms `propext`, `Classical.choice`, `Quot.sound`. No theorem uses
  any other axiom (checked by `vcheck`). `partial_fixpoint` definitions use these three.
* The faithfulness of the hand-made model, supported by the citations and by the sample
  evaluations taken from the crate's own unit tests.
* The Rust standard library behaves as documented (`str::find`, `trim`, `split_whitespace`,
  `split`, `BufReader`, `str::from_utf8`, integer formatting), and `tendril` as a string.

## Properties: what is modelled and how it is proved

| id | plan |
|---|---|
| C01, C02 | `encode_str_optional` as the loop it is; spec: a decoder and a safety predicate on strings; induction on the string |
| C03 | the code violates it: negation with a witness, and `_partial` for strings without special characters |
| C04, C05 | decision logic of `validate`, `identifier_eq`; spec by membership and letterwise lowering |
| C06 | `Nat`/`Int` decimal rendering as digits; reading back with an independent reader |
| C07 | violated (storage form is compared): negation with witness, `_partial`: equal implies same rendering, converse for equal storage, never equal for different storage |
| C08-C14 | list lemmas on the attribute operations; class membership through `split_whitespace` |
| C15 | equality of the panicking byte-level parser with a pure one, fuel sufficiency by a decreasing measure |
| C16, C17, C29 | invariant of the `Iter` loop: stack versus events emitted so far; spec: balancedness by a stack-free grammar |
| C18 | decision logic |
| C19, C20 | C19: induction on canonical event lists, lemmas for each lexical construct; C20: parser output is canonical unless a tag name starts with `!`; the code violates C20 for such names (`< !--x>`), negation with witness and `_partial` |
| C21, C22 | location homomorphism; invariant that every `Input` of the parser is a suffix with the location of the prefix |
| C23 | violated (arguments swapped): negation, `_partial` for identical tags and locations |
| C24-C28, C30 | per-construct lemmas, invariant of the loop; C28 is violated (leading whitespace dropped) |
| C31, C32 | model of `from_file`; C31 is violated (a multi-byte character across a buffer boundary), `_partial` for chunk boundaries on character boundaries |
| C33-C36 | string splitting lemmas; C34 is partly violated (`.a#b` is accepted as class `a#b`) |
| C37 | refinement: tree-level meaning of every Api call (`Spec/Tree.lean`) versus the pull machine, by induction on the program with a big-step relation for streams in environments |
| C38, C39, C41-C45, C47, C50, C51, C54 | corollaries of C37 plus induction on trees/programs |
| C46, C48, C49, C52, C53, C55 | machine-level theorems on arbitrary event sequences where possible, else from C37 |
| C40 | ranking argument on the machine for arbitrary programs and streams |
| C56 | C19 + C01; `Reread` says what a written page is read as: text in raw text elements is raw text, the rest is itself |
| C57 | as C33-C36 |
| C58, C59 | the parser read as a grammar: soundness and completeness of `Iter` against `Reads`/`Opens`/`Fails` (`Spec/Grammar.lean`, `Spec/Report.lean`) |
| C60 | totality of the file loop by a measure on the reads left |
| C61 | a weak simulation (`Proof/Chain.lean`): a stream stands for the template of its events in every stream built on it; no condition on events, contents or builders. C52 and C55 follow |
| C62 | an invariant of the machine (`Proof/Errors.lean`): no stream built on a failing stream ends before the failure; no condition on events, contents or builders. For calls on an element: composition of the meanings from C37 |
| C63 | violated; from C59 |
| C64, C65, C68 | unique reading of messages: fixed words, decimal and hexadecimal numbers |
| C66, C67, C69 | case analysis; induction on the calls |
| C70 | as C19, for event lists that the parser need not produce: relation `Normal` (`Spec/Normal.lean`) between events and what they are read as |
| C71 | invariant of the machine (`Proof/Invariant.lean`), without conditions on nesting; `Keeps` (`Spec/Keep.lean`) says what contents, attribute changes and functions keep |
| C72, C73 | C70 + C71; for C73 the property of events depends on the element around them |
| C74 | induction on the calls and trees with a depth bound, through C37 |
| C75 | C42 and induction on the rewriting; C41 for the second removal |
| C76 | C70 + C20 |
| C77 | comparison as a relation (`Spec/Alike`), characterised event by event |
| C78 | for arbitrary programs and templates, by a simulation of the machine with itself (`Proof/Akin.lean`): two states with names, texts, events and errors alike are matched pull by pull |
| C79 | concatenation of readings of the grammar of C58/C59, shifting all positions |
| C80 | the tree meaning of C37 is a homomorphism for local calls |
| C81 | induction over forests: matches stay matches, so numbers and places agree |
| C82 | induction over forests; selectors depend on the attributes of their names only |
| C83 | simulation of the stack machine by the heap machine (partial correctness of the fixpoint), with a separation invariant on owned cells |
| C84 | a relation between forests kept by the tree meaning of every element call |
| C85 | uniqueness of readings in the grammar of C58; respelling a piece keeps the conditions on its neighbours |
| C86 | `Iter.step` with its state after errors: a call agrees with `Iter.next`; after an error the rest is empty and the stack unwinds |
| C87 | the loop with the `first` flag and the nested `Display` implementations against one layout per event (`Spec/Show.lean`) |
| C88 | the read loop against an inductive description of reads (`Spec/File.lean`), with uniqueness of decoding |
| C89 | uniqueness of the cut into parts, then the matching lemma of C33 for any valid parts |
| C90 | the simulation of C78 for equality of names and texts: contents are always below a `Combine` that skips placeholders and forgets them at the end, so only what they give before their first end or error is compared |
| C91 | invariant of the states of the iterator: a position in the text and the positions of the open tags |
| C92 | the variable parts of messages are found from the fixed texts, quotes and numbers around them (`Proof/Named.lean`); names of tags have no quotes by C22 |
| C93 | an invariant of the machine that says for each stream which errors it may still raise (`Proof/Faults.lean`), kept by every step on any list of events |
| C94 | violated; the exact outcome is the run of the machine on the inside of one element (`Proof/Ending.lean`), for any calls before by C61 |
| C95 | each spelling of the grammar (C58) is compared with the text of its event (C87); four spaces or slashes at most per five bytes (`Proof/Bytes.lean`) |
| C96 | induction on the calls through the meaning (C37), with an arbitrary measure of events (`Proof/Size.lean`); changes of attributes are measured in `Proof/Bytes.lean` |
| C97–C99 | one induction on the calls through the meaning (C37) for any view of events and any comparison that works piece by piece (`Proof/Order.lean`); then sublist, superlist and equality |
| C100 | each spelling of the grammar contains the texts of its event in order (`Proof/Source.lean`), put together along the document (C58) |
| C101 | the simulation of C78 (`Proof/Akin.lean`) for a likeness that hides contents and values; nesting is a matter of markup (`Proof/Hidden.lean`), then C72 for the rendered pages |
| C102 | showing with parameters is showing the template with padded texts (`Proof/Format.lean`); how ordinary pages are read (C70) |
| C103 | forests that agree up to a cut, and one induction on the calls for two such forests (`Proof/Ahead.lean`), with the views and comparisons of C97 |
| C104 | one step on a text and on the longer text are the same step, unless text ends with the input (`Proof/NoLookAhead.lean`); the grammar of errors (C28) for the errors |
| C105 | each rule keeps the meaning of calls on forests, by induction on the derivation (`Proof/Calculus.lean`); the machine computes the meaning (C37) |
| C106 | a third model with a state for user code; backwards through a run (`Proof/Resolve.lean`): from what is left of the streams after a step, and what the step used, what was left before it; user code without or with its own state by a lockstep simulation (`Proof/Stateless.lean`) |
| C107 | lockstep simulation of two runs of the third model along a relation between states (`Proof/Along.lean`), in both directions because the relation can be turned round; invariants by the relation between a state and itself with a proof of the property |
| C108 | the proof of C40 (`Proof/Halt.lean`) again, in every state that can follow (`Proof/HaltUser.lean`); the number of events that are left depends on states to come, so it is an ordinal; no end of endless streams by partial correctness (`Proof/Endless.lean`) |
| C109 | runs with the state at their end (`URun` in `Proof/Asked.lean`), built along the runs of C37 and C40 without state; found necessary when planning mutants of `Model/UserState.lean`: with the number of calls left open in C106, a model that asks once too often or does not keep the state of a call passed |
| C110 | streams of the crate that own their source (`Owned`) are over for good after an end or an error (`Over`), by one step of the machine and an induction for `remove`; with the termination of C40 all pulls return |
| C111 | the conversions have a one-sided inverse (`convertedFrom`); invalid names through C57 and the failing modifier |
| C112 | `meaning` of the calls respects trees whose texts are cut into letters, by induction over the calls; saving through C61, C70, C78 |
| C113 | trees: selections leave parts without matches as they are, so selections of separate parts commute; counters compared as long as nothing failed; one match at a time by induction over the tree and over the number of calls |
| C114 | forests of copies: sums, products and C80 for the forest of all copies |
| C115 | forests all of whose events have a property, also after a failure; then C33 for selector texts |
| C116 | selections that do not meet stay so under each other, so adjacent ones can be swapped (C113) in every permutation; a chain of sets and removals is a filter followed by new attributes |
| C117 | by induction on the chain from its first call, with the summary of the rest applied to what the first call gives; different summaries are told apart by a void element, one closed by a slash, and one with a text that no call puts in |
| C118 | each call commutes with keeping the attributes of one name if it is about that name, and is not seen there if not; lists that agree on every name are permutations of each other by counting |
| C119 | what each call does to the classes and the ids, by C118 for the calls about other names, then by induction from the first call |
| C120 | induction on trees: the second selection finds exactly what the first one left, as in C81, where the two selectors are the same; the class is there by C119 |
| C121 | C12 gives the list with the class, attribute by attribute; only the first class attribute carries it, and its words without the last one are those it had |

## Violations of properties by the code

Each is proved as the negation of the full statement with a concrete witness (`_false`); what holds
is proved in the `_partial` theorem beside it.

| id | what the code does | witness |
|---|---|---|
| C03 | `Data::from_unencoded_str` and `Value::from_unencoded_str` (dynamic text) store the text without encoding it, so `<` and quotes reach the page | `C03_dynamic_text_encoded_false` |
| C07 | `==` on texts, and so on templates, distinguishes static from owned storage: a parsed template and an equal looking built one are different | `C07_text_equality_false` |
| C20 | `< !--x>` is a start tag for the parser, but is rendered as `<!--x>`, a comment start; rendered text is rejected or read as something else | `C20_round_trip_false` |
| C23 | the message of a mismatched closing tag swaps the opening and the closing tag | `C23_mismatch_message_false` |
| C28 | leading white space of quoted attribute values is dropped | `C28_values_verbatim_false` |
| C31 | `Template::from_file` reports a decode error for valid files if a multi-byte character lies across the end of the read buffer | `C31_file_like_text_false` |
| C34 | the static selector `.a#b` is accepted as class `a#b`, which nothing parsed can match in the intended sense | `C34_selector_text_false` |
| C56 | static text put into `script`, `style`, `title` or `textarea` is encoded, but these hold raw text: read back it shows the character references | `C56_static_text_false` |
| C63 | the location for an unfinished tag is where `>` was expected; the documentation says where the tag was started | `C63_unfinished_tag_false` |
| C64 | the message for an invalid name in a closing tag says "Invalid opening tag identifier" | `C64_message_kinds_false` |
| C67 | `StaticError` describes itself as "classes selector error", like `ClassesError` | `C67_descriptions_false` |
| C94 | a closing tag of another name inside an element is reported as the end of input; the documentation says the event that was found | `C94_found_false` |

Observed while modelling, not claimed as properties:

* `identifier_eq` is not reflexive on non-ASCII text; harmless since identifiers are ASCII.
* An invalid selector or identifier inside a builder that never runs is never reported (C51 says
  exactly when errors are reported). The content calls on void elements never look at their content.
* A user-defined selector that matches a non-element event gives an assertion error (C39 needs
  `StartSelectors`). A user-defined stream can insert unbalanced events.
* Vertical tab and form feed are white space for identifier validation but do not end words in tags.
* Rendering can be longer than the length limit that the text obeyed.
* Identifiers may contain `'`, which ends words in tags: such names cannot be read back (`Name` in
  `Spec/Grammar.lean` excludes them).
* `add_class` on an empty `class` attribute gives a value with leading white space, which is lost
  when the page is parsed again.
* Text without `<` can complete a closing tag begun in raw text (`C73_guard_needed`).
* Messages about attribute values show `tag.attribute`, which is ambiguous when names contain dots
  (example at `C92_parse_messages`); in the message for several unclosed elements the space before the
  parenthesis is missing.
* A width or precision given when showing a template pads or cuts each of its texts, not the page
  (`C102_not_whole`).
* Two reports exist that no stream gives rise to: an event found in place of a closing tag, and the end
  of the stream in place of an opening tag (`C93_never`).

## Mutation testing: what the log shows and what it does not

Each line of `seeded/LOG.jsonl` is one wrong program. The field `evidence` says how it was noticed:

* `direct`: the proof of a theorem of the broken claim itself failed.
* `downstream`: only a helper lemma failed, and a theorem of the claim uses that lemma. The fields
  `theorems_failed` and `property_theorems_without_proof` keep the two apart. This shows that the
  proof depends on the edited line. It does not show that the *statement* of the theorem excludes
  the wrong program: another proof might exist.
* `none`: no theorem of the claim was affected by this measure. The `note` says why, where one is given.

* `invalid`: the edit does not compile, so the line tests nothing. It is kept and marked.

Even `direct` means that a proof script failed, not that the statement was refuted. Lines with a field `refuted` are
stronger: for these the negation of the statement of the named theorem was proved for the wrong
program. The statements were extracted with stubbed proofs over model and specification only, their
types were compared by hash with those of the theorems, the refutations do not use the stubs (checked
by their axioms), and each fails on the right program. One theorem, `C61_nested`, was changed after its
refutation: an unused hypothesis was dropped. The new statement implies the old one, so it is refuted as well.

A field `output_differs` lists samples on which the wrong program gives another result than the right
one. If the named theorem is exact (it fixes the whole result: C37, C58/C59, C87, C88, C36, C57, C89,
C08, C86), the edited definition occurs on the side of the theorem that is computed, and its other
side does not depend on the edited definition, then one such sample means that the statement is false
for the wrong program; this is `"refutes": true`. The results were computed by running the model, not
proved in Lean, so this is weaker than `refuted`. With `"refutes": false` the sample only shows
that the edit can be observed.

Going from `downstream` to `refuted` has corrected earlier lines (marked `Correction` in the note):
some named a claim that the edit does not break, one edit changes nothing, one did not compile, and
one (a class attribute without classes left is kept) satisfied C13 as it was then stated. C13 is
now exact. A line that is only `downstream` has not had this check and should be read with care.

Some theorems cannot be refuted by a wrong program, and that is no defect of the log: `C107_along` and
`C107_view` say that the library looks at the state of user code only through that code, which holds for
every program that is written for all types of states alike, right or wrong; `C109_all_matches` is about
the specification only and connects two of its functions. What the machine does with the state is in
`C106_*`, `C108_*` and `C109_*`, and these have been refuted for wrong programs.

`seeded/AUTO.jsonl` has edits made by a script: a condition negated, a number or a string changed, an
arm of a match exchanged for the next one, an argument dropped, and so on, one at a time, over most
definitions of the model. The whole library without examples and tests was built for each. Of its 1000
lines, 289 do not compile, 705 break a proof (`failed` names the first ones), and 6 survive. A broken
proof is weak evidence, as said above. The survivors:

* Three are equivalent: a larger bound on the recursion in `parseAttributes` (twice), and an index that
  is only compared with 0.
* One is equivalent where the function is used: `Event.isClosingTagForStr` is only asked about parsed
  closing tags.
* One changes an error of `Expand` that no transform can report: `C93_never`, which excludes the changed
  error, still holds.
* One changes an error of `SelectContent` when the closing tag is read. It is believed to be unreachable,
  since the contents end when the closing tag has been looked at. There is no theorem that says so.

Five more survived at first, all of them about error messages. C65 and C92 were tightened, and
proofs of theirs break now. None of the edits of `Model/Text.lean` and `Model/Errors.lean` were tried,
and not all of those of `Model/Heap.lean`, `Model/Event.lean` and `Model/Parse.lean`.
