import Verif.Proof.Calls
import Verif.Proof.Errors

/-!
# Properties C37-C55, C61, C62: transforms
-/

namespace Fuser

open Spec

/-! ## The template and calls of the examples -/

/-- `<ul class="a b"><li>x</li><br><li/></ul>tail` -/
def sampleText : Str := "<ul class=\"a b\"><li>x</li><br><li/></ul>tail".toList

/-- Name of an element in the examples. -/
def li : Identifier := owned "li".toList

def ul : Identifier := owned "ul".toList

def sampleAttributes : Attributes := [⟨owned "class".toList, some (.actual "a b".toList)⟩]

def sampleTemplate : Template :=
  ⟨[.openingTag ul sampleAttributes, .openingTag li [], .data (.actual ['x']), .closingTag li,
    .voidTag (owned "br".toList) [], .selfClosedTag li [], .closingTag ul,
    .data (.actual "tail".toList)]⟩

theorem sample_parsed : Template.fromStr sampleText {} = .ok (.ok sampleTemplate) := rfl

theorem sample_page : Page sampleTemplate.events := parsed_page sample_parsed

/-- A text as content. -/
def text (s : String) : Content := .data (.static s.toList)

theorem text_page (s : String) : PageContent (text s) :=
  ⟨.leaf trivial .done, by intro e t h; simp [results, text] at h; subst h; simp [startName]⟩

/-- The element `<li>x</li>`. -/
def sampleElement : List Event :=
  [.openingTag li [], .data (.actual ['x']), .closingTag li]

theorem sampleElement_page : Page sampleElement :=
  (parsed_page (s := "<li>x</li>".toList) (o := {}) (t := ⟨sampleElement⟩) rfl)

theorem sampleElement_element : Element sampleElement :=
  .pair (inner := [.data (.actual ['x'])]) (sameName_refl _) ⟨0, .leaf trivial .nil⟩

/-! ## The meaning of transforms -/

/-- C37. On a well nested template a chain of calls with well nested contents gives the events of
its meaning on trees, for every nesting of builders. The tree is the one of the template. -/
theorem C37_transform_meaning {k : Kind} (t : Template) (p : Prog .gen k) (ht : Page t.events)
    (hp : WellNested p) :
    t.transform p = some ((meaning p (treeOf t.events)).events.map Template.mk) ∧
    (treeOf t.events).events = .ok t.events :=
  ⟨transform_eq p hp t ht, treeOf_events ht⟩

/-- C37, for parsed templates. -/
theorem C37_transform_parsed {k : Kind} (s : Str) (o : Options) (t : Template) (p : Prog .gen k)
    (ht : Template.fromStr s o = .ok (.ok t)) (hp : WellNested p) :
    t.transform p = some ((meaning p (treeOf t.events)).events.map Template.mk) :=
  transform_eq p hp t (parsed_page ht)

/-- C37, for builders: the same for the streams given to builders, that is for elements and contents
of elements. -/
theorem C37_builder_meaning {a k : Kind} (p : Prog a k) (es : List Event) (he : Page es)
    (hs : Fit a es) (hp : WellNested p) : run p es = some (meaning p (treeOf es)).events :=
  run_meaning p hp he hs

/-- Calls for the example: every `li` is repeated twice with its index, in a list that gets an
attribute. -/
def sampleProg : Prog .gen .gen :=
  Prog.select .src (.ok (.tag ul)) fun _ =>
    .attr (Prog.subselect .src (.ok (.tag li)) fun i =>
      .repeat .src 2 fun j => Prog.replaceContents .src (text (toString (10 * i + j))))
      (.setId (owned "n".toList))

theorem sampleProg_nested : WellNested sampleProg := by
  exact ⟨trivial, fun _ => ⟨trivial, trivial, fun _ => ⟨trivial, fun _ =>
    ⟨trivial, trivial, text_page _⟩⟩⟩⟩

/-- The text of the result of a transform. -/
def shown (r : Option (Except StreamError Template)) : Option Str :=
  match r with
  | some (.ok t) => some t.render
  | _ => none

example : shown (sampleTemplate.transform sampleProg) = some ("<ul class=\"a b\" id=\"n\">" ++
    "<li>0</li><li>1</li><br><li>10</li><li>11</li></ul>tail").toList := by
  rw [C37_transform_parsed _ _ _ _ sample_parsed sampleProg_nested]
  decide +kernel

/-- C38. A successful transform of a well nested template with well nested contents gives a well
nested template. -/
theorem C38_transform_nested {k : Kind} (t t' : Template) (p : Prog .gen k) (ht : Page t.events)
    (hp : WellNested p) (h : t.transform p = some (.ok t')) : Page t'.events := by
  rw [transform_eq p hp t ht] at h
  cases he : (meaning p (treeOf t.events)).events with
  | error e => rw [he] at h; cases h
  | ok es =>
    rw [he] at h
    cases h
    exact wf_page (meaning_ok p hp _ trivial (treeOf_spec ht).1).2 he

example : ∃ t', sampleTemplate.transform sampleProg = some (.ok t') ∧ t'.events.length = 16 := by
  rw [C37_transform_parsed _ _ _ _ sample_parsed sampleProg_nested]
  exact ⟨_, rfl, rfl⟩

/-- Well-nestedness of the contents is needed. -/
example : run (.append .src (.script [.ok (some (.closingTag li))]) : Prog .gen .gen) [] =
    some (.ok [.closingTag li]) := by
  rw [run_append, run_src]
  rfl

/-- C40. Every transform ends with a template or an error, whatever the template, contents and
selectors are. -/
theorem C40_transform_total {k : Kind} (t : Template) (p : Prog .gen k) :
    (∃ t', t.transform p = some (.ok t')) ∨ ∃ e, t.transform p = some (.error e) := by
  obtain ⟨o, -, h⟩ := run_total p t.events
  rw [transform_run, h]
  cases o.result with
  | ok es => exact .inl ⟨_, rfl⟩
  | error e => exact .inr ⟨_, rfl⟩

/-- C40, for builders: the same for every stream. -/
theorem C40_builder_total {a k : Kind} (p : Prog a k) (es : List Event) : ∃ r, run p es = some r := by
  obtain ⟨o, -, h⟩ := run_total p es
  exact ⟨_, h⟩

example : ∃ r, Template.transform ⟨[.closingTag li, .noop, .openingTag ul []]⟩
    (Prog.select .src (.ok (.custom fun _ => true)) fun _ => .contents .src
      (.append .src (.script [.error (.staticSelector .unrestricted), .ok none]))) = some r := by
  rcases C40_transform_total ⟨[.closingTag li, .noop, .openingTag ul []]⟩
    (Prog.select .src (.ok (.custom fun _ => true)) fun _ => .contents .src
      (.append .src (.script [.error (.staticSelector .unrestricted), .ok none]))) with ⟨_, h⟩ | ⟨_, h⟩
  · exact ⟨_, h⟩
  · exact ⟨_, h⟩

/-! ## Errors -/

/-- C51. A transform fails with the first error met in its meaning, in document order, and succeeds
exactly if no error is met. -/
theorem C51_first_error {k : Kind} (t : Template) (p : Prog .gen k) (ht : Page t.events)
    (hp : WellNested p) :
    (∀ e, t.transform p = some (.error e) ↔ FirstError e (meaning p (treeOf t.events))) ∧
    ((∃ t', t.transform p = some (.ok t')) ↔ Sound (meaning p (treeOf t.events))) := by
  rw [transform_eq p hp t ht]
  constructor
  · intro e
    rw [← events_error]
    cases (meaning p (treeOf t.events)).events <;> simp [Except.map]
  · rw [sound_iff]
    cases (meaning p (treeOf t.events)).events <;> simp [Except.map]

/-- C51, where errors come from: if the selectors only match element starts, an error is one of the
errors written in the calls. -/
theorem C51_error_source {k : Kind} (t : Template) (p : Prog .gen k) (ht : Page t.events)
    (hp : WellNested p) (hs : StartSelectors p) (e : StreamError)
    (h : t.transform p = some (.error e)) : Raises p e := by
  rw [(C51_first_error t p ht hp).1, ← events_error] at h
  exact (holds_meaning p hs (holds_events h)).resolve_left holds_treeOf

/-- C51, for single calls on any stream: an invalid selector or identifier is reported when the
stream is pulled; the stream before it is not used. -/
theorem C51_invalid_argument {a k : Kind} (p : Prog a k) (q : Prog a .elem) (es : List Event)
    (e : StreamError) (x : IdentifierError) :
    (∀ {k'} (b : Nat → Prog .elem k'), run (p.select (.error e) b) es = some (.error e)) ∧
    (∀ {k'} (b : Prog .elem k'), run (p.selectOnce (.error e) b) es = some (.error e)) ∧
    (∀ {k'} (b : Nat → Prog .elem k'), run (p.selectDirect (.error e) b) es = some (.error e)) ∧
    (∀ {k'} (b : Prog .elem k'), run (p.selectDirectOnce (.error e) b) es = some (.error e)) ∧
    (∀ {k'} (b : Nat → Prog .elem k'), run (q.subselect (.error e) b) es = some (.error e)) ∧
    (∀ {k'} (b : Prog .elem k'), run (q.subselectOnce (.error e) b) es = some (.error e)) ∧
    (∀ {k'} (b : Nat → Prog .elem k'), run (q.subselectDirect (.error e) b) es =
      some (.error e)) ∧
    (∀ {k'} (b : Prog .elem k'), run (q.subselectDirectOnce (.error e) b) es =
      some (.error e)) ∧
    (∀ v, run (q.addAttribute (.error x) v) es = some (.error (.identifier x))) ∧
    (∀ v w, run (q.addToAttribute (.error x) v w) es = some (.error (.identifier x))) ∧
    (∀ v, run (q.replaceAttributeValueIfExists (.error x) v) es =
      some (.error (.identifier x))) ∧
    (∀ v, run (q.setAttribute (.error x) v) es = some (.error (.identifier x))) ∧
    run (q.removeAttribute (.error x)) es = some (.error (.identifier x)) ∧
    run (q.addClass (.error x)) es = some (.error (.identifier x)) ∧
    run (q.removeClass (.error x)) es = some (.error (.identifier x)) ∧
    run (q.setId (.error x)) es = some (.error (.identifier x)) := by
  refine ⟨?_, ?_, ?_, ?_, ?_, ?_, ?_, ?_, ?_, ?_, ?_, ?_, ?_, ?_, ?_, ?_⟩
  all_goals intros; exact run_fallErr _ _

/-- An invalid selector in the second match, after a failing content in the first: the first
counts. -/
def failingProg : Prog .gen .gen :=
  Prog.select .src (.ok (.tag li)) fun i =>
    if i = 0 then .append .src (.resultErr (.staticSelector .unrestricted))
    else Prog.select .src (.error (.identifier .empty)) fun _ => .src

theorem failingProg_nested : WellNested failingProg := by
  refine ⟨trivial, fun i => ?_⟩
  by_cases h : i = 0
  · subst h
    exact ⟨trivial, .fail, by simp [results]⟩
  · simp only [if_neg h]
    trivial

example : sampleTemplate.transform failingProg = some (.error (.staticSelector .unrestricted)) ∧
    FirstError (.staticSelector .unrestricted) (meaning failingProg (treeOf sampleTemplate.events)) := by
  have : sampleTemplate.transform failingProg = some (.error (.staticSelector .unrestricted)) := by
    rw [C37_transform_parsed _ _ _ _ sample_parsed failingProg_nested]
    rfl
  exact ⟨this, ((C51_first_error _ _ sample_page failingProg_nested).1 _).1 this⟩

/-- C39. With well nested template and contents and selectors that only match element starts, a
transform reports an assertion error only if one is written in the calls. -/
theorem C39_no_assertion {k : Kind} (t : Template) (p : Prog .gen k) (ht : Page t.events)
    (hp : WellNested p) (hs : StartSelectors p) (hr : ∀ x, ¬ Raises p (.assertion x)) :
    ∀ x, t.transform p ≠ some (.error (.assertion x)) :=
  fun x h => hr x (C51_error_source t p ht hp hs _ h)

/-- C39, the selectors of the crate only match element starts. -/
theorem C39_builtin_selectors (s : Selector) (h : ∀ f, s ≠ .custom f) : OnlyStarts s :=
  builtin_onlyStarts h

example : StartSelectors sampleProg ∧ ∀ x, ¬ Raises sampleProg (.assertion x) := by
  refine ⟨⟨trivial, C39_builtin_selectors _ (by simp), fun _ => ⟨trivial, trivial,
    C39_builtin_selectors _ (by simp), fun _ => ⟨trivial, fun _ => ⟨trivial, trivial⟩⟩⟩⟩, ?_⟩
  rintro x (h | ⟨i, h | h | ⟨j, h | ⟨l, h | (h | h)⟩⟩⟩)
  · exact h
  · exact h
  · exact h
  · exact h
  · exact h
  · exact h
  · simp [text, results] at h

/-- The condition on selectors is needed: a custom selector may match text. -/
example : sampleTemplate.transform (Prog.select .src (.ok (.custom fun e => e matches .data _))
    fun _ => .src) = some (.error (.expectedOpen (some (.data (.actual ['x']))))) := by
  rw [C37_transform_parsed _ _ _ _ sample_parsed (by exact ⟨trivial, fun _ => trivial⟩)]
  rfl

/-- C62. No call hides an error of the stream before it: if a chain of calls fails, then it also
fails with further calls. No condition on events, contents or builders. -/
theorem C62_errors_stay {a k : Kind} (p : Prog a .gen) (q : Prog .gen k) (es : List Event)
    (e : StreamError) (h : run p es = some (.error e)) :
    ∃ e', run (.apply p q) es = some (.error e') :=
  run_error p q es e h

/-- C62, for calls on an element, where the element is well nested. -/
theorem C62_element_errors_stay {a k k' : Kind} (p : Prog a k) (q : Prog k k') (hp : WellNested p)
    (hq : WellNested q) (es : List Event) (he : Page es) (hs : Fit a es) (e : StreamError)
    (h : run p es = some (.error e)) : ∃ e', run (.apply p q) es = some (.error e') := by
  rw [run_meaning (.apply p q) ⟨hp, hq⟩ he hs]
  rw [run_meaning p hp he hs] at h
  cases hr : (meaning (.apply p q) (treeOf es)).events with
  | error e' => exact ⟨e', rfl⟩
  | ok m =>
    have := sound_meaning q (sound_iff.2 ⟨m, hr⟩)
    obtain ⟨m', hm'⟩ := sound_iff.1 this
    rw [hm'] at h
    cases h

/-- Removing everything still reports the error. -/
example : ∃ e', run (.apply (.append .src (.resultErr (.staticSelector .unrestricted)) : Prog .gen .gen)
    (.remove .src)) [] = some (.error e') :=
  C62_errors_stay _ _ _ (.staticSelector .unrestricted) (by
    rw [run_append, run_src]
    rfl)

/-- The error comes in the middle of an element that is never closed, and the builder removes that
element. -/
example : ∃ e', run (.apply (.append .src (.resultErr (.staticSelector .unrestricted)) : Prog .gen .gen)
    (Prog.select .src (.ok (.tag li)) fun _ => .remove .src)) [.openingTag li []] =
      some (.error e') :=
  C62_errors_stay _ _ _ (.staticSelector .unrestricted) (by
    rw [run_append, run_src]
    rfl)

/-! ## Chains of calls -/

/-- C61. If the first calls of a chain succeed, the others see exactly their result: applying a
builder is running it on the events so far. No condition on events, contents or builders. -/
theorem C61_chain {a k k' : Kind} (p : Prog a k) (q : Prog k k') (es m : List Event)
    (h : run p es = some (.ok m)) : run (.apply p q) es = run q m :=
  run_chain p q es m h

/-- C61, for templates: transforming in two steps is the same as transforming once with both chains. -/
theorem C61_two_steps {k : Kind} (t u : Template) (p : Prog .gen .gen) (q : Prog .gen k)
    (h : t.transform p = some (.ok u)) : u.transform q = t.transform (.apply p q) := by
  rw [transform_run, Option.map_eq_some_iff] at h
  obtain ⟨r, hr, h⟩ := h
  cases r with
  | error e => cases h
  | ok m =>
    cases h
    rw [transform_run, transform_run, C61_chain p q _ _ hr]

/-- C61, C62. A transform with both chains succeeds exactly if both transforms in turn do, with the same
result. -/
theorem C62_success {k : Kind} (t v : Template) (p : Prog .gen .gen) (q : Prog .gen k) :
    t.transform (.apply p q) = some (.ok v) ↔
      ∃ u, t.transform p = some (.ok u) ∧ u.transform q = some (.ok v) := by
  constructor
  · intro h
    obtain ⟨o, -, hr⟩ := run_total p t.events
    cases ho : o.result with
    | ok m =>
      have hp : t.transform p = some (.ok ⟨m⟩) := by
        rw [transform_run, hr, ho]
        rfl
      exact ⟨_, hp, by rw [C61_two_steps t _ p q hp, h]⟩
    | error e =>
      obtain ⟨e', he⟩ := C62_errors_stay p q t.events e (by rw [hr, ho])
      rw [transform_run, he] at h
      cases h
  · rintro ⟨u, h1, h2⟩
    rw [← C61_two_steps t u p q h1, h2]

/-- C61. The events between the two parts of a chain are again well nested. -/
theorem C61_nested {a k : Kind} (p : Prog a k) (hp : WellNested p) (es m : List Event) (he : Page es)
    (hs : Fit a es) (h : run p es = some (.ok m)) : Page m ∧ Fit k m :=
  (run_apply p .src hp trivial he hs h).2

/-- C61, every call acts on the stream of the calls before it. -/
theorem C61_calls {a k : Kind} (p : Prog a k) (q : Prog a .elem) (es : List Event) :
    (∀ {k'} s d (b : Nat → Prog .elem k'),
      run (.selectRaw p s d b) es = run (.apply p (.selectRaw .src s d b)) es) ∧
    (∀ {k'} s d (b : Prog .elem k'),
      run (.selectOnceRaw p s d b) es = run (.apply p (.selectOnceRaw .src s d b)) es) ∧
    run (.remove p) es = run (.apply p (.remove .src)) es ∧
    (∀ c, run (.prepend p c) es = run (.apply p (.prepend .src c)) es) ∧
    (∀ c, run (.append p c) es = run (.apply p (.append .src c)) es) ∧
    (∀ {k'} n (b : Nat → Prog k k'), run (.repeat p n b) es = run (.apply p (.repeat .src n b)) es) ∧
    (∀ f, run (.applyTemplate p f) es = run (.apply p (.applyTemplate .src f)) es) ∧
    (∀ {k'} (b : Prog .gen k'), run (.contents q b) es = run (.apply q (.contents .src b)) es) ∧
    (∀ op, run (.attr q op) es = run (.apply q (.attr .src op)) es) :=
  ⟨fun _ _ _ => rfl, fun _ _ _ => rfl, rfl, fun _ => rfl, fun _ => rfl, fun _ _ => rfl,
    fun _ => rfl, fun _ => rfl, fun _ => rfl⟩

example : run (.apply (.attr .src (.setId li) : Prog .elem .elem)
    (.contents .src (.remove .src))) sampleElement =
    run (.contents .src (.remove .src) : Prog .elem .elem)
      [.openingTag li [⟨idIdentifier, some (.actual "li".toList)⟩], .data (.actual ['x']),
        .closingTag li] := by
  refine C61_chain _ _ _ _ ?_
  rw [run_meaning _ (by exact trivial) sampleElement_page (by exact sampleElement_element)]
  rfl

/-- An element that is never closed, and a builder that leaves the rest of the stream alone. -/
example : run (.apply (.prepend .src (text "v") : Prog .gen .gen) (.append .src (text "w")))
    [.openingTag li []] =
    some (.ok [.data (.static ['v']), .openingTag li [], .data (.static ['w'])]) := by
  rw [C61_chain _ _ _ [.data (.static ['v']), .openingTag li []] (by
    rw [run_prepend, run_src]
    rfl), run_append, run_src]
  rfl

/-- C52. The conditional calls run the builder the condition picks, with its value, on the stream so
far, and change nothing when no builder applies. -/
theorem C52_conditional {a k k' : Kind} {T E : Type} (p : Prog a k) (es m : List Event)
    (h : run p es = some (.ok m)) :
    (∀ (b : Prog k k), run (p.applyIf true b) es = run b m) ∧
    (∀ (b : Prog k k), run (p.applyIf false b) es = some (.ok m)) ∧
    (∀ (b f : Prog k k'), run (p.applyIfElse true b f) es = run b m) ∧
    (∀ (b f : Prog k k'), run (p.applyIfElse false b f) es = run f m) ∧
    (∀ (v : T) (b : T → Prog k k') (n : Prog k k'),
      run (p.applyWithOption (some v) b n) es = run (b v) m) ∧
    (∀ (b : T → Prog k k') (n : Prog k k'), run (p.applyWithOption none b n) es = run n m) ∧
    (∀ (v : T) (b : T → Prog k k') (f : E → Prog k k'),
      run (p.applyWithResult (.ok v) b f) es = run (b v) m) ∧
    (∀ (v : E) (b : T → Prog k k') (f : E → Prog k k'),
      run (p.applyWithResult (.error v) b f) es = run (f v) m) :=
  ⟨fun b => run_chain p b _ _ h, fun _ => h, fun b _ => run_chain p b _ _ h,
    fun _ f => run_chain p f _ _ h, fun v b _ => run_chain p (b v) _ _ h,
    fun _ n => run_chain p n _ _ h, fun v b _ => run_chain p (b v) _ _ h,
    fun v _ f => run_chain p (f v) _ _ h⟩

example : run (Prog.applyWithOption (.src : Prog .gen .gen) (some "v") (fun v => .prepend .src (text v))
      (.remove .src)) [.data (.actual ['x'])] =
    some (.ok [.data (.static ['v']), .data (.actual ['x'])]) := by
  rw [(C52_conditional (T := String) (E := String) .src _ _ (run_src _)).2.2.2.2.1]
  rw [run_prepend, run_src]
  rfl

end Fuser
