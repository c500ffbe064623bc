import Verif.Proof.Asked
import Verif.Props.Transform

/-!
# Properties: how often user code runs
-/

namespace Fuser

open Spec

variable {σ : Type}

/-- C109. The builder of a selection is called once for every outermost match, in document order,
and not any more after an error. The state is the one after the last call. -/
theorem C109_closure {a k k' : Kind} (p : Prog a k) (s : Selector) (direct : Bool)
    (b : σ → Prog .elem k') (g : σ → σ) (es : List Event) (u : σ) (he : Page es) (hs : Fit a es)
    (hp : WellNested p) (hb : ∀ v, WellNested (b v)) :
    runUser (.selectRaw (stateless σ p) s direct (fun _ v => stateless σ (b v)) g) es u =
      (run (.selectRaw p s direct fun i => b (g^[i] u)) es).map
        (·, g^[(selectCalls s direct (fun i => meaning (b (g^[i] u))) 0 0
          (meaning p (treeOf es))).1] u) :=
  user_select p s direct b g es u he hs hp hb

/-- C109, for selections without errors: the number of calls is the number of outermost matches. -/
theorem C109_all_matches {k : Kind} (s : Selector) (direct : Bool) (b : Nat → Prog .elem k)
    (f : Forest) :
    ((selectCalls s direct (fun i => meaning (b i)) 0 0 f).2 = true ↔
      ∃ es, (selectTree s direct (fun i => meaning (b i)) 0 0 f).1.events = .ok es) ∧
    ((selectCalls s direct (fun i => meaning (b i)) 0 0 f).2 = true →
      (selectCalls s direct (fun i => meaning (b i)) 0 0 f).1 =
        (selectTree s direct (fun i => meaning (b i)) 0 0 f).2) := by
  have := calls_all (s := s) (direct := direct) (b := fun i => meaning (b i))
    (fun i f h => sound_meaning (b i) h) f (level := 0) (count := 0)
  exact ⟨this.1.trans sound_iff, this.2⟩

/-- C109, selections of the first match: the builder is called if there is a match before any
error. -/
theorem C109_once {a k k' : Kind} (p : Prog a k) (s : Selector) (direct : Bool)
    (b : σ → Prog .elem k') (g : σ → σ) (es : List Event) (u : σ) (he : Page es) (hs : Fit a es)
    (hp : WellNested p) :
    runUser (.selectOnceRaw (stateless σ p) s direct (fun v => stateless σ (b v)) g) es u =
      (run (.selectOnceRaw p s direct (b u)) es).map
        (·, if onceCalled s direct 0 (meaning p (treeOf es)) = some true then g u else u) :=
  user_selectOnce p s direct b g es u he hs hp

/-- C109, contents: the builder is called if the element is not void. -/
theorem C109_contents {a k : Kind} (p : Prog a .elem) (b : σ → Prog .gen k) (g : σ → σ)
    (es : List Event) (u : σ) (he : Page es) (hs : Fit a es) (hp : WellNested p) :
    runUser (.contents (stateless σ p) (fun v => stateless σ (b v)) g) es u =
      (run (.contents p (b u)) es).map
        (·, if hasContents (meaning p (treeOf es)) then g u else u) :=
  user_contents p b g es u he hs hp

/-- C109, iterators of repetitions: asked once for every item, up to the first for which the builder
fails, and then once more; not asked at all if the repeated stream fails. -/
theorem C109_iterator {a k k' : Kind} (p : Prog a k) (n : Nat) (more : σ → Bool) (b : σ → Prog k k')
    (g : σ → σ) (es : List Event) (u : σ)
    (hmore : ∀ j ≤ n, more (g^[j] u) = decide (j < n)) :
    runUser (.repeat (stateless σ p) (fun _ => more) (fun _ v => stateless σ (b v)) g) es u =
      (run (.repeat p n fun i => b (g^[i] u)) es).map
        (·, match run p es with
          | some (.ok es') => g^[asks n fun i => goesWell (run (b (g^[i] u)) es')] u
          | _ => u) :=
  user_repeat p n more b g es u hmore

/-- C109, repetitions with a fallback: the iterator is asked once for its first item, and one of the
two builders is called. -/
theorem C109_fallback {a k k₁ k₂ : Kind} (p : Prog a k) (more : σ → Bool) (r : σ → Prog k k₁)
    (f : σ → Prog k k₂) (g : σ → σ) (es : List Event) (u : σ) :
    runUser (.orElse (stateless σ p) more (fun v => stateless σ (r v))
        (fun v => stateless σ (f v)) g) es u =
      (run (.orElse p (if more u then 1 else 0) (r u) (f u)) es).map (·, g u) :=
  user_orElse p more r f g es u

/-- C109, functions on templates: called once with the finished template, and not if the stream
fails. -/
theorem C109_function {a k : Kind} (p : Prog a k) (f : σ → Template → Except StreamError Template)
    (g : σ → Template → σ) (es : List Event) (u : σ) :
    runUser (.applyTemplate (stateless σ p) f g) es u =
      (run (.applyTemplate p (f u)) es).map
        (·, match run p es with | some (.ok es') => g u ⟨es'⟩ | _ => u) :=
  user_applyTemplate p f g es u

/-- C109, user-defined streams: asked up to the first answer that is no event. An appended stream is
not asked if the stream before it fails. -/
theorem C109_stream {a k : Kind} (p : Prog a k) (rs : List (Except StreamError (Option Event)))
    (pull : σ → Except StreamError (Option Event)) (g : σ → σ) (es : List Event) (u : σ)
    (h : ∀ j ≤ rs.length, (rs[j]?).getD (.ok none) = pull (g^[j] u)) :
    runUser (.prepend (stateless σ p) (.stream (fun _ => pull) g)) es u =
      (run (.prepend p (.script rs)) es).map (·, g^[answers rs] u) ∧
    runUser (.append (stateless σ p) (.stream (fun _ => pull) g)) es u =
      (run (.append p (.script rs)) es).map
        (·, if goesWell (run p es) then g^[answers rs] u else u) := by
  have h : Answers pull g u 0 rs := fun j hj => by rw [h j hj, Nat.zero_add]
  exact ⟨user_prepend p rs pull g es u h, user_append p rs pull g es u h⟩

/-- C109, for transforms. -/
theorem C109_transform {k : Kind} (t : Template) (p : UProg σ .gen k) (u : σ) :
    t.transformUser p u = (runUser p t.events u).map fun x => (x.1.map Template.mk, x.2) :=
  transformUser_run p t u

/-! ## Examples -/

/-- Three list entries, the second inside a `ul`. -/
def threeEntries : List Event :=
  [.openingTag li [], .closingTag li, .openingTag ul [], .openingTag li [],
    .voidTag (owned "br".toList) [], .closingTag li, .closingTag ul, .selfClosedTag li []]

theorem threeEntries_page : Page threeEntries :=
  parsed_page (s := "<li></li><ul><li><br></li></ul><li/>".toList) (o := {})
    (t := ⟨threeEntries⟩) rfl

/-- A builder that fails at its second call. -/
def secondFails (i : Nat) : Prog .elem .gen :=
  if i = 1 then .fallErr (.staticSelector .unrestricted) else .remove .src

theorem secondFails_nested (i : Nat) : WellNested (secondFails i) := by
  unfold secondFails
  split <;> trivial

/-- Three calls. -/
example : ∃ r, runUser (.selectRaw (stateless Nat (.src : Prog .gen .gen)) (.tag li) false
    (fun _ _ => stateless Nat (.remove .src)) (· + 1)) threeEntries 0 = some (r, 3) := by
  obtain ⟨r, h⟩ := C40_builder_total
    (.selectRaw (.src : Prog .gen .gen) (.tag li) false fun _ => .remove .src) threeEntries
  have := C109_closure (σ := Nat) (.src : Prog .gen .gen) (.tag li) false (fun _ => .remove .src)
    (· + 1) threeEntries 0 threeEntries_page trivial trivial (fun _ => trivial)
  rw [h, Option.map_some] at this
  exact ⟨r, this.trans (congrArg (fun n => some (r, n)) (show _ = 3 by decide +kernel))⟩

/-- Two calls, because the second one fails. -/
example : ∃ r, runUser (.selectRaw (stateless Nat (.src : Prog .gen .gen)) (.tag li) false
    (fun _ v => stateless Nat (secondFails v)) (· + 1)) threeEntries 0 = some (r, 2) := by
  obtain ⟨r, h⟩ := C40_builder_total
    (.selectRaw (.src : Prog .gen .gen) (.tag li) false fun i => secondFails ((· + 1)^[i] 0))
    threeEntries
  have := C109_closure (.src : Prog .gen .gen) (.tag li) false secondFails
    (· + 1) threeEntries 0 threeEntries_page trivial trivial secondFails_nested
  rw [h, Option.map_some] at this
  exact ⟨r, this.trans (congrArg (fun n => some (r, n)) (show _ = 2 by decide +kernel))⟩

/-- With `select_direct` only the two at the top; with `select_once` one. -/
example : (selectCalls (.tag li) true (fun i => meaning (Prog.remove (.src : Prog .elem .elem))) 0 0
      (treeOf threeEntries)) = (2, true) ∧
    onceCalled (.tag li) false 0 (treeOf threeEntries) = some true ∧
    onceCalled (.tag (owned "dd".toList)) false 0 (treeOf threeEntries) = some false ∧
    onceCalled (.tag li) false 0 (meaning (Prog.selectRaw (.src : Prog .gen .gen) (.tag li) false
      secondFails) (treeOf threeEntries)) = none := by
  decide +kernel

/-- The contents of an element that has some and of one that is void. -/
example : hasContents (treeOf [.openingTag li [], .closingTag li]) = true ∧
    hasContents (treeOf [.selfClosedTag li []]) = true ∧
    hasContents (treeOf [.voidTag li []]) = false := by
  decide +kernel

/-- An iterator over the numbers from the state up to 3: four questions; with a builder that fails at
the second item two. -/
example : (∀ j ≤ 3, (fun v : Nat => decide (v < 3)) ((· + 1)^[j] 0) = decide (j < 3)) ∧
    asks 3 (fun _ => true) = 4 ∧ asks 3 (fun i => i != 1) = 2 := by
  decide +kernel

/-- A stream with two events and then an end or an error: three questions. -/
example (e e' : Event) (x : StreamError) : answers [.ok (some e), .ok (some e')] = 3 ∧
    answers [.ok (some e), .ok (some e'), .ok none, .ok (some e)] = 3 ∧
    answers [.ok (some e), .ok (some e'), .error x, .ok (some e)] = 3 := ⟨rfl, rfl, rfl⟩

/-- A queue as such a stream, and the state after it. -/
example (e : Event) : runUser (.append (stateless (List Event) (.src : Prog .gen .gen))
      (.stream (fun _ q => .ok q.head?) List.tail)) threeEntries [e] =
    (run (.append (.src : Prog .gen .gen) (.script [.ok (some e)])) threeEntries).map (·, []) := by
  have h := (C109_stream (.src : Prog .gen .gen) [.ok (some e)] (fun q : List Event => .ok q.head?)
    List.tail threeEntries [e] (by
      intro j hj
      match j, hj with
      | 0, _ => rfl
      | 1, _ => rfl)).2
  have hr : run (.src : Prog .gen .gen) threeEntries = some (.ok threeEntries) := by
    rw [C37_builder_meaning (.src : Prog .gen .gen) _ threeEntries_page trivial trivial]
    exact congrArg some (C37_transform_meaning ⟨threeEntries⟩ (.src : Prog .gen .gen)
      threeEntries_page trivial).2
  rw [h, hr]
  rfl

end Fuser
