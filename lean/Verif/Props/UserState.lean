import Verif.Proof.Resolve
import Verif.Proof.Stateless
import Verif.Props.Insert

/-!
# Properties: user code that shares state
-/

namespace Fuser

open Spec

variable {σ : Type}

/-- C106. Whatever closures, iterators, functions and user-defined streams do with a state they have
in common, a transform that ends gives what some transform without such a state gives, and in that
transform every call of a closure, every iterator, function and stream is what it was in some state.
So every property of all transforms without common state holds with it too. -/
theorem C106_common_state {k : Kind} (t : Template) (p : UProg σ .gen k) (u u' : σ)
    (r : Except StreamError Template) (h : t.transformUser p u = some (r, u')) :
    ∃ q, Resolves p q ∧ t.transform q = some r :=
  transform_resolved h

/-- C106, user code that does not use the state: the same result, and the state is as before. -/
theorem C106_stateless {k : Kind} (t : Template) (p : Prog .gen k) (u : σ) :
    t.transformUser (stateless σ p) u = (t.transform p).map (·, u) := by
  rcases C40_transform_total t p with ⟨t', h⟩ | ⟨e, h⟩ <;>
    rw [transform_stateless t p u h, h, Option.map_some]

/-- C106, a closure that goes from state to state with every call is one that knows the number of
earlier calls. -/
theorem C106_closure_state {k k' : Kind} (t : Template) (p : Prog .gen k) (s : Selector)
    (direct : Bool) (b : σ → Prog .elem k') (g : σ → σ) (u : σ) :
    ∃ n, t.transformUser (.selectRaw (stateless σ p) s direct (fun _ v => stateless σ (b v)) g) u =
      (t.transform (.selectRaw p s direct fun i => b (g^[i] u))).map (·, g^[n] u) := by
  have hg : GoesOn g u 0 ((Prog.selectRaw p s direct fun i => b (g^[i] u)).build t.toStream)
      ((UProg.selectRaw (stateless σ p) s direct (fun _ v => stateless σ (b v)) g).build
        (.tmpl t.events 0)) := .selScan (.build p .tmpl)
  rcases C40_transform_total t (.selectRaw p s direct fun i => b (g^[i] u)) with ⟨t', h⟩ | ⟨e, h⟩
  all_goals
    obtain ⟨n, hn⟩ := transform_goesOn hg h
    exact ⟨n, by rw [hn, h, Option.map_some]⟩

/-- C106, an iterator that goes from state to state, and has an item in the first `n` of them, is
one with `n` items. -/
theorem C106_iterator_state {k k' : Kind} (t : Template) (p : Prog .gen k) (n : Nat)
    (more : σ → Bool) (b : σ → Prog k k') (g : σ → σ) (u : σ)
    (hmore : ∀ j ≤ n, more (g^[j] u) = decide (j < n)) :
    ∃ m, t.transformUser
        (.repeat (stateless σ p) (fun _ => more) (fun _ v => stateless σ (b v)) g) u =
      (t.transform (.repeat p n fun i => b (g^[i] u))).map (·, g^[m] u) := by
  have hg : GoesOn g u 0 ((Prog.repeat p n fun i => b (g^[i] u)).build t.toStream)
      ((UProg.repeat (stateless σ p) (fun _ => more) (fun _ v => stateless σ (b v)) g).build
        (.tmpl t.events 0)) := .repCollect (.build p .tmpl) hmore
  rcases C40_transform_total t (.repeat p n fun i => b (g^[i] u)) with ⟨t', h⟩ | ⟨e, h⟩
  all_goals
    obtain ⟨m, hn⟩ := transform_goesOn hg h
    exact ⟨m, by rw [hn, h, Option.map_some]⟩

/-- C106, a user-defined stream that goes from state to state, and then ends, is the list of its
answers. -/
theorem C106_stream_state {k : Kind} (t : Template) (p : Prog .gen k)
    (rs : List (Except StreamError (Option Event)))
    (pull : σ → Except StreamError (Option Event)) (g : σ → σ) (u : σ)
    (hrs : ∀ j ≤ rs.length, (rs[j]?).getD (.ok none) = pull (g^[j] u)) :
    (∃ m, t.transformUser (.prepend (stateless σ p) (.stream (fun _ => pull) g)) u =
      (t.transform (.prepend p (.script rs))).map (·, g^[m] u)) ∧
    ∃ m, t.transformUser (.append (stateless σ p) (.stream (fun _ => pull) g)) u =
      (t.transform (.append p (.script rs))).map (·, g^[m] u) := by
  have hs : GoesOn g u 0 (.script rs) (.stream 0 (fun _ => pull) g) :=
    .script fun j hj => by rw [hrs j hj, Nat.zero_add]
  constructor
  · have hg : GoesOn g u 0 ((Prog.prepend p (.script rs)).build t.toStream)
        ((UProg.prepend (stateless σ p) (.stream (fun _ => pull) g)).build (.tmpl t.events 0)) :=
      .prepended hs (.build p .tmpl)
    rcases C40_transform_total t (.prepend p (.script rs)) with ⟨t', h⟩ | ⟨e, h⟩
    all_goals
      obtain ⟨m, hn⟩ := transform_goesOn hg h
      exact ⟨m, by rw [hn, h, Option.map_some]⟩
  · have hg : GoesOn g u 0 ((Prog.append p (.script rs)).build t.toStream)
        ((UProg.append (stateless σ p) (.stream (fun _ => pull) g)).build (.tmpl t.events 0)) :=
      .appended (.build p .tmpl) hs
    rcases C40_transform_total t (.append p (.script rs)) with ⟨t', h⟩ | ⟨e, h⟩
    all_goals
      obtain ⟨m, hn⟩ := transform_goesOn hg h
      exact ⟨m, by rw [hn, h, Option.map_some]⟩

/-- C106, for the nesting: with content that is well nested in every state, pages stay pages. -/
theorem C106_nested {k : Kind} (t t' : Template) (p : UProg σ .gen k) (u u' : σ)
    (ht : Page t.events) (hp : ∀ q, Resolves p q → WellNested q)
    (h : t.transformUser p u = some (.ok t', u')) : Page t'.events ∧ .noop ∉ t'.events := by
  obtain ⟨q, hq, hr⟩ := C106_common_state t p u u' _ h
  exact ⟨C38_transform_nested t t' q ht (hp q hq) hr, C54_no_placeholder.2 t t' q hr⟩

/-- C106, for the errors: with selectors for element starts and user code that never makes an
assertion error, there is none. -/
theorem C106_no_assertion {k : Kind} (t : Template) (p : UProg σ .gen k) (u u' : σ)
    (ht : Page t.events) (hp : ∀ q, Resolves p q → WellNested q ∧ StartSelectors q ∧
      ∀ x, ¬ Raises q (.assertion x)) (x : _) :
    t.transformUser p u ≠ some (.error (.assertion x), u') := by
  intro h
  obtain ⟨q, hq, hr⟩ := C106_common_state t p u u' _ h
  obtain ⟨h₁, h₂, h₃⟩ := hp q hq
  exact C39_no_assertion t q ht h₁ h₂ h₃ x hr

/-- A queue of answers as a stream. -/
def answer : Nat → List (Option Event) → Except StreamError (Option Event)
  | _, some e :: _ => .ok (some e)
  | _, _ => .ok none

/-- A queue as an iterator. -/
def itemLeft : Nat → List (Option Event) → Bool
  | _, some _ :: _ => true
  | _, _ => false

/-- Calls with the next item of a queue. -/
def itemTag {a : Kind} : Nat → List (Option Event) → UProg (List (Option Event)) a .gen
  | _, some (.data d) :: _ => .append .src (.data d)
  | _, _ => .remove .src

/-- Runs the machine with user code on a given stream. -/
local macro "run_user" : tactic => `(tactic|
  repeat (first
    | rfl
    | dsimp only [bind, Option.bind_some, UProg.build, UContent.intoStream, passthroughUser,
        singleUntilStepUser, levelAdjust, Event.openingTagName, Event.closingTagName,
        Event.isOpeningTagFor, Event.isClosingTagFor, answer, List.tail, Selector.matches,
        restrictInclude, itemLeft, itemTag,
        List.getElem?_cons_zero, List.getElem?_nil, List.getElem?_cons_succ]
    | simp only [↓reduceIte, Bool.not_true, Bool.false_or, beq_self_eq_true, Bool.and_self,
        Bool.false_eq_true]
    | rw [nextUser.eq_def] | rw [nextSkipNoopUser.eq_def] | rw [collectUser.eq_def]
    | rw [drainUser.eq_def]))

/-- A queue used in two places as a stream: the two uses go on from one another. -/
example : (Template.mk []).transformUser (.append (.prepend .src (.stream answer List.tail))
      (.stream answer List.tail))
    [some (.data (.static ['a'])), none, some (.data (.static ['b'])), none, none] =
    some (.ok ⟨[.data (.static ['a']), .data (.static ['b'])]⟩, [none]) := by
  rw [Template.transformUser]
  run_user

/-- A queue used as the iterator of a repetition, and its rest as a stream behind that. -/
example : (Template.mk [.comment (.static ['c'])]).transformUser
      (.append (.repeat .src itemLeft itemTag List.tail) (.stream answer List.tail))
    [some (.data (.static ['a'])), some (.data (.static ['b'])), none,
      some (.data (.static ['d'])), none] =
    some (.ok ⟨[.comment (.static ['c']), .data (.static ['a']), .comment (.static ['c']),
      .data (.static ['b']), .data (.static ['d'])]⟩, []) := by
  rw [Template.transformUser]
  run_user

/-- A queue used by the closure of a selection. -/
example : (Template.mk [.voidTag ⟨.static ['b', 'r']⟩ [],
      .voidTag ⟨.static ['b', 'r']⟩ []]).transformUser
      (.selectRaw .src (.custom fun _ => true) true itemTag List.tail)
    [some (.data (.static ['a'])), none] =
    some (.ok ⟨[.voidTag ⟨.static ['b', 'r']⟩ [], .data (.static ['a'])]⟩, []) := by
  rw [Template.transformUser]
  run_user

/-- The calls of that selection are well nested in every state. -/
example (q : Prog .gen .gen)
    (h : Resolves (.selectRaw .src (.custom fun _ => true) true itemTag List.tail) q) :
    WellNested q := by
  cases h with
  | @selectRaw _ _ _ _ _ _ _ _ _ c at_ hp hb =>
    cases hp
    refine ⟨trivial, fun i => ?_⟩
    have h := hb i
    generalize at_ i = u at h
    generalize c i = q at h
    rcases u with _ | ⟨_ | ⟨_ | _ | _ | _ | _ | _ | _ | _ | _⟩, _⟩ <;> cases h <;>
      rename_i h <;> cases h <;> first
        | exact trivial
        | (rename_i h; cases h; exact ⟨trivial, data_page _⟩)

end Fuser
