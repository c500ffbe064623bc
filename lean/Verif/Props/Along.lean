import Verif.Proof.Along
import Verif.Props.UserState

/-!
# Properties: the library does not look at the state of user code
-/

namespace Fuser

open Spec

variable {σ τ : Type}

/-- C107. If in states that correspond the user code of two transforms gives the same and goes to
states that correspond, then the transforms give the same, or both never end, and the states
correspond afterwards. The library sees the state only through what the user code gives. -/
theorem C107_along {k : Kind} (R : σ → τ → Prop) (t : Template) (p : UProg σ .gen k)
    (q : UProg τ .gen k) (hp : Along R p q) (u : σ) (v : τ) (hR : R u v) :
    Option.Rel (fun x y => x.1 = y.1 ∧ R x.2 y.2) (t.transformUser p u) (t.transformUser q v) := by
  rcases h : t.transformUser p u with _ | ⟨r, u'⟩
  · rcases h' : t.transformUser q v with _ | ⟨r, v'⟩
    · exact .none
    · obtain ⟨u', hu, -⟩ := transform_along (along_flip hp) t hR h'
      rw [h] at hu
      cases hu
  · obtain ⟨v', hv, hR'⟩ := transform_along hp t hR h
    rw [hv]
    exact .some ⟨rfl, hR'⟩

/-- C107, a view of the state: if the user code uses and changes the state only through a view of
it, the transform can be run on the view. -/
theorem C107_view {k : Kind} (f : σ → τ) (t : Template) (p : UProg σ .gen k) (q : UProg τ .gen k)
    (hp : Along (fun u v => f u = v) p q) (u : σ) :
    t.transformUser q (f u) = (t.transformUser p u).map fun x => (x.1, f x.2) := by
  have h := C107_along _ t p q hp u (f u) rfl
  rcases h₁ : t.transformUser p u with _ | ⟨r, u'⟩ <;>
    rcases h₂ : t.transformUser q (f u) with _ | ⟨r', v'⟩ <;> rw [h₁, h₂] at h <;> cases h
  · rfl
  · rename_i h
    obtain ⟨rfl, rfl⟩ := h
    rfl

/-- C107, invariants: a property of the state that all user code keeps holds after the transform if
it holds before, and what the transform gives is what a transform without common state gives in
which all user code is what it was in some state with the property. -/
theorem C107_invariant {k : Kind} (P : σ → Prop) (t : Template) (p : UProg σ .gen k)
    (hp : KeepsState P p) (u u' : σ) (hu : P u) (r : Except StreamError Template)
    (h : t.transformUser p u = some (r, u')) :
    P u' ∧ ∃ q, Resolves (within P p hp) q ∧ t.transform q = some r := by
  obtain ⟨⟨_, hu'⟩, hv, rfl⟩ := transform_along (v := ⟨u, hu⟩) (within_along P p hp) t rfl h
  exact ⟨hu', C106_common_state t _ _ _ _ hv⟩

/-- C107, for the nesting: the content only has to be well nested in the states with the
property. -/
theorem C107_nested {k : Kind} (P : σ → Prop) (t t' : Template) (p : UProg σ .gen k)
    (hk : KeepsState P p) (u u' : σ) (hu : P u) (ht : Page t.events)
    (hp : ∀ q, Resolves (within P p hk) q → WellNested q)
    (h : t.transformUser p u = some (.ok t', u')) :
    P u' ∧ Page t'.events ∧ .noop ∉ t'.events := by
  obtain ⟨hu', q, hq, hr⟩ := C107_invariant P t p hk u u' hu _ h
  exact ⟨hu', C38_transform_nested t t' q ht (hp q hq) hr, C54_no_placeholder.2 t t' q hr⟩

/-- C107, for the errors: the user code only has to make no assertion error in the states with the
property. -/
theorem C107_no_assertion {k : Kind} (P : σ → Prop) (t : Template) (p : UProg σ .gen k)
    (hk : KeepsState P p) (u u' : σ) (hu : P u) (ht : Page t.events)
    (hp : ∀ q, Resolves (within P p hk) q → WellNested q ∧ StartSelectors q ∧
      ∀ x, ¬ Raises q (.assertion x)) (x : _) :
    t.transformUser p u ≠ some (.error (.assertion x), u') := by
  intro h
  obtain ⟨-, q, hq, hr⟩ := C107_invariant P t p hk u u' hu _ h
  obtain ⟨h₁, h₂, h₃⟩ := hp q hq
  exact C39_no_assertion t q ht h₁ h₂ h₃ x hr

/-- Calls that remove every second element: the closure keeps a log of its calls. -/
def everySecondLog : UProg (List Event) .gen .gen :=
  .selectRaw .src (.custom fun _ => true) true
    (fun _ log => if log.length % 2 = 0 then .remove .src else .forget .src) (.noop :: ·)

/-- The same calls: the closure has a flag. -/
def everySecondFlag : UProg Bool .gen .gen :=
  .selectRaw .src (.custom fun _ => true) true
    (fun _ odd => if odd then .forget .src else .remove .src) (!·)

/-- The log is used through its parity only. -/
theorem everySecond_along :
    Along (fun log odd => (log.length % 2 == 1) = odd) everySecondLog everySecondFlag := by
  refine .selectRaw .src (fun _ log odd h => ?_) fun log odd h => ?_
  · subst h
    rcases Nat.mod_two_eq_zero_or_one log.length with h | h <;> rw [h]
    · exact .remove .src
    · exact .forget .src
  · subst h
    rw [List.length_cons]
    rcases Nat.mod_two_eq_zero_or_one log.length with h | h <;>
      simp [h, Nat.add_mod]

/-- So they give the same on every template. -/
example (t : Template) (log : List Event) :
    t.transformUser everySecondFlag (log.length % 2 == 1) =
      (t.transformUser everySecondLog log).map fun x => (x.1, x.2.length % 2 == 1) :=
  C107_view _ t _ _ everySecond_along log

/-- Only text in a queue. -/
def OnlyText (q : List (Option Event)) : Prop := ∀ e, some e ∈ q → ∃ d, e = .data d

/-- A queue used as a stream keeps the property that there is only text in it. -/
theorem queue_keeps : KeepsState OnlyText
    (.append (.prepend .src (.stream answer List.tail)) (.stream answer List.tail) :
      UProg (List (Option Event)) .gen .gen) :=
  ⟨⟨trivial, fun _ h e he => h e (List.mem_of_mem_tail he)⟩,
    fun _ h e he => h e (List.mem_of_mem_tail he)⟩

theorem textAnswers_page {rs : List (Except StreamError (Option Event))}
    (h : ∀ r ∈ rs, r = .ok none ∨ ∃ d, r = .ok (some (.data d))) : PageContent (.script rs) := by
  induction rs with
  | nil => exact ⟨.done, fun e t he => by cases he⟩
  | cons r rs ih =>
    obtain ⟨h₁, h₂⟩ := ih fun r hr => h r (List.mem_cons_of_mem _ hr)
    rcases h r List.mem_cons_self with rfl | ⟨d, rfl⟩
    · exact ⟨.done, fun e t he => by cases he⟩
    · refine ⟨.leaf trivial h₁, fun e t he ht => ?_⟩
      rcases List.mem_cons.mp he with he | he
      · cases he
        cases ht
      · exact h₂ e t he ht

/-- The stream of a queue with only text is well nested. -/
theorem queue_nested (q : Prog .gen .gen) (h : Resolves (within OnlyText _ queue_keeps) q) :
    WellNested q := by
  have page {rs : List (Except StreamError (Option Event))}
      (h : ∀ (i : Nat) r, rs[i]? = some r →
        ∃ u : {u // OnlyText u}, answer i u.1 = r) : PageContent (.script rs) := by
    refine textAnswers_page fun r hr => ?_
    obtain ⟨i, hi⟩ := List.mem_iff_getElem?.mp hr
    obtain ⟨⟨u, hu⟩, rfl⟩ := h i r hi
    rcases u with _ | ⟨_ | e, u⟩
    · exact .inl rfl
    · exact .inl rfl
    · obtain ⟨d, rfl⟩ := hu e List.mem_cons_self
      exact .inr ⟨d, rfl⟩
  cases h with
  | append h hc =>
    cases h with
    | prepend h hd => cases h; cases hc; cases hd; exact ⟨⟨trivial, page ‹_›⟩, page ‹_›⟩

/-- So such a queue keeps pages, and there is only text in it afterwards. -/
example (t t' : Template) (ht : Page t.events) (u u' : List (Option Event)) (hu : OnlyText u)
    (h : t.transformUser (.append (.prepend .src (.stream answer List.tail))
      (.stream answer List.tail)) u = some (.ok t', u')) :
    OnlyText u' ∧ Page t'.events ∧ .noop ∉ t'.events :=
  C107_nested OnlyText t t' _ queue_keeps u u' hu ht queue_nested h

/-- The queue that was used above has only text in it. -/
example : OnlyText [some (.data (.static ['a'])), none, some (.data (.static ['b'])), none, none] :=
  fun e he => by
    simp only [List.mem_cons, Option.some.injEq, reduceCtorEq, List.not_mem_nil, or_false,
      false_or] at he
    rcases he with rfl | rfl <;> exact ⟨_, rfl⟩

end Fuser
