import Verif.Proof.HaltUser
import Verif.Proof.Endless
import Verif.Props.Along

/-!
# Properties: transforms with user code that ends do end
-/

namespace Fuser

open Spec

variable {σ : Type}

/-- C108. If states can only go on along a reflexive and transitive relation, and in every course of
states along it every iterator has no item and every user-defined stream no event at some time, then
the transform ends, whatever else the user code does, and the state afterwards is one that can
follow. -/
theorem C108_ends {k : Kind} (G : σ → σ → Prop) (hr : ∀ u, G u u)
    (ht : ∀ u v w, G u v → G v w → G u w) (t : Template) (p : UProg σ .gen k) (hp : Settled G p)
    (u : σ) : ∃ r u', t.transformUser p u = some (r, u') ∧ G u u' :=
  transformUser_ends G hr ht t p hp u

/-- C108, with a property of states that all user code keeps: iterators and streams only have to end
in courses of states with this property. -/
theorem C108_within {k : Kind} (P : σ → Prop) (G : {u // P u} → {u // P u} → Prop)
    (hr : ∀ u, G u u) (ht : ∀ u v w, G u v → G v w → G u w) (t : Template) (p : UProg σ .gen k)
    (hk : KeepsState P p) (hp : Settled G (within P p hk)) (u : σ) (hu : P u) :
    ∃ r u', t.transformUser p u = some (r, u') ∧ P u' := by
  obtain ⟨r, v, h, -⟩ := C108_ends G hr ht t _ hp ⟨u, hu⟩
  obtain ⟨u', h', hv⟩ := transform_along (u := (⟨u, hu⟩ : {u // P u})) (v := u)
    (along_flip (within_along P p hk)) t rfl h
  exact ⟨r, u', h', hv ▸ v.2⟩

/-- C108, for the nesting: user code that ends and whose content is well nested turns every page into
a page, or fails. -/
theorem C108_page {k : Kind} (G : σ → σ → Prop) (hr : ∀ u, G u u)
    (ht : ∀ u v w, G u v → G v w → G u w) (t : Template) (hpage : Page t.events)
    (p : UProg σ .gen k) (hp : Settled G p) (hw : ∀ q, Resolves p q → WellNested q) (u : σ) :
    (∃ t' u', t.transformUser p u = some (.ok t', u') ∧ Page t'.events) ∨
      ∃ e u', t.transformUser p u = some (.error e, u') := by
  obtain ⟨r, u', h, -⟩ := C108_ends G hr ht t p hp u
  cases r with
  | error e => exact .inr ⟨e, u', h⟩
  | ok t' => exact .inl ⟨t', u', h, (C106_nested t t' p u u' hpage hw h).1⟩

/-- C108, without such a course: a repetition whose iterator always has an item, and content from a
stream that never reports its end, never give a template. -/
theorem C108_endless {k : Kind} (t t' : Template) (p : UProg σ .gen k) (u u' : σ) :
    (∀ (k' : Kind) (more : Nat → σ → Bool) (b : Nat → σ → UProg σ k k') (g : σ → σ),
      (∀ i v, more i v = true) →
      t.transformUser (.repeat p more b g) u ≠ some (.ok t', u')) ∧
    ∀ (pull : Nat → σ → Except StreamError (Option Event)) (g : σ → σ),
      (∀ i v, pull i v ≠ .ok none) →
      t.transformUser (.prepend p (.stream pull g)) u ≠ some (.ok t', u') ∧
      t.transformUser (.append p (.stream pull g)) u ≠ some (.ok t', u') :=
  ⟨fun _ _ _ _ h => transformUser_endless (.repCollect h), fun _ _ h =>
    ⟨transformUser_endless (.first (.stream h)), transformUser_endless (.second (.stream h))⟩⟩

/-- A queue that is only ever shortened: used as the iterator of a repetition, by its closure, and
its rest as a stream behind that. -/
theorem queue_settled : Settled (fun u v : List (Option Event) => v.length ≤ u.length)
    (.append (.repeat .src itemLeft itemTag List.tail) (.stream answer List.tail) :
      UProg (List (Option Event)) .gen .gen) := by
  have tail_le : ∀ u : List (Option Event), u.tail.length ≤ u.length := fun u => by
    rw [List.length_tail]; omega
  have down : ∀ gives : Nat → List (Option Event) → Prop, (∀ i, ¬ gives i []) →
      Settles (fun u v : List (Option Event) => v.length ≤ u.length) gives List.tail := by
    intro gives hn s hs
    have hlen : ∀ i, (s i).length + i ≤ (s 0).length ∨ s i = [] := by
      intro i
      induction i with
      | zero => exact .inl (Nat.le_refl _)
      | succ i ih =>
        have : (s (i + 1)).length ≤ (s i).tail.length := hs i
        rw [List.length_tail] at this
        by_cases h0 : (s (i + 1)).length = 0
        · exact .inr (List.length_eq_zero_iff.mp h0)
        · rcases ih with ih | ih
          · exact .inl (by omega)
          · rw [ih, List.length_nil] at this
            omega
    refine ⟨(s 0).length + 1, ?_⟩
    rcases hlen ((s 0).length + 1) with h | h
    · omega
    · rw [h]
      exact hn _
  refine ⟨⟨trivial, tail_le, fun i u => ?_, down _ fun i h => by cases h⟩, tail_le,
    down _ fun i h => by obtain ⟨e, h⟩ := h; cases h⟩
  rcases u with _ | ⟨_ | ⟨_ | _ | _ | _ | _ | _ | _ | _ | _⟩, _⟩ <;> first
    | exact trivial
    | exact ⟨trivial, trivial⟩

/-- So that transform ends on every template and with every queue. -/
example (t : Template) (u : List (Option Event)) : ∃ r u',
    t.transformUser (.append (.repeat .src itemLeft itemTag List.tail) (.stream answer List.tail))
      u = some (r, u') ∧ u'.length ≤ u.length :=
  C108_ends (fun u v : List (Option Event) => v.length ≤ u.length) (fun _ => Nat.le_refl _)
    (fun _ _ _ h h' => Nat.le_trans h' h) t _ queue_settled u

/-- A closure that removes every second element ends on every template. -/
example (t : Template) (odd : Bool) :
    ∃ r odd', t.transformUser everySecondFlag odd = some (r, odd') ∧ True :=
  C108_ends (fun _ _ => True) (fun _ => trivial) (fun _ _ _ _ _ => trivial) t everySecondFlag
    ⟨trivial, fun _ => trivial, fun _ odd => by cases odd <;> exact trivial⟩ odd

/-- A repetition for ever of what removes everything. -/
example (t t' : Template) (u u' : Nat) :
    t.transformUser (.repeat .src (fun _ _ => true) (fun _ _ => .remove .src) (· + 1)) u ≠
      some (.ok t', u') :=
  (C108_endless t t' .src u u').1 _ _ _ _ fun _ _ => rfl

end Fuser
