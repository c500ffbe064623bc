import Verif.Spec.Convert
import Verif.Proof.Convert
import Verif.Props.Messages
import Verif.Props.Select
import Verif.Props.Transform

/-!
# Property C111: nothing is lost when errors become errors of transforms
-/

namespace Fuser

open Spec

/-- C111. If an error is converted into an error of a transform, the causes of the latter lead, in one or
two steps, to an error with the message of the former and with the same cause. -/
theorem C111_message_kept (path : Str) (e : AnyError) (s : StreamError) (h : e.toStream = some s)
    (ht : errorType e ≠ .stream) :
    ∃ n c, 1 ≤ n ∧ n ≤ 2 ∧ followed n (.stream s) = some c ∧ messageOf path c = messageOf path e ∧
      (messageOf path e).isSome ∧ c.cause = e.cause := by
  cases e with
  | identifier e => cases h; exact ⟨1, _, by decide, by decide, rfl, rfl, rfl, rfl⟩
  | input e => cases h; exact ⟨1, _, by decide, by decide, rfl, rfl, rfl, rfl⟩
  | file e => cases h; exact ⟨1, _, by decide, by decide, rfl, rfl, rfl, rfl⟩
  | id e => cases e; cases h; exact ⟨1, _, by decide, by decide, rfl, rfl, rfl, rfl⟩
  | tag e => cases e; cases h; exact ⟨1, _, by decide, by decide, rfl, rfl, rfl, rfl⟩
  | «class» e => cases e; cases h; exact ⟨1, _, by decide, by decide, rfl, rfl, rfl, rfl⟩
  | classes e => cases h; exact ⟨2, _, by decide, by decide, rfl, rfl, rfl, rfl⟩
  | static e => cases h; exact ⟨1, _, by decide, by decide, rfl, rfl, rfl, rfl⟩
  | stream e => exact absurd rfl ht
  | parse e => cases h
  | selector e => cases h
  | malformed e => cases h
  | assertion e => cases h
  | std => cases h

example : ∃ s, (AnyError.class (.identifier (.forbidden '&'))).toStream = some s ∧
    s.render = "Invalid element selector".toList ∧
    (followed 1 (.stream s)).bind (messageOf []) = some "Invalid identifier for class selector".toList ∧
    followed 2 (.stream s) = some (.identifier (.forbidden '&')) :=
  ⟨_, rfl, rfl, rfl, rfl⟩

/-- C111, different errors stay different. -/
theorem C111_told_apart (e e' : AnyError) (s : StreamError) (h : e.toStream = some s)
    (h' : e'.toStream = some s) (ht : errorType e ≠ .stream) (ht' : errorType e' ≠ .stream) :
    e = e' := by
  rw [converted_from h ht, converted_from h' ht']

example : (AnyError.id (.identifier .empty)).toStream ≠ (AnyError.tag (.identifier .empty)).toStream := by
  decide

/-- C111, invalid names in selectors: a transform that selects by a tag, an id or a class that is no
identifier reports an error whose cause tells which of the three was used, and the cause of which tells
what is wrong with the name. -/
theorem C111_invalid_name {a k k' : Kind} (p : Prog a k) (q : Prog a .elem) (b : Nat → Prog .elem k')
    (es : List Event) (v : Str) (i : IdentifierError) (h : IdentError v i) :
    (∀ call ∈ selectionCalls p b,
      Blames .tag i (run (call ((Selector.tagFromStr v).mapError TagError.toStream)) es) ∧
      Blames .id i (run (call ((Selector.idFromStr v).mapError IdError.toStream)) es) ∧
      Blames .class i (run (call ((Selector.classFromStr v).mapError ClassError.toStream)) es)) ∧
    (∀ call ∈ subselectionCalls q b,
      Blames .tag i (run (call ((Selector.tagFromStr v).mapError TagError.toStream)) es) ∧
      Blames .id i (run (call ((Selector.idFromStr v).mapError IdError.toStream)) es) ∧
      Blames .class i (run (call ((Selector.classFromStr v).mapError ClassError.toStream)) es)) := by
  obtain ⟨h1, h2, h3⟩ := (C57_single_selectors v).2 i h
  rw [h1, h2, h3]
  constructor
  · intro call hc
    simp only [selectionCalls, List.mem_cons, List.not_mem_nil, or_false] at hc
    rcases hc with rfl | rfl | rfl | rfl <;>
      exact ⟨⟨_, _, run_fallErr _ _, rfl, rfl, rfl, rfl⟩, ⟨_, _, run_fallErr _ _, rfl, rfl, rfl, rfl⟩,
        ⟨_, _, run_fallErr _ _, rfl, rfl, rfl, rfl⟩⟩
  · intro call hc
    simp only [subselectionCalls, List.mem_cons, List.not_mem_nil, or_false] at hc
    rcases hc with rfl | rfl | rfl | rfl <;>
      exact ⟨⟨_, _, run_fallErr _ _, rfl, rfl, rfl, rfl⟩, ⟨_, _, run_fallErr _ _, rfl, rfl, rfl, rfl⟩,
        ⟨_, _, run_fallErr _ _, rfl, rfl, rfl, rfl⟩⟩

example : Blames .id (.whitespace ' ')
    (run (Prog.select (a := .elem) .src ((Selector.idFromStr "a b".toList).mapError IdError.toStream)
      fun _ => .src) [.data (.static ['x'])]) :=
  ((C111_invalid_name (k' := .elem) (.src : Prog .elem .elem) .src (fun _ => .src) _ _ _
    (validate_error.1 rfl)).1 _ (List.mem_cons_self ..)).2.1

end Fuser
