import Verif.Proof.Marks
import Verif.Props.PerName

/-!
# Calls about classes and ids
-/

namespace Fuser

open Spec

/-- C119. After any chain of calls on the attributes of an element, it has exactly the classes that were
added and not removed later, and those that it had and that were not removed; and the id that was set
last, if it was not removed later, or the ids it had, if no call was about the id. Selectors for classes
and ids see just this. -/
theorem C119_marks (ms : List MarkCall) (h : ∀ m ∈ ms, m.Proper) (e : Event) (r : List Event)
    (hE : Element (e :: r)) (hp : Page (e :: r)) :
    ∃ e', run (attrCalls (ms.map MarkCall.op)) (e :: r) = some (.ok (e' :: r)) ∧
      (∀ c, HasClass c (attributesOf e') ↔ ClassAfter c ms (HasClass c (attributesOf e))) ∧
      (∀ i, HasId i (attributesOf e') ↔ IdAfter i ms (HasId i (attributesOf e))) ∧
      (∀ x : Identifier, ValidIdent x.str → ((Selector.class x).matches e' = true ↔
        ClassAfter x.str ms ((Selector.class x).matches e = true))) ∧
      ∀ x : Identifier, ValidIdent x.str → ((Selector.id x).matches e' = true ↔
        IdAfter x.str ms ((Selector.id x).matches e = true)) := by
  refine ⟨_, run_attrCalls _ hE hp, ?_⟩
  have key : ∀ as, (∀ c, HasClass c (applyAll (ms.map MarkCall.op) as) ↔
      ClassAfter c ms (HasClass c as)) ∧ ∀ c, HasId c (applyAll (ms.map MarkCall.op) as) ↔
      IdAfter c ms (HasId c as) := fun as => ⟨fun c => hasClass_marks c ms h as, fun c =>
    hasId_marks c ms h as⟩
  have sel : ∀ as (x : Identifier), ValidIdent x.str →
      (Attributes.hasClass (applyAll (ms.map MarkCall.op) as) x.str = true ↔
        ClassAfter x.str ms (Attributes.hasClass as x.str = true)) ∧
      (Attributes.hasId (applyAll (ms.map MarkCall.op) as) x.str = true ↔
        IdAfter x.str ms (Attributes.hasId as x.str = true)) := by
    intro as x hx
    rw [attributes_hasClass_iff hx.ascii, attributes_hasId_iff hx.ascii,
      classAfter_congr (attributes_hasClass_iff hx.ascii), idAfter_congr (attributes_hasId_iff hx.ascii)]
    exact ⟨(key as).1 _, (key as).2 _⟩
  cases hE with
  | selfClosed t as =>
    exact ⟨(key as).1, (key as).2, fun x hx => (sel as x hx).1, fun x hx => (sel as x hx).2⟩
  | void t as =>
    exact ⟨(key as).1, (key as).2, fun x hx => (sel as x hx).1, fun x hx => (sel as x hx).2⟩
  | @pair t as _ _ =>
    exact ⟨(key as).1, (key as).2, fun x hx => (sel as x hx).1, fun x hx => (sel as x hx).2⟩

/-- C119. If two chains leave the same classes and ids, no selector of the crate tells their results
apart. -/
theorem C119_alike (ms ms' : List MarkCall) (h : ∀ m ∈ ms, m.Proper) (h' : ∀ m ∈ ms', m.Proper)
    (hc : ∀ c p, ClassAfter c ms p ↔ ClassAfter c ms' p) (hi : ∀ i p, IdAfter i ms p ↔ IdAfter i ms' p)
    (e : Event) (r : List Event) (hE : Element (e :: r)) (hp : Page (e :: r)) :
    ∃ e₁ e₂, run (attrCalls (ms.map MarkCall.op)) (e :: r) = some (.ok (e₁ :: r)) ∧
      run (attrCalls (ms'.map MarkCall.op)) (e :: r) = some (.ok (e₂ :: r)) ∧
      ∀ s : Selector, (∀ f, s ≠ .custom f) → s.matches e₁ = s.matches e₂ := by
  refine ⟨_, _, run_attrCalls _ hE hp, run_attrCalls _ hE hp, fun s hs => ?_⟩
  refine matches_marks hs fun as _ => ⟨fun c => ?_, fun c => ?_⟩
  · rw [hasClass_marks c ms h, hasClass_marks c ms' h', hc]
  · rw [hasId_marks c ms h, hasId_marks c ms' h', hi]

/-! ## Cases -/

/-- A class added, removed and added again, in different spellings, another one removed, and an id set
twice, with a call about titles between. -/
def tagging : List MarkCall :=
  [.addClass (owned ['a']), .setId (owned ['x']), .removeClass (owned ['A']), .removeClass (owned ['b']),
    .other (.setAttribute (owned "title".toList) none), .addClass (owned ['a']), .setId (owned ['y'])]

theorem tagging_proper : ∀ m ∈ tagging, m.Proper := by
  have v : ∀ s, validate s = .ok s → ValidIdent s := fun s h => validate_iff.1 h
  have ascii : ∀ s : String, isAscii s.toList = true → Ascii s.toList := fun s h => isAscii_iff'.1 h
  have d : ∀ a b : String, isAscii b.toList = true → identifierEq a.toList b.toList = false →
      ¬ SameName a.toList b.toList := by
    intro a b hb h h1
    have := (identifierEq_right (ascii b hb)).2 h1
    rw [h] at this
    cases this
  simp only [tagging, List.mem_cons, List.not_mem_nil, or_false, forall_eq_or_imp, forall_eq]
  exact ⟨v _ rfl, v _ rfl, v _ rfl, v _ rfl, ⟨v _ rfl, d "title" "class" (by decide +kernel)
    (by decide +kernel), d "title" "id" (by decide +kernel) (by decide +kernel)⟩, v _ rfl, v _ rfl⟩

/-- C119: the chain on a page. -/
example : (∀ m ∈ tagging, m.Proper) ∧ (∀ p, ClassAfter ['A'] tagging p) ∧
    (∀ p, ¬ ClassAfter ['b'] tagging p) ∧ (∀ p, IdAfter ['Y'] tagging p) ∧
    shownMeaning "<li Class=\"B c\" ID=\"z\"/><p class=\"b\"></p>"
      (Prog.select .src (.ok (.tag li)) fun _ => attrCalls (tagging.map MarkCall.op)) =
      some "<li Class=\"c a\" title id=\"y\" /><p class=\"b\"></p>".toList := by
  have hA : SameName ['a'] ['A'] := (identifierEq_right (isAscii_iff'.1 rfl)).1 rfl
  have hY : SameName ['y'] ['Y'] := (identifierEq_right (isAscii_iff'.1 rfl)).1 rfl
  refine ⟨tagging_proper, fun p => .inl ⟨tagging.take 5, owned ['a'], tagging.drop 6, rfl, hA, ?_⟩, ?_,
    fun p => .inl ⟨tagging.take 6, owned ['y'], [], rfl, hY, ?_⟩, by decide +kernel⟩
  · simp [NotRemoved, tagging]
  · rintro p (⟨pre, x, post, he, hx, -⟩ | ⟨-, hn⟩)
    · have : MarkCall.addClass x ∈ tagging := by rw [he]; simp
      simp only [tagging, List.mem_cons, List.not_mem_nil, or_false, MarkCall.addClass.injEq,
        reduceCtorEq, false_or] at this
      have hx' : SameName ['a'] ['b'] := by
        rcases this with rfl | rfl <;> exact hx
      have := (identifierEq_right (isAscii_iff'.1 rfl)).2 hx'
      revert this
      decide +kernel
    · exact hn (owned ['b']) (by simp [tagging]) (SameName.refl _)
  · simp [IdLeft]

/-- C119: other calls must not be about `class` or `id`: a call that sets the attribute `class` removes
all classes. -/
theorem C119_other_seen : ∃ (op : AttrOp) (e e' : Event), ValidCall op ∧ Element [e] ∧ Page [e] ∧
    run (attrCalls [op]) [e] = some (.ok [e']) ∧ HasClass ['c'] (attributesOf e) ∧
    ¬ HasClass ['c'] (attributesOf e') := by
  have hE : Element [.voidTag lineBreak [⟨owned "Class".toList, some (.static ['c'])⟩]] := .void _ _
  have hp : Page [.voidTag lineBreak [⟨owned "Class".toList, some (.static ['c'])⟩]] :=
    ⟨⟨0, .leaf trivial .nil⟩, by
      intro e he t ht
      simp only [List.mem_singleton] at he
      subst he
      cases ht
      exact isAscii_iff'.1 (by decide +kernel), by simp⟩
  refine ⟨.setAttribute (owned "class".toList) none, _, _, validate_iff.1 rfl, hE, hp,
    run_attrCalls _ hE hp, ?_, ?_⟩
  · exact (attributes_hasClass_iff (isAscii_iff'.1 rfl)).1 (by decide +kernel)
  · intro h
    have := (attributes_hasClass_iff (isAscii_iff'.1 rfl)).2 h
    revert this
    decide +kernel

end Fuser
