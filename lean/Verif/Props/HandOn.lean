import Verif.Proof.HandOn
import Verif.Props.Marks
import Verif.Props.Apart

/-!
# Elements handed on from one selection to the next
-/

namespace Fuser

open Spec

/-- C120. Selecting elements and changing their attributes so that a second selector matches them, and
then selecting with the second selector, is selecting once and making both changes, if all elements of
the page that the second selector matches anyway are also matched by the first. This holds for `select`,
`select_direct` and both calls for the first match; builders may depend on the number of the match. -/
theorem C120_hand_on {k k' : Kind} (t u : Template) (ht : Page t.events) (p : Prog .gen k)
    (hp : WellNested p) (s r : Selector) (hs : OnlyStarts s) (hr : OnlyStarts r)
    (a : Nat → Prog .elem .elem) (c : Nat → Prog .elem k') (ha : ∀ i, OnlyAttributes (a i))
    (hc : ∀ i, WellNested (c i))
    (hm : ∀ i e, s.matches e = true → r.matches (withAttributes (change (a i)) e) = true)
    (hu : t.transform p = some (.ok u))
    (hn : ∀ e ∈ u.events, r.matches e = true → s.matches e = true) :
    t.transform ((p.select (.ok s) a).select (.ok r) c) =
      t.transform (p.select (.ok s) fun i => .apply (a i) (c i)) ∧
    t.transform ((p.selectDirect (.ok s) a).selectDirect (.ok r) c) =
      t.transform (p.selectDirect (.ok s) fun i => .apply (a i) (c i)) ∧
    t.transform ((p.selectOnce (.ok s) (a 0)).selectOnce (.ok r) (c 0)) =
      t.transform (p.selectOnce (.ok s) (.apply (a 0) (c 0))) ∧
    t.transform ((p.selectDirectOnce (.ok s) (a 0)).selectDirectOnce (.ok r) (c 0)) =
      t.transform (p.selectDirectOnce (.ok s) (.apply (a 0) (c 0))) := by
  have hw := (meaning_ok p hp _ trivial (treeOf_spec ht).1).2
  have hb : ∀ i, WellNested (a i) := fun i => onlyAttributes_nested (ha i)
  rw [transform_eq p hp t ht] at hu
  have hx : (meaning p (treeOf t.events)).events = .ok u.events := by
    cases he : (meaning p (treeOf t.events)).events with
    | error e => rw [he] at hu; cases hu
    | ok es => rw [he] at hu; cases hu; rfl
  have hcov := events_covers hw hx hn
  have key := fun d => (selectTree_hand hs hr d (fun i => meaning (a i)) (fun i => meaning (c i))
    (fun i f h1 h2 => one_handed (a i) (ha i) (hm i) h1 h2) _ hcov 0 0).1
  have key' := fun d => (selectOnceTree_hand hs hr d (meaning (a 0)) (meaning (c 0))
    (fun f h1 h2 => one_handed (a 0) (ha 0) (hm 0) h1 h2) _ hcov 0).1
  refine ⟨?_, ?_, ?_, ?_⟩
  · rw [transform_eq _ (by exact ⟨⟨hp, hb⟩, hc⟩) t ht,
      transform_eq _ (by exact ⟨hp, fun i => ⟨hb i, hc i⟩⟩) t ht]
    exact congrArg (fun f : Forest × Nat => some (f.1.events.map Template.mk)) (key false)
  · rw [transform_eq _ (by exact ⟨⟨hp, hb⟩, hc⟩) t ht,
      transform_eq _ (by exact ⟨hp, fun i => ⟨hb i, hc i⟩⟩) t ht]
    exact congrArg (fun f : Forest × Nat => some (f.1.events.map Template.mk)) (key true)
  · rw [transform_eq _ (by exact ⟨⟨hp, hb 0⟩, hc 0⟩) t ht,
      transform_eq _ (by exact ⟨hp, hb 0, hc 0⟩) t ht]
    exact congrArg (fun f : Forest × Bool => some (f.1.events.map Template.mk)) (key' false)
  · rw [transform_eq _ (by exact ⟨⟨hp, hb 0⟩, hc 0⟩) t ht,
      transform_eq _ (by exact ⟨hp, hb 0, hc 0⟩) t ht]
    exact congrArg (fun f : Forest × Bool => some (f.1.events.map Template.mk)) (key' true)

/-- C120 for classes: elements can be marked with a class that is nowhere on the page, by any chain of
calls that leaves the class, and then be selected by the class. -/
theorem C120_marked {k k' : Kind} (t u : Template) (ht : Page t.events) (p : Prog .gen k)
    (hp : WellNested p) (s : Selector) (hs : OnlyStarts s) (x : Identifier) (hx : ValidIdent x.str)
    (ms : Nat → List MarkCall) (hms : ∀ i, ∀ m ∈ ms i, m.Proper)
    (hl : ∀ i q, ClassAfter x.str (ms i) q) (c : Nat → Prog .elem k') (hc : ∀ i, WellNested (c i))
    (hu : t.transform p = some (.ok u)) (hn : ∀ e ∈ u.events, ¬ HasClass x.str (attributesOf e)) :
    t.transform ((p.select (.ok s) fun i => attrCalls ((ms i).map MarkCall.op)).select
        (.ok (.class x)) c) =
      t.transform (p.select (.ok s) fun i => .apply (attrCalls ((ms i).map MarkCall.op)) (c i)) ∧
    t.transform ((p.selectDirect (.ok s) fun i => attrCalls ((ms i).map MarkCall.op)).selectDirect
        (.ok (.class x)) c) =
      t.transform (p.selectDirect (.ok s) fun i =>
        .apply (attrCalls ((ms i).map MarkCall.op)) (c i)) := by
  have h := C120_hand_on t u ht p hp s (.class x) hs (C39_builtin_selectors _ (by simp))
    (fun i => attrCalls ((ms i).map MarkCall.op)) c (fun i => onlyAttributes_calls _) hc
    (fun i e he => ?_) hu (fun e he hm => ?_)
  · exact ⟨h.1, h.2.1⟩
  · have hch : change (attrCalls ((ms i).map MarkCall.op)) = applyAll ((ms i).map MarkCall.op) :=
      funext (change_calls _)
    have key : ∀ as, Attributes.hasClass (applyAll ((ms i).map MarkCall.op) as) x.str = true :=
      fun as => (attributes_hasClass_iff hx.ascii).2 ((hasClass_marks _ _ (hms i) as).2 (hl i _))
    rw [hch]
    cases e with
    | openingTag t as => exact key as
    | selfClosedTag t as => exact key as
    | voidTag t as => exact key as
    | _ => cases hs _ he
  · refine absurd ?_ (hn e he)
    cases e with
    | openingTag t as => exact (attributes_hasClass_iff hx.ascii).1 hm
    | selfClosedTag t as => exact (attributes_hasClass_iff hx.ascii).1 hm
    | voidTag t as => exact (attributes_hasClass_iff hx.ascii).1 hm
    | _ => cases hm

/-! ## Cases -/

/-- C120: list items marked and then filled in by the mark, with items inside and numbers. -/
example : (∀ q, ClassAfter ['m'] [.addClass (owned ['m'])] q) ∧
    shownMeaning "<ul><li>a<li/></li><p/><li class=\"n\"/></ul>" (Prog.select
      (Prog.select .src (.ok (.tag li)) fun _ => attrCalls ([.addClass (owned ['m'])].map MarkCall.op))
      (.ok (.class (owned ['m']))) fun i =>
        Prog.prependContents .src (.data (.actual (toString i).toList))) =
      some "<ul><li class=\"m\">0a<li /></li><p /><li class=\"n m\">1</li></ul>".toList ∧
    shownMeaning "<ul><li>a<li/></li><p/><li class=\"n\"/></ul>" (Prog.select .src (.ok (.tag li)) fun i =>
      .apply (attrCalls ([.addClass (owned ['m'])].map MarkCall.op))
        (Prog.prependContents .src (.data (.actual (toString i).toList)))) =
      some "<ul><li class=\"m\">0a<li /></li><p /><li class=\"n m\">1</li></ul>".toList := by
  refine ⟨fun q => .inl ⟨[], _, [], rfl, SameName.refl _, ?_⟩, ?_, ?_⟩
  · simp [NotRemoved]
  · decide +kernel
  · decide +kernel

/-- C120: the mark must not be on the page already: the other element is then changed too. -/
example :
    shownMeaning "<li/><p class=\"m\"/>" (Prog.select
      (Prog.select .src (.ok (.tag li)) fun _ => attrCalls ([.addClass (owned ['m'])].map MarkCall.op))
      (.ok (.class (owned ['m']))) fun _ => Prog.prependContents .src (text "x")) =
      some "<li class=\"m\">x</li><p class=\"m\">x</p>".toList ∧
    shownMeaning "<li/><p class=\"m\"/>" (Prog.select .src (.ok (.tag li)) fun _ =>
      .apply (attrCalls ([.addClass (owned ['m'])].map MarkCall.op))
        (Prog.prependContents .src (text "x"))) =
      some "<li class=\"m\">x</li><p class=\"m\" />".toList := by
  refine ⟨?_, ?_⟩ <;> decide +kernel

end Fuser
