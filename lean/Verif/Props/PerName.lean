import Verif.Proof.PerName
import Verif.Props.ElementCalls

/-!
# Attribute calls name by name
-/

namespace Fuser

open Spec

/-- C118. Attributes of different names do not interfere: after any chain of attribute calls, the
attributes of a name are what the calls about that name alone make of the attributes of that name
alone. -/
theorem C118_one_name (ops : List AttrOp) (h : ∀ op ∈ ops, ValidCall op) (e : Event) (m : List Event)
    (hE : Element (e :: m)) (hp : Page (e :: m)) :
    ∃ e', run (attrCalls ops) (e :: m) = some (.ok (e' :: m)) ∧
      ∀ n, run (attrCalls (aboutOnly n ops)) (onlyNamed n e :: m) =
        some (.ok (onlyNamed n e' :: m)) := by
  refine ⟨_, run_attrCalls ops hE hp, fun n => ?_⟩
  obtain ⟨h1, h2⟩ := element_with (ofName n) hE hp
  rw [onlyNamed, run_attrCalls _ h1 h2]
  cases e <;> simp only [withAttributes, onlyNamed, ofName_calls n h]

/-- C118. Calls about different names can be put in any order, as long as the calls about each name keep
theirs: then the attributes of each name are the same, so that all attributes are the same up to their
order, and no selector of the crate tells the results apart. -/
theorem C118_order (ops ops' : List AttrOp) (h : ∀ op ∈ ops, ValidCall op)
    (h' : ∀ op ∈ ops', ValidCall op) (hn : ∀ n, aboutOnly n ops = aboutOnly n ops') (e : Event)
    (m : List Event) (hE : Element (e :: m)) (hp : Page (e :: m)) :
    ∃ e₁ e₂, run (attrCalls ops) (e :: m) = some (.ok (e₁ :: m)) ∧
      run (attrCalls ops') (e :: m) = some (.ok (e₂ :: m)) ∧
      (∀ n, onlyNamed n e₁ = onlyNamed n e₂) ∧ (attributesOf e₁).Perm (attributesOf e₂) ∧
      ∀ s : Selector, (∀ f, s ≠ .custom f) → s.matches e₁ = s.matches e₂ := by
  have hs : ∀ n as, ofName n (applyAll ops as) = ofName n (applyAll ops' as) := by
    intro n as
    rw [ofName_calls n h, ofName_calls n h', hn]
  refine ⟨_, _, run_attrCalls ops hE hp, run_attrCalls ops' hE hp, fun n => ?_, ?_, fun s hc => ?_⟩
  · cases e <;> simp only [withAttributes, onlyNamed, hs]
  · cases e with
    | openingTag t as | selfClosedTag t as | voidTag t as => exact perm_names fun n => hs n as
    | _ => exact .refl _
  · refine matches_perm hc (as := applyAll ops (attributesOf e)) (bs := applyAll ops' (attributesOf e))
      (perm_names fun n => hs n _) fun x hx => ?_
    cases e <;> cases hx
    all_goals exact ⟨rfl, rfl⟩

/-! ## Cases -/

/-- Calls about classes, ids and titles in two orders. -/
def mixedCalls : List AttrOp :=
  [.addClass (owned ['a']), .setAttribute (owned "id".toList) (some (.static ['x'])),
    .removeClass (owned ['b']), .addAttribute (owned "title".toList) none]

@[inherit_doc mixedCalls] def sortedCalls : List AttrOp :=
  [.addAttribute (owned "title".toList) none, .setAttribute (owned "id".toList) (some (.static ['x'])),
    .addClass (owned ['a']), .removeClass (owned ['b'])]

theorem mixed_valid : (∀ op ∈ mixedCalls, ValidCall op) ∧ ∀ op ∈ sortedCalls, ValidCall op := by
  have h1 : ValidIdent "title".toList := validate_iff.1 rfl
  have h2 : ValidIdent "id".toList := validate_iff.1 rfl
  have h3 : ValidIdent "class".toList := validate_iff.1 rfl
  have h4 : ValidIdent ['b'] := validate_iff.1 rfl
  simp only [mixedCalls, sortedCalls, List.mem_cons, List.not_mem_nil, or_false, forall_eq_or_imp,
    forall_eq]
  exact ⟨⟨h3, h2, h4, h1⟩, h1, h2, h3, h4⟩

theorem mixed_sorted (n : List Char) : aboutOnly n mixedCalls = aboutOnly n sortedCalls := by
  have ascii : ∀ s : String, isAscii s.toList = true → Ascii s.toList := fun s h => isAscii_iff'.1 h
  have d : ∀ a b : String, isAscii b.toList = true → identifierEq a.toList b.toList = false →
      ¬ (SameName a.toList n ∧ SameName b.toList n) := by
    intro a b hb h ⟨h1, h2⟩
    have := (identifierEq_right (ascii b hb)).2 (h1.trans h2.symm)
    rw [h] at this
    cases this
  have d1 := d "class" "id" (by decide +kernel) (by decide +kernel)
  have d2 := d "class" "title" (by decide +kernel) (by decide +kernel)
  have d3 := d "id" "title" (by decide +kernel) (by decide +kernel)
  have c1 : aboutName (.addClass (owned ['a'])) = "class".toList := rfl
  have c2 : ∀ v, aboutName (.setAttribute (owned "id".toList) v) = "id".toList := fun _ => rfl
  have c3 : aboutName (.removeClass (owned ['b'])) = "class".toList := rfl
  have c4 : aboutName (.addAttribute (owned "title".toList) none) = "title".toList := rfl
  rw [aboutOnly, aboutOnly, mixedCalls, sortedCalls]
  simp only [List.filter_cons, List.filter_nil, c1, c2, c3, c4]
  by_cases hc : SameName "class".toList n
  · have hi : ¬ SameName "id".toList n := fun h => d1 ⟨hc, h⟩
    have ht : ¬ SameName "title".toList n := fun h => d2 ⟨hc, h⟩
    rw [decide_eq_true hc, decide_eq_false hi, decide_eq_false ht]
    rfl
  · by_cases hi : SameName "id".toList n
    · have ht : ¬ SameName "title".toList n := fun h => d3 ⟨hi, h⟩
      rw [decide_eq_true hi, decide_eq_false hc, decide_eq_false ht]
      rfl
    · rw [decide_eq_false hi, decide_eq_false hc]
      rfl

/-- C118: the two orders on a page; they differ only in the order of the attributes. -/
example : (∀ n, aboutOnly n mixedCalls = aboutOnly n sortedCalls) ∧
    shownMeaning "<li Class=\"b c\" ID/><p id></p>"
      (Prog.select .src (.ok (.tag li)) fun _ => attrCalls mixedCalls) =
      some "<li Class=\"c a\" id=\"x\" title /><p id></p>".toList ∧
    shownMeaning "<li Class=\"b c\" ID/><p id></p>"
      (Prog.select .src (.ok (.tag li)) fun _ => attrCalls sortedCalls) =
      some "<li Class=\"c a\" title id=\"x\" /><p id></p>".toList :=
  ⟨mixed_sorted, by decide +kernel, by decide +kernel⟩

/-- C118: the calls about one name must keep their order. -/
theorem C118_same_name_seen : ¬ ∀ (ops ops' : List AttrOp), (∀ op ∈ ops, ValidCall op) →
    (∀ op ∈ ops', ValidCall op) → ops.Perm ops' → ∀ e m, Element (e :: m) → Page (e :: m) →
    ∀ e₁ e₂, run (attrCalls ops) (e :: m) = some (.ok (e₁ :: m)) →
      run (attrCalls ops') (e :: m) = some (.ok (e₂ :: m)) →
      (attributesOf e₁).Perm (attributesOf e₂) := by
  intro h
  have hv : ValidIdent ['x'] := validate_iff.1 rfl
  have hE : Element [.voidTag lineBreak []] := .void _ _
  have hp : Page [.voidTag lineBreak []] := ⟨⟨0, .leaf trivial .nil⟩, by
    intro e he t ht
    simp only [List.mem_singleton] at he
    subst he
    cases ht
    exact isAscii_iff'.1 (by decide +kernel), by simp⟩
  have := h [.addAttribute (owned ['x']) none, .removeAttribute (owned ['x'])]
    [.removeAttribute (owned ['x']), .addAttribute (owned ['x']) none]
    (by simp [ValidCall]; exact hv) (by simp [ValidCall]; exact hv) (.swap _ _ _) _ _ hE hp _ _
    (run_attrCalls _ hE hp) (run_attrCalls _ hE hp)
  have := this.length_eq
  revert this
  decide +kernel

end Fuser
