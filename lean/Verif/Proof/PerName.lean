import Verif.Spec.PerName
import Verif.Proof.ElementCalls

/-!
# Attribute calls name by name
-/

namespace Fuser

open Spec

/-! ## One call -/

/-- The filter sees the names only. -/
def SeesNames (P : Attribute → Bool) : Prop := ∀ a b : Attribute, a.name = b.name → P a = P b

/-- The attributes that the call is about are seen, or hidden, by the filter. -/
def AllOrNone (P : Attribute → Bool) (y : Bool) (n : Identifier) : Prop :=
  P ⟨n, none⟩ = y ∧ ∀ a : Attribute, a.name.eq n = true → P a = y

theorem replace_any (as : Attributes) (n : Identifier) (v : Option Value) :
    Attributes.replaceAttribute as n v =
      if as.any (fun a => a.name.eq n) then Attributes.setAttribute as n v else as := by
  have h : (as.length ≠ (as.filter fun a => !a.name.eq n).length) ↔
      as.any (fun a => a.name.eq n) = true := by
    rw [ne_comm, Ne, List.length_filter_eq_length_iff]
    simp
  unfold Attributes.replaceAttribute
  by_cases h' : as.any (fun a => a.name.eq n) = true
  · rw [if_pos (h.2 h'), if_pos h']
    rfl
  · rw [if_neg (fun x => h' (h.1 x)), if_neg h']
    exact List.filter_eq_self.2 (by simpa using h')

theorem removeClass_all (as : Attributes) (n : Identifier) :
    Attributes.removeClass as n = as.filterMap fun a => a.removeClass n.str := by
  unfold Attributes.removeClass
  split
  · rfl
  · next h =>
    symm
    rw [List.filterMap_congr (g := some)]
    · simp
    · intro a ha
      have : a.hasClass n.str = false := by
        cases hc : a.hasClass n.str
        · rfl
        · exact absurd (List.any_eq_true.2 ⟨a, ha, hc⟩) h
      simp [Attribute.removeClass, Attribute.makeWithout, this]

theorem removeClass_name {a b : Attribute} {n : Str} (h : a.removeClass n = some b) :
    b.name = a.name := by
  unfold Attribute.removeClass at h
  split at h
  · cases h; rfl
  · split at h
    · cases h
    · cases h; rfl

theorem removeClass_other {a : Attribute} {n : Str} (h : a.name.isEq "class".toList = false) :
    a.removeClass n = some a := by
  have : a.classes = none := by
    unfold Attribute.classes
    rw [if_neg (by rw [h]; decide)]
  simp [Attribute.removeClass, Attribute.makeWithout, Attribute.hasClass, this]

theorem filter_hidden {P : Attribute → Bool} {n : Identifier} (h : AllOrNone P false n)
    (as : Attributes) : (as.filter fun a => !a.name.eq n).filter P = as.filter P := by
  rw [List.filter_filter]
  refine List.filter_congr fun a _ => ?_
  cases hn : a.name.eq n
  · simp
  · simp [h.2 a hn]

theorem any_seen {P : Attribute → Bool} {n : Identifier} (h : AllOrNone P true n)
    (as : Attributes) : (as.filter P).any (fun a => a.name.eq n) = as.any (fun a => a.name.eq n) := by
  rw [List.any_filter]
  congr 1
  funext a
  cases hn : a.name.eq n
  · simp
  · simp [h.2 a hn]

/-- What the filter sees of the attributes after a call. -/
theorem filter_call {P : Attribute → Bool} (hP : SeesNames P) (op : AttrOp) (as : Attributes) :
    (∀ n : Identifier, n.str = aboutName op → AllOrNone P true n) →
      (op.apply as).filter P = op.apply (as.filter P) := by
  intro h
  have hset : ∀ (n : Identifier) (v : Option Value), AllOrNone P true n →
      (Attributes.setAttribute as n v).filter P = Attributes.setAttribute (as.filter P) n v := by
    intro n v h
    simp only [Attributes.setAttribute, List.filter_append, List.filter_filter]
    rw [List.filter_cons, if_pos ((hP ⟨n, v⟩ ⟨n, none⟩ rfl).trans h.1), List.filter_nil]
    simp [Bool.and_comm]
  cases op with
  | removeAttribute n =>
    simp [AttrOp.apply, Attributes.removeAttribute, List.filter_filter, Bool.and_comm]
  | addAttribute n v =>
    simp only [AttrOp.apply, Attributes.addAttribute, List.filter_append]
    rw [List.filter_cons, if_pos ((hP ⟨n, v⟩ ⟨n, none⟩ rfl).trans (h n rfl).1), List.filter_nil]
  | setAttribute n v => exact hset n v (h n rfl)
  | replaceAttribute n v =>
    simp only [AttrOp.apply]
    rw [replace_any, replace_any, any_seen (h n rfl)]
    split
    · exact hset n v (h n rfl)
    · rfl
  | addToAttribute n v w =>
    have h := h n rfl
    simp only [AttrOp.apply]
    clear hset
    induction as with
    | nil =>
      rw [Attributes.addToAttribute, List.filter_cons, if_pos ((hP ⟨n, some v⟩ ⟨n, none⟩ rfl).trans h.1)]
      rfl
    | cons a as ih =>
      rw [Attributes.addToAttribute]
      cases hn : a.name.eq n with
      | true =>
        have ha : ∀ x, P ⟨a.name, x⟩ = true := fun x => (hP ⟨a.name, x⟩ a rfl).trans (h.2 a hn)
        rw [if_pos rfl, List.filter_cons, List.filter_cons, if_pos (ha _), if_pos (h.2 a hn),
          Attributes.addToAttribute, if_pos hn]
      | false =>
        rw [if_neg (by simp), List.filter_cons, List.filter_cons]
        split
        · rw [ih, Attributes.addToAttribute, if_neg (by simp [hn])]
        · exact ih
  | removeClass n =>
    simp only [AttrOp.apply]
    rw [removeClass_all, removeClass_all]
    clear hset
    induction as with
    | nil => rfl
    | cons a as ih =>
      cases hr : a.removeClass n.str with
      | none =>
        rw [List.filterMap_cons_none (f := fun a : Attribute => a.removeClass n.str) hr, ih, List.filter_cons]
        split
        · rw [List.filterMap_cons_none (f := fun a : Attribute => a.removeClass n.str) hr]
        · rfl
      | some b =>
        have hb := hP b a (removeClass_name hr)
        rw [List.filterMap_cons_some (f := fun a : Attribute => a.removeClass n.str) hr, List.filter_cons, List.filter_cons, hb]
        split
        · rw [List.filterMap_cons_some (f := fun a : Attribute => a.removeClass n.str) hr, ih]
        · exact ih

theorem filter_other {P : Attribute → Bool} (hP : SeesNames P) (op : AttrOp) (as : Attributes) :
    (∀ n : Identifier, n.str = aboutName op → AllOrNone P false n) →
      (op.apply as).filter P = as.filter P := by
  intro h
  have hset : ∀ (n : Identifier) (v : Option Value), AllOrNone P false n →
      (Attributes.setAttribute as n v).filter P = as.filter P := by
    intro n v h
    rw [Attributes.setAttribute, List.filter_append, filter_hidden h, List.filter_cons,
      if_neg (by simp [(hP ⟨n, v⟩ ⟨n, none⟩ rfl).trans h.1])]
    simp
  cases op with
  | removeAttribute n => exact filter_hidden (h n rfl) as
  | addAttribute n v =>
    simp only [AttrOp.apply, Attributes.addAttribute, List.filter_append]
    rw [List.filter_cons, if_neg (by simp [(hP ⟨n, v⟩ ⟨n, none⟩ rfl).trans (h n rfl).1])]
    simp
  | setAttribute n v => exact hset n v (h n rfl)
  | replaceAttribute n v =>
    simp only [AttrOp.apply]
    rw [replace_any]
    split
    · exact hset n v (h n rfl)
    · rfl
  | addToAttribute n v w =>
    have h := h n rfl
    simp only [AttrOp.apply]
    clear hset
    induction as with
    | nil =>
      rw [Attributes.addToAttribute, List.filter_cons,
        if_neg (by simp [(hP ⟨n, some v⟩ ⟨n, none⟩ rfl).trans h.1])]
    | cons a as ih =>
      rw [Attributes.addToAttribute]
      cases hn : a.name.eq n with
      | true =>
        have ha : ∀ x, P ⟨a.name, x⟩ = false := fun x => (hP ⟨a.name, x⟩ a rfl).trans (h.2 a hn)
        rw [if_pos rfl, List.filter_cons, List.filter_cons, ha, h.2 a hn]
        rfl
      | false =>
        rw [if_neg (by simp), List.filter_cons, List.filter_cons, ih]
  | removeClass n =>
    simp only [AttrOp.apply]
    rw [removeClass_all]
    have h := h ⟨.static "class".toList⟩ rfl
    clear hset
    induction as with
    | nil => rfl
    | cons a as ih =>
      cases hn : a.name.isEq "class".toList with
      | true =>
        have ha := h.2 a hn
        cases hr : a.removeClass n.str with
        | none =>
          rw [List.filterMap_cons_none (f := fun a : Attribute => a.removeClass n.str) hr, ih,
            List.filter_cons, if_neg (by simp [ha])]
        | some b =>
          have hb := hP b a (removeClass_name hr)
          rw [List.filterMap_cons_some (f := fun a : Attribute => a.removeClass n.str) hr,
            List.filter_cons, List.filter_cons, hb, ha, ih]
          rfl
      | false =>
        rw [List.filterMap_cons_some
          (f := fun a : Attribute => a.removeClass n.str) (removeClass_other hn), List.filter_cons,
          List.filter_cons, ih]

/-! ## Names -/

theorem valid_about {op : AttrOp} (h : ValidCall op) : Ascii (aboutName op) := by
  cases op with
  | removeClass => exact ascii_class
  | _ => exact h.ascii

theorem ofName_call (n : List Char) {op : AttrOp} (h : ValidCall op) (as : Attributes) :
    (SameName (aboutName op) n → ofName n (op.apply as) = op.apply (ofName n as)) ∧
    (¬ SameName (aboutName op) n → ofName n (op.apply as) = ofName n as) := by
  classical
  have hP : SeesNames fun a => decide (Named n a) := by
    intro a b h
    exact decide_eq_decide.2 (by simp only [Named, h])
  have hof : ∀ as, ofName n as = as.filter fun a => decide (Named n a) := by
    intro as
    unfold ofName
    refine List.filter_congr fun a _ => ?_
    simp
  simp only [hof]
  refine ⟨fun hn => filter_call hP op as fun m hm => ?_, fun hn => filter_other hP op as fun m hm => ?_⟩
  · have hm' : Ascii m.str := hm ▸ valid_about h
    have hn' : SameName m.str n := hm ▸ hn
    exact ⟨decide_eq_true hn', fun a ha => decide_eq_true (((eq_iff_named hm').1 ha).trans hn')⟩
  · have hm' : Ascii m.str := hm ▸ valid_about h
    have hn' : ¬ SameName m.str n := hm ▸ hn
    exact ⟨decide_eq_false hn', fun a ha =>
      decide_eq_false fun h' => hn' (((eq_iff_named hm').1 ha).symm.trans h')⟩

/-- What the calls do to attributes. -/
def applyAll (ops : List AttrOp) (as : Attributes) : Attributes := ops.foldl (fun as op => op.apply as) as

theorem ofName_calls (n : List Char) {ops : List AttrOp} : (∀ op ∈ ops, ValidCall op) →
    ∀ as, ofName n (applyAll ops as) = applyAll (aboutOnly n ops) (ofName n as) := by
  induction ops with
  | nil => exact fun _ _ => rfl
  | cons op ops ih =>
    intro h as
    have ih := ih (fun x hx => h x (List.mem_cons_of_mem _ hx)) (op.apply as)
    have hc := ofName_call n (h op List.mem_cons_self) as
    change ofName n (applyAll ops (op.apply as)) = _
    rw [ih]
    by_cases hn : SameName (aboutName op) n
    · rw [hc.1 hn, aboutOnly, aboutOnly, List.filter_cons, if_pos (by simpa using hn)]
      rfl
    · rw [hc.2 hn, aboutOnly, aboutOnly, List.filter_cons, if_neg (by simpa using hn)]

theorem meaning_attrCalls (ops : List AttrOp) (f : Forest) :
    meaning (attrCalls ops) f = onAttributes (applyAll ops) f := by
  have h1 : ∀ p : Prog .elem .elem, OnlyAttributes p → OnlyAttributes (ops.foldl .attr p) := by
    induction ops with
    | nil => exact fun p h => h
    | cons op ops ih => exact fun p h => ih (.attr p op) h
  have h2 : ∀ (p : Prog .elem .elem) as, change (ops.foldl .attr p) as = applyAll ops (change p as) := by
    clear h1
    induction ops with
    | nil => exact fun p as => rfl
    | cons op ops ih => exact fun p as => ih (.attr p op) as
  rw [attrCalls, meaning_change _ (h1 .src trivial)]
  congr 1
  funext as
  exact h2 .src as

theorem attrCalls_nested (ops : List AttrOp) : WellNested (attrCalls ops) := by
  have h1 : ∀ p : Prog .elem .elem, WellNested p → WellNested (ops.foldl .attr p) := by
    induction ops with
    | nil => exact fun p h => h
    | cons op ops ih => exact fun p h => ih (.attr p op) h
  exact h1 .src trivial

theorem run_attrCalls (ops : List AttrOp) {e : Event} {m : List Event} (hE : Element (e :: m))
    (hp : Page (e :: m)) :
    run (attrCalls ops) (e :: m) = some (.ok (withAttributes (applyAll ops) e :: m)) := by
  rw [run_meaning _ (attrCalls_nested ops) hp hE, meaning_attrCalls]
  cases hE with
  | selfClosed t as => rfl
  | void t as => rfl
  | pair hc hi =>
    have := treeOf_events (page_inner hc hi hp)
    rw [treeOf_pair hc hi, onAttributes, events_elem, this]
    rfl

theorem element_with (g : Attributes → Attributes) {e : Event} {m : List Event}
    (hE : Element (e :: m)) (hp : Page (e :: m)) :
    Element (withAttributes g e :: m) ∧ Page (withAttributes g e :: m) := by
  have hE' : Element (withAttributes g e :: m) := by
    cases hE with
    | selfClosed t as => exact .selfClosed _ _
    | void t as => exact .void _ _
    | pair hc hi => exact .pair hc hi
  refine ⟨hE', ?_, ?_, ?_⟩
  · cases hE with
    | selfClosed t as => exact ⟨0, .leaf trivial .nil⟩
    | void t as => exact ⟨0, .leaf trivial .nil⟩
    | pair hc hi =>
      obtain ⟨n, hi⟩ := hi
      exact ⟨_, .element hc hi .nil⟩
  · intro x hx t ht
    rcases List.mem_cons.1 hx with rfl | hx
    · exact hp.2.1 e List.mem_cons_self t (by cases hE <;> exact ht)
    · exact hp.2.1 x (List.mem_cons_of_mem _ hx) t ht
  · intro hx
    rcases List.mem_cons.1 hx with h | h
    · cases hE <;> cases h
    · exact hp.2.2 (List.mem_cons_of_mem _ h)

/-! ## Orders -/

theorem perm_names {as bs : Attributes} (h : ∀ n, ofName n as = ofName n bs) : as.Perm bs := by
  classical
  have hof : ∀ n as, ofName n as = as.filter fun a => decide (Named n a) := by
    intro n as
    unfold ofName
    refine List.filter_congr fun a _ => ?_
    simp
  rw [List.perm_iff_count]
  intro a
  have h := congrArg (List.count a) (h a.name.str)
  rw [hof, hof, List.count_filter (by simp [Named, SameName.refl]),
    List.count_filter (by simp [Named, SameName.refl])] at h
  exact h

theorem matches_perm {s : Selector} (hs : ∀ f, s ≠ .custom f) {as bs : Attributes} (h : as.Perm bs)
    {g g' : Attributes → Attributes} {e : Event}
    (h1 : ∀ x, e.attributes = some x → g x = as ∧ g' x = bs) :
    s.matches (withAttributes g e) = s.matches (withAttributes g' e) := by
  have hid : ∀ i, Attributes.hasId as i = Attributes.hasId bs i := fun i => h.any_eq
  have hcl : ∀ i, Attributes.hasClass as i = Attributes.hasClass bs i := fun i => h.any_eq
  cases e with
  | openingTag t x | selfClosedTag t x | voidTag t x =>
    obtain ⟨ha, hb⟩ := h1 x rfl
    cases s with
    | custom f => exact absurd rfl (hs f)
    | _ => simp [Selector.matches, withAttributes, Event.attributes, Event.elementTagStart, ha, hb, hid, hcl]
  | _ => rfl

end Fuser
