import Verif.Proof.AttrOps
import Verif.Model.Select

/-!
# Properties C08-C14: attribute calls

`op.apply as` is what an attribute call does to the attribute list of a start tag; that the calls
do exactly this to the start tag and nothing else is property C50.
-/

namespace Fuser

open Spec

/-- An attribute, for the examples. -/
private def attr (n v : String) : Attribute := ⟨⟨.actual n.toList⟩, some (.actual v.toList)⟩

/-- A name, for the examples. -/
private def name (n : String) : Identifier := ⟨.static n.toList⟩

/-- C08. `set_attribute` leaves exactly one attribute of that name, last and with exactly the given
value; all other attributes stay in order; setting twice keeps only the second. -/
theorem C08_set_attribute (as : Attributes) (n : Identifier) (v : Option Value)
    (hn : ValidIdent n.str) :
    let bs := (AttrOp.setAttribute n v).apply as
    bs = notOfName n.str as ++ [⟨n, v⟩] ∧
    ofName n.str bs = [⟨n, v⟩] ∧
    bs.getLast? = some ⟨n, v⟩ ∧
    notOfName n.str bs = notOfName n.str as ∧
    (∀ m w, SameName m.str n.str →
      (AttrOp.setAttribute m w).apply bs = (AttrOp.setAttribute m w).apply as) := by
  intro bs
  have hbs : bs = notOfName n.str as ++ [⟨n, v⟩] := setAttribute_eq as hn.ascii v
  have hnm : Named n.str ⟨n, v⟩ := SameName.refl _
  refine ⟨hbs, ?_, ?_, ?_, ?_⟩
  · rw [hbs, ofName_append, ofName_notOfName, ofName_single hnm]; rfl
  · rw [hbs]; simp
  · rw [hbs, notOfName_append, notOfName_notOfName, notOfName_single hnm, List.append_nil]
  · intro m w hm
    have hma : Ascii m.str := hm.ascii hn.ascii
    have : ∀ l : Attributes, notOfName m.str l = notOfName n.str l := by
      intro l
      unfold notOfName
      congr 1
      funext a
      have : Named m.str a ↔ Named n.str a := ⟨fun h => h.trans hm, fun h => h.trans hm.symm⟩
      simp [this]
    rw [setAttribute_eq _ hma, setAttribute_eq _ hma, this, this, hbs, notOfName_append,
      notOfName_notOfName, notOfName_single hnm, List.append_nil]

example : (AttrOp.setAttribute (name "HREF") (some (.actual "z".toList))).apply
    [attr "href" "x", attr "rel" "r", attr "Href" "y"] =
    [attr "rel" "r", ⟨name "HREF", some (.actual "z".toList)⟩] := by decide
example : ValidIdent (name "HREF").str := validate_iff.1 rfl

/-- C09. `remove_attribute` removes all attributes of that name and nothing else. -/
theorem C09_remove_attribute (as : Attributes) (n : Identifier) (hn : ValidIdent n.str) :
    let bs := (AttrOp.removeAttribute n).apply as
    bs = notOfName n.str as ∧ (∀ a ∈ bs, ¬ Named n.str a) ∧ bs.Sublist as ∧
    (∀ a ∈ as, ¬ Named n.str a → a ∈ bs) ∧
    (AttrOp.removeAttribute n).apply bs = bs := by
  intro bs
  have hbs : bs = notOfName n.str as := removeAttribute_eq as hn.ascii
  refine ⟨hbs, ?_, ?_, ?_, ?_⟩
  · rw [hbs]
    intro a ha
    simpa [notOfName] using (List.mem_filter.1 ha).2
  · rw [hbs]
    exact List.filter_sublist
  · rw [hbs]
    intro a ha h
    simp [notOfName, ha, h]
  · rw [removeAttribute_eq bs hn.ascii, hbs, notOfName_notOfName]

example : (AttrOp.removeAttribute (name "id")).apply [attr "ID" "x", attr "rel" "r", attr "id" "y"] =
    [attr "rel" "r"] := by decide

/-- C10. `replace_attribute_value_if_exists` changes nothing if the name is absent and is
`set_attribute` otherwise. -/
theorem C10_replace_if_exists (as : Attributes) (n : Identifier) (v : Option Value)
    (hn : ValidIdent n.str) :
    ((∀ a ∈ as, ¬ Named n.str a) → (AttrOp.replaceAttribute n v).apply as = as) ∧
    ((∃ a ∈ as, Named n.str a) →
      (AttrOp.replaceAttribute n v).apply as = (AttrOp.setAttribute n v).apply as) := by
  constructor
  · intro h
    change Attributes.replaceAttribute as n v = as
    have : (as.filter fun a => !a.name.eq n) = as := by
      rw [List.filter_eq_self]
      intro a ha
      rw [Bool.not_eq_true', ← Bool.not_eq_true, eq_iff_named hn.ascii]
      exact h a ha
    unfold Attributes.replaceAttribute
    simp only [this, ne_eq, not_true_eq_false, if_false]
  · rintro ⟨a, ha, h⟩
    change Attributes.replaceAttribute as n v = Attributes.setAttribute as n v
    unfold Attributes.replaceAttribute Attributes.setAttribute
    simp only
    rw [if_pos]
    have : (as.filter fun a => !a.name.eq n).length < as.length := by
      apply List.length_filter_lt_length_iff_exists.2
      exact ⟨a, ha, by simpa using (eq_iff_named hn.ascii).2 h⟩
    omega

example : (AttrOp.replaceAttribute (name "a") none).apply [attr "b" "x"] = [attr "b" "x"] ∧
    (AttrOp.replaceAttribute (name "a") none).apply [attr "A" "1", attr "b" "x"] =
      [attr "b" "x", ⟨name "a", none⟩] := by decide

/-- C11. `add_attribute` appends; `add_to_attribute` extends the first attribute of that name with
separator and value, or appends a new one. -/
theorem C11_add_attribute (as : Attributes) (n : Identifier) (v sep : Value)
    (hn : ValidIdent n.str) :
    (∀ w, (AttrOp.addAttribute n w).apply as = as ++ [⟨n, w⟩]) ∧
    ((∀ a ∈ as, ¬ Named n.str a) → (AttrOp.addToAttribute n v sep).apply as = as ++ [⟨n, some v⟩]) ∧
    (∀ pre a post, as = pre ++ a :: post → (∀ b ∈ pre, ¬ Named n.str b) → Named n.str a →
      ∃ w, (AttrOp.addToAttribute n v sep).apply as = pre ++ ⟨a.name, some w⟩ :: post ∧
        w.str = match a.value with
          | some old => old.str ++ sep.str ++ v.str
          | none => v.str) := by
  refine ⟨fun _ => rfl, fun h => addToAttribute_absent hn.ascii h, ?_⟩
  rintro pre a post rfl h1 h2
  refine ⟨_, addToAttribute_first hn.ascii h1 h2, ?_⟩
  cases a.value <;> simp [join_str]

example : (AttrOp.addToAttribute (name "style") (.static "b".toList) (.static ";".toList)).apply
    [attr "x" "1", attr "STYLE" "a", attr "style" "c"] =
    [attr "x" "1", attr "STYLE" "a;b", attr "style" "c"] := by decide

/-- C12. After `add_class` the element has the class; any other class it has exactly if it had it
before. The third part says the same of what class selectors see. The last two parts are exact: the
class goes to the end of the first class attribute, after a space, or into a new attribute at the
end. -/
theorem C12_add_class (as : Attributes) (x : Identifier) (hx : ValidIdent x.str) :
    let bs := (AttrOp.addClass x).apply as
    HasClass x.str bs ∧
    (∀ c, ¬ SameName c x.str → (HasClass c bs ↔ HasClass c as)) ∧
    (∀ c e f, ValidIdent c.str → e.attributes = some as → f.attributes = some bs →
      ((Selector.class c).matches f = true ↔
        SameName c.str x.str ∨ (Selector.class c).matches e = true)) ∧
    notOfName "class".toList bs = notOfName "class".toList as ∧
    ((∀ a ∈ as, ¬ Named "class".toList a) → ∃ a v, bs = as ++ [a] ∧ a.name.str = "class".toList ∧
      a.value = some v ∧ v.str = x.str) ∧
    (∀ pre a post, as = pre ++ a :: post → (∀ b ∈ pre, ¬ Named "class".toList b) →
      Named "class".toList a → ∃ w, bs = pre ++ ⟨a.name, some w⟩ :: post ∧
        w.str = match a.value with
          | some old => old.str ++ ' ' :: x.str
          | none => x.str) := by
  intro bs
  have hbs := hasClass_addClass (as := as) hx
  have hsel : ∀ (c : Identifier) (e : Event) l, ValidIdent c.str → e.attributes = some l →
      ((Selector.class c).matches e = true ↔ HasClass c.str l) := by
    intro c e l hc he
    rw [← attributes_hasClass_iff hc.ascii]
    simp [Selector.matches, he]
  have hadd := C11_add_attribute as classIdentifier x.intoValue classSeparator (validate_iff.1 rfl)
  refine ⟨(hbs _).2 (.inr (SameName.refl _)), ?_, ?_, ?_, ?_, ?_⟩
  · intro c hc
    rw [hbs]
    exact or_iff_left fun h => hc h.symm
  · intro c e f hc he hf
    rw [hsel c f bs hc hf, hsel c e as hc he, hbs, or_comm]
    exact or_congr_left ⟨fun h => h.symm, fun h => h.symm⟩
  · change notOfName _ (Attributes.addToAttribute as classIdentifier x.intoValue classSeparator) = _
    rcases named_split as "class".toList with h | ⟨pre, a, post, rfl, h1, h2⟩
    · rw [addToAttribute_absent (n := classIdentifier) ascii_class h, notOfName_append,
        notOfName_single (n := "class".toList) (a := ⟨classIdentifier, _⟩) (SameName.refl _),
        List.append_nil]
    · rw [addToAttribute_first (n := classIdentifier) ascii_class h1 h2, List.append_cons,
        notOfName_append, notOfName_append, List.append_cons, notOfName_append, notOfName_append,
        notOfName_single h2]
      congr 2
      exact notOfName_single h2
  · intro h
    exact ⟨_, _, hadd.2.1 h, rfl, rfl, rfl⟩
  · intro pre a post has h1 h2
    obtain ⟨w, h3, h4⟩ := hadd.2.2 pre a post has h1 h2
    refine ⟨w, h3, h4.trans ?_⟩
    cases a.value with
    | none => rfl
    | some old => exact List.append_assoc old.str [' '] x.str

example : (AttrOp.addClass (name "new")).apply [attr "id" "i", attr "class" "a  b"] =
    [attr "id" "i", attr "class" "a  b new"] := by decide

/-- C13. After `remove_class` the class is absent; any other class is there exactly if it was
before; attributes other than class attributes carrying the class are untouched and in order; if
the class was absent nothing changes. The last part is exact: it also fixes the order of what remains,
the single spaces between the classes left, and that a class attribute without classes left goes. -/
theorem C13_remove_class (as : Attributes) (x : Identifier) (hx : ValidIdent x.str) :
    let bs := (AttrOp.removeClass x).apply as
    ¬ HasClass x.str bs ∧
    (∀ c, ¬ SameName c x.str → (HasClass c bs ↔ HasClass c as)) ∧
    notOfName "class".toList bs = notOfName "class".toList as ∧
    (∀ a ∈ as, ¬ CarriesClass x.str a → a ∈ bs) ∧
    (¬ HasClass x.str as → bs = as) ∧
    WithoutClass x.str as bs := by
  intro bs
  have h := hasClass_removeClass (as := as) hx.ascii
  have heq : bs = as.filterMap fun a => a.removeClass x.str := attributes_removeClass_eq hx.ascii
  refine ⟨fun hc => ((h _).1 hc).2 (SameName.refl _), ?_, ?_, ?_, ?_,
    withoutClass_removeClass hx.ascii⟩
  · intro c hc
    have : HasClass c bs ↔ _ := h c
    rw [this]
    exact and_iff_left fun h => hc h.symm
  · rw [heq]
    clear heq h bs
    induction as with
    | nil => rfl
    | cons a as ih =>
      rw [List.filterMap_cons]
      rcases attribute_removeClass (a := a) hx.ascii with ⟨_, h2⟩ | ⟨h1, v, hv, ⟨h2, _⟩ | ⟨v', h2, _⟩⟩
      · rw [h2]
        simp only
        rw [← List.singleton_append, notOfName_append, ih, ← notOfName_append]
        rfl
      · rw [h2]
        simp only
        rw [ih, ← List.singleton_append, notOfName_append, notOfName_single h1.1]
        rfl
      · rw [h2]
        simp only
        rw [← List.singleton_append, notOfName_append, ih,
          notOfName_single (a := ⟨a.name, some v'⟩) h1.1,
          ← List.singleton_append (l := as), notOfName_append, notOfName_single h1.1]
  · rw [heq]
    intro a ha hc
    rw [List.mem_filterMap]
    rcases attribute_removeClass (a := a) hx.ascii with ⟨_, h2⟩ | ⟨h1, _⟩
    · exact ⟨a, ha, h2⟩
    · exact absurd h1 hc
  · intro hc
    change Attributes.removeClass as x = as
    unfold Attributes.removeClass
    rw [if_neg]
    rwa [attributes_hasClass_iff hx.ascii]

example : (AttrOp.removeClass (name "b")).apply
    [attr "class" " a B  c", attr "id" "b", attr "CLASS" "b", attr "class" "d\te"] =
    [attr "class" "a c", attr "id" "b", attr "class" "d\te"] := by decide

/-- C14. After `set_id` exactly the id selectors equal to the id ignoring case match; after
`remove_id` none does. The element may be of any kind. The last parts are exact: the old ids go, the
new one is a new attribute at the end. -/
theorem C14_set_and_remove_id (as : Attributes) (x : Identifier) :
    (∀ (y : Identifier) e, ValidIdent y.str → e.attributes = some ((AttrOp.setId x).apply as) →
      ((Selector.id y).matches e = true ↔ SameName x.str y.str)) ∧
    (∀ (y : Identifier) e, ValidIdent y.str → e.attributes = some (AttrOp.removeId.apply as) →
      (Selector.id y).matches e = false) ∧
    (∀ y, HasId y ((AttrOp.setId x).apply as) ↔ SameName x.str y) ∧
    (∀ y, ¬ HasId y (AttrOp.removeId.apply as)) ∧
    notOfName "id".toList ((AttrOp.setId x).apply as) = notOfName "id".toList as ∧
    AttrOp.removeId.apply as = notOfName "id".toList as ∧
    ∃ a v, (AttrOp.setId x).apply as = notOfName "id".toList as ++ [a] ∧ a.name.str = "id".toList ∧
      a.value = some v ∧ v.str = x.str := by
  have hid : ValidIdent idIdentifier.str := validate_iff.1 rfl
  have hidn : idIdentifier.str = "id".toList := rfl
  have hset := C08_set_attribute as idIdentifier (some x.intoValue) hid
  have hrem := C09_remove_attribute as idIdentifier hid
  have h1 : ∀ y, HasId y ((AttrOp.setId x).apply as) ↔ SameName x.str y := by
    intro y
    change HasId y ((AttrOp.setAttribute idIdentifier (some x.intoValue)).apply as) ↔ _
    rw [hset.1]
    unfold HasId
    constructor
    · rintro ⟨a, ha, hn, v, hv, hvy⟩
      rcases List.mem_append.1 ha with ha | ha
      · simp only [notOfName, List.mem_filter, decide_eq_true_eq] at ha
        exact absurd hn ha.2
      · rw [List.mem_singleton] at ha
        subst ha
        cases hv
        exact hvy
    · intro h
      exact ⟨_, List.mem_append_right _ (List.mem_singleton_self _), SameName.refl _, _, rfl, h⟩
  have h2 : ∀ y, ¬ HasId y (AttrOp.removeId.apply as) := by
    rintro y ⟨a, ha, hn, -⟩
    exact hrem.2.1 a ha hn
  have hsel : ∀ (y : Identifier) (e : Event) l, ValidIdent y.str → e.attributes = some l →
      ((Selector.id y).matches e = true ↔ HasId y.str l) := by
    intro c e l hc he
    rw [← attributes_hasId_iff hc.ascii]
    simp [Selector.matches, he]
  refine ⟨?_, ?_, h1, h2, hset.2.2.2.1, hrem.1, _, _, hset.1, rfl, rfl, rfl⟩
  · intro y e hy he
    rw [hsel _ _ _ hy he, h1]
  · intro y e hy he
    rw [Bool.eq_false_iff, ne_eq, hsel _ _ _ hy he]
    exact h2 _

example : (AttrOp.setId (name "n")).apply [attr "ID" "x", attr "a" "b"] =
    [attr "a" "b", ⟨idIdentifier, some (.static "n".toList)⟩] := by decide

end Fuser
