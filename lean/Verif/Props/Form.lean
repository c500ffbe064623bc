import Verif.Proof.Form
import Verif.Props.Apart
import Verif.Props.Calculus

/-!
# Forms: fields that do not meet
-/

namespace Fuser

open Spec

/-- C116. The fields of a form can be filled in in any order: if no two of them meet on the page, and
none of them makes a match for another one, then every order of the selections gives the same page. -/
theorem C116_order (t : Template) (fs gs : List Field) (ht : Page t.events) (h : fs.Perm gs)
    (hf : ∀ f ∈ fs, f.Proper) (hu : fs.Pairwise (Field.Unlike t.events)) :
    ∃ u, t.transform (fillForm .src fs) = some (.ok u) ∧
      t.transform (fillForm .src gs) = some (.ok u) := by
  have hw := (treeOf_spec ht).1
  have hd : Sound (treeOf t.events) := sound_iff.2 ⟨_, treeOf_events ht⟩
  have hp : fs.Pairwise (Lone (treeOf t.events)) :=
    hu.imp_of_mem fun h1 h2 hl => lone_of (hf _ h1) (hf _ h2) hl ht
  obtain ⟨m, hm⟩ := sound_iff.1 (steps_ok hf _ hw hd).2
  refine ⟨⟨m⟩, ?_, ?_⟩
  · rw [transform_eq _ (form_src hf) t ht, meaning_form]
    exact congrArg (fun o : Outcome => some (o.map Template.mk)) hm
  · rw [transform_eq _ (form_src fun g hg => hf g (h.mem_iff.2 hg)) t ht, meaning_form,
      meaning, ← steps_perm h hf _ hw hd hp]
    exact congrArg (fun o : Outcome => some (o.map Template.mk)) hm

/-- C116. Filling in a form again changes nothing, in whatever order: if in addition the calls leave
their elements selected, and give the same when they get their result again, then the page with the
form filled in stays as it is. -/
theorem C116_again (t : Template) (fs gs : List Field) (ht : Page t.events) (h : fs.Perm gs)
    (hf : ∀ f ∈ fs, f.Proper) (hu : fs.Pairwise (Field.Unlike t.events))
    (hk : ∀ f ∈ fs, ∀ i, StaysSelected f.selector (f.call i) ∧ Rests (f.call i)) :
    ∃ u, t.transform (fillForm .src fs) = some (.ok u) ∧
      u.transform (fillForm .src gs) = some (.ok u) := by
  have hw := (treeOf_spec ht).1
  have hd : Sound (treeOf t.events) := sound_iff.2 ⟨_, treeOf_events ht⟩
  have hp : fs.Pairwise (Lone (treeOf t.events)) :=
    hu.imp_of_mem fun h1 h2 hl => lone_of (hf _ h1) (hf _ h2) hl ht
  have hg : ∀ g ∈ gs, g.Proper := fun g hg => hf g (h.mem_iff.2 hg)
  obtain ⟨hw', hd'⟩ := steps_ok hf _ hw hd
  obtain ⟨m, hm⟩ := sound_iff.1 hd'
  refine ⟨⟨m⟩, ?_, ?_⟩
  · rw [transform_eq _ (form_src hf) t ht, meaning_form]
    exact congrArg (fun o : Outcome => some (o.map Template.mk)) hm
  · rw [transform_eq _ (form_src hg) ⟨m⟩ (wf_page hw' hm), meaning_form, meaning,
      treeOf_of_events hw' hm, steps_perm h hf _ hw hd hp,
      steps_again hg (fun g hg => hk g (h.mem_iff.2 hg)) _ hw hd
        ((h.pairwise_iff fun hl => lone_symm hl).1 hp), ← steps_perm h hf _ hw hd hp]
    exact congrArg (fun o : Outcome => some (o.map Template.mk)) hm

/-- C116. Selections of the first match are such fields too: `select_once` is `select` with a builder
that leaves the other matches alone, and likewise for `select_direct_once`. -/
theorem C116_once {k : Kind} (t : Template) (p : Prog .gen k) (s : Selector) (b : Prog .elem .gen)
    (ht : Page t.events) (hp : WellNested p) (hs : OnlyStarts s) (hb : WellNested b) :
    t.transform (p.selectOnce (.ok s) b) = t.transform (p.select (.ok s) (firstOnly b)) ∧
    t.transform (p.selectDirectOnce (.ok s) b) =
      t.transform (p.selectDirect (.ok s) (firstOnly b)) := by
  have hn : ∀ i, WellNested (firstOnly b i) := by
    intro i
    unfold firstOnly
    split
    · exact hb
    · trivial
  constructor <;>
    rw [transform_eq _ (by exact ⟨hp, hb⟩) t ht, transform_eq _ (by exact ⟨hp, hn⟩) t ht] <;>
    exact congrArg (fun f : Forest => some (f.events.map Template.mk))
      (sameCalls_meaning (SameCalls.firstMatch hs) _)

/-- C116: the two selections on a page. -/
example : shown (apartPage.transform (Prog.selectOnce .src (.ok (.tag li))
      (.forget (Prog.replaceContents .src (text "a"))))) = some "<li>a</li><br><li></li>".toList ∧
    (∀ i, Filling (firstOnly (.forget (Prog.replaceContents .src (text "a"))) i)) := by
  have hf : Filling (.forget (Prog.replaceContents .src (text "a"))) :=
    .contents trivial (text_noErrors "a") (text_page _)
  refine ⟨?_, fun i => ?_⟩
  · rw [(C116_once apartPage (.src : Prog .gen .gen) (.tag li) _ apartPage_page trivial (tag_starts _)
      (filling_ok hf).1).1, transform_eq _ (by
        exact ⟨trivial, fun i => by cases i <;> first | exact (filling_ok hf).1 | trivial⟩) _
        apartPage_page]
    decide +kernel
  · unfold firstOnly
    split
    · exact hf
    · exact .tag trivial

/-- C116. Calls that set or remove attributes, and replace the contents or leave them alone, are such
calls: they never fail, and give the same when they get their result again. -/
theorem C116_filling {p : Prog .elem .gen} (h : Filling p) :
    WellNested p ∧ NeverFails p ∧ Rests p := filling_ok h

/-- A form for the examples: the items get an id and their texts, the line breaks an id. -/
def itemField : Field :=
  ⟨.tag li, false, fun i => .forget ((Prog.setId .src (.ok (owned ['y']))).replaceContents (lettered i))⟩

@[inherit_doc itemField] def breakField : Field :=
  ⟨.tag lineBreak, true, fun _ => .forget (Prog.setId .src (.ok (owned ['z'])))⟩

theorem setId_sets (x : Identifier) : SetsAndRemoves (Prog.setId .src (.ok x) : Prog .elem .elem) :=
  ⟨trivial, validate_iff.1 rfl⟩

theorem itemField_filling (i : Nat) : Filling (itemField.call i) := by
  refine .contents (setId_sets _) (fun e h => ?_) (lettered_page i)
  simp [lettered, text, results] at h

theorem breakField_filling (i : Nat) : Filling (breakField.call i) := .tag (setId_sets _)

theorem form_proper : ∀ f ∈ [itemField, breakField], f.Proper := by
  intro f hf
  rcases List.mem_cons.1 hf with rfl | hf
  · exact ⟨tag_starts _, tag_slash _, fun i => (filling_ok (itemField_filling i)).1,
      fun i => (filling_ok (itemField_filling i)).2.1⟩
  · cases List.mem_singleton.1 hf
    exact ⟨tag_starts _, tag_slash _, fun i => (filling_ok (breakField_filling i)).1,
      fun i => (filling_ok (breakField_filling i)).2.1⟩

theorem form_unlike : [itemField, breakField].Pairwise (Field.Unlike apartPage.events) := by
  have key : ∀ n op, MakesNone (.tag n) (.attr .src op : Prog .elem .elem) :=
    fun n op => ⟨trivial, fun t as => ⟨fun h => h, fun h => h, fun h => h⟩⟩
  refine List.pairwise_cons.2 ⟨fun g hg => ?_, List.pairwise_singleton _ _⟩
  cases List.mem_singleton.1 hg
  refine ⟨apartPage_apart, fun i => ⟨key _ _, trivial, fun e he => ?_⟩, fun i => key _ _⟩
  cases List.mem_singleton.1 he
  rfl

theorem form_stays : ∀ f ∈ [itemField, breakField], ∀ i,
    StaysSelected f.selector (f.call i) ∧ Rests (f.call i) := by
  have key : ∀ n op, StaysSelected (.tag n) (.attr .src op : Prog .elem .elem) := by
    refine fun n op => ⟨trivial, fun e h => ?_⟩
    cases e <;> exact h
  intro f hf i
  rcases List.mem_cons.1 hf with rfl | hf
  · exact ⟨⟨key _ _, fun t as h => h⟩, (filling_ok (itemField_filling i)).2.2⟩
  · cases List.mem_singleton.1 hf
    exact ⟨key _ _, (filling_ok (breakField_filling i)).2.2⟩

/-- C116: the form on a page, in both orders and again. -/
example : (∃ u, apartPage.transform (fillForm .src [itemField, breakField]) = some (.ok u) ∧
      apartPage.transform (fillForm .src [breakField, itemField]) = some (.ok u)) ∧
    (∃ u, apartPage.transform (fillForm .src [itemField, breakField]) = some (.ok u) ∧
      u.transform (fillForm .src [breakField, itemField]) = some (.ok u)) ∧
    shown (apartPage.transform (fillForm .src [itemField, breakField])) =
      some "<li id=\"y\">a</li><br id=\"z\"><li id=\"y\">b</li>".toList := by
  refine ⟨C116_order _ _ _ apartPage_page (.swap _ _ _) form_proper form_unlike,
    C116_again _ _ _ apartPage_page (.swap _ _ _) form_proper form_unlike form_stays, ?_⟩
  rw [transform_eq _ (form_src form_proper) _ apartPage_page]
  decide +kernel

/-- A class, and an item in an item, both with the class. -/
def nestedItems : Template :=
  ⟨[.openingTag li [⟨owned "class".toList, some (.actual ['a'])⟩],
    .openingTag li [⟨owned "class".toList, some (.actual ['a'])⟩], .closingTag li, .closingTag li]⟩

/-- C116, a limit: if a call takes away what its element is selected by, then filling in again can
change more, also with one field alone and calls that only set or remove attributes. -/
theorem C116_unselected_seen : ∃ (t : Template) (f : Field), Page t.events ∧ f.Proper ∧
    (∀ i, Filling (f.call i)) ∧
    shown (t.transform (fillForm .src [f])) = some "<li><li class=\"a\"></li></li>".toList ∧
    shown (t.transform (fillForm .src [f, f])) = some "<li><li></li></li>".toList := by
  have hp : Page nestedItems.events := parsed_page
    (s := "<li class=\"a\"><li class=\"a\"></li></li>".toList) (o := {}) rfl
  have hg : ∀ i : Nat, Filling ((fun _ => .forget (.attr .src (.removeAttribute
      (owned "class".toList)))) i) := fun _ => .tag ⟨trivial, validate_iff.1 rfl⟩
  have hf : Field.Proper ⟨.class (owned ['a']), false, fun _ => .forget (.attr .src (.removeAttribute
      (owned "class".toList)))⟩ :=
    ⟨(fun e h => by cases e <;> first | rfl | cases h), fun _ _ => rfl,
      fun i => (filling_ok (hg i)).1, fun i => (filling_ok (hg i)).2.1⟩
  refine ⟨nestedItems, _, hp, hf, hg, ?_, ?_⟩
  · rw [transform_eq _ (form_src fun g hg => by
      simp only [List.mem_cons, List.not_mem_nil, or_false, or_self] at hg; exact hg ▸ hf) _ hp]
    decide +kernel
  · rw [transform_eq _ (form_src fun g hg => by
      simp only [List.mem_cons, List.not_mem_nil, or_false, or_self] at hg; exact hg ▸ hf) _ hp]
    decide +kernel

/-- C116, a limit: calls that add something add it again. -/
example : shown (apartPage.transform (fillForm .src [⟨.tag li, false,
      fun i => .forget (Prog.appendContents .src (lettered i))⟩])) =
      some "<li>a</li><br><li>b</li>".toList ∧
    shown (apartPage.transform (fillForm .src [⟨.tag li, false,
        fun i => .forget (Prog.appendContents .src (lettered i))⟩, ⟨.tag li, false,
        fun i => .forget (Prog.appendContents .src (lettered i))⟩])) =
      some "<li>aa</li><br><li>bb</li>".toList := by
  have hw : ∀ i, WellNested (.forget (Prog.appendContents .src (lettered i)) : Prog .elem .gen) :=
    fun i => ⟨trivial, trivial, lettered_page i⟩
  constructor
  · rw [transform_eq _ (by exact ⟨trivial, hw⟩) _ apartPage_page]
    decide +kernel
  · rw [transform_eq _ (by exact ⟨⟨trivial, hw⟩, hw⟩) _ apartPage_page]
    decide +kernel

end Fuser
