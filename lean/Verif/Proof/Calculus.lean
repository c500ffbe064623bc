import Verif.Spec.Calculus
import Verif.Proof.Laws
import Verif.Proof.Copies
import Verif.Proof.Agree

/-!
# The calculus of calls is sound
-/

namespace Fuser
open Spec

theorem grow_noErrors {rs : List (Except StreamError Event)} (h : ∀ e, .error e ∉ rs) :
    (∃ es, (grow rs).1.events = .ok es) ∧ ∀ x ∈ (grow rs).2, ∃ es, x.2.events = .ok es := by
  induction rs with
  | nil => exact ⟨⟨[], rfl⟩, by simp [grow]⟩
  | cons r rs ih =>
    obtain ⟨⟨es, h1⟩, h2⟩ := ih fun e he => h e (List.mem_cons_of_mem _ he)
    cases r with
    | error e => exact absurd List.mem_cons_self (h e)
    | ok e =>
      generalize hg : grow rs = g at h1 h2
      obtain ⟨f, st⟩ := g
      have leaf : ∀ e, ∃ es', (Forest.leaf e f).events = .ok es' := fun e =>
        ⟨e :: es, by simp only [Forest.events, h1]; rfl⟩
      cases e with
      | noop => simp only [grow, hg]; exact ⟨⟨es, h1⟩, h2⟩
      | closingTag c =>
        simp only [grow, hg]
        refine ⟨⟨[], rfl⟩, fun x hx => ?_⟩
        rcases List.mem_cons.1 hx with rfl | hx
        · exact ⟨es, h1⟩
        · exact h2 x hx
      | openingTag t as =>
        cases st with
        | nil =>
          simp only [grow, hg]
          exact ⟨⟨_, by simp only [Forest.events, h1]; rfl⟩, by simp⟩
        | cons y st =>
          obtain ⟨c, r⟩ := y
          obtain ⟨es', h3⟩ := h2 (c, r) List.mem_cons_self
          simp only [grow, hg]
          exact ⟨⟨_, by simp only [Forest.events, h1, h3]; rfl⟩,
            fun x hx => h2 x (List.mem_cons_of_mem _ hx)⟩
      | _ => simp only [grow, hg]; exact ⟨leaf _, h2⟩

theorem removed_noErrors {c : Content} (h : NoErrors c) : removed (tree (results c)) = .nil := by
  obtain ⟨⟨es, h⟩, -⟩ := grow_noErrors h
  unfold removed tree
  rw [h]

theorem removed_removed (f : Forest) : removed (removed f) = removed f := by
  unfold removed
  cases f.events <;> rfl

theorem removed_cases (f : Forest) : removed f = .nil ∨ ∃ e, removed f = .fail e := by
  unfold removed
  cases f.events with
  | ok es => exact .inl rfl
  | error e => exact .inr ⟨e, rfl⟩

theorem events_onAttributes (op : Attributes → Attributes) (f : Forest) :
    removed (onAttributes op f) = removed f := by
  cases f with
  | nil => rfl
  | fail e => rfl
  | leaf e rest =>
    cases e <;> simp only [onAttributes, removed, Forest.events] <;> cases rest.events <;> rfl
  | elem t as c k rest =>
    simp only [onAttributes, removed, Forest.events]
    cases c.events <;> cases rest.events <;> rfl

theorem onAttributes_twice (g g' : Attributes → Attributes) (f : Forest) :
    onAttributes g (onAttributes g' f) = onAttributes (fun as => g (g' as)) f := by
  cases f with
  | leaf e rest => cases e <;> rfl
  | _ => rfl

theorem onAttributes_onChildren (g : Attributes → Attributes) (b : Forest → Forest) (f : Forest) :
    onAttributes g (onChildren b f) = onChildren b (onAttributes g f) := by
  cases f with
  | leaf e rest => cases e <;> rfl
  | _ => rfl

theorem onChildren_twice (b c : Forest → Forest) (f : Forest) :
    onChildren c (onChildren b f) = onChildren (fun f => c (b f)) f := by
  cases f with
  | leaf e rest => cases e <;> rfl
  | _ => rfl

theorem selectTree_id {s : Selector} (hs : OnlyStarts s) (direct : Bool) (f : Forest) :
    ∀ level n, (selectTree s direct (fun _ f => f) level n f).1 = f := by
  induction f with
  | nil => intros; rfl
  | fail => intros; rfl
  | leaf e rest ih =>
    intro level n
    simp only [selectTree]
    split
    · next h =>
      have hm : s.matches e = true := by
        rw [Bool.and_eq_true] at h; exact h.2
      simp only [single, hs e hm, if_true, Forest.append, ih]
    · simp only [ih]
  | elem t as c k rest ih1 ih2 =>
    intro level n
    simp only [selectTree, onlyStarts_closing hs, Bool.and_false, Bool.false_eq_true, if_false]
    split
    · simp only [Forest.append, ih2]
    · simp only [ih1, ih2]

theorem selectOnceTree_id {s : Selector} (hs : OnlyStarts s) (direct : Bool) (f : Forest) :
    ∀ level, (selectOnceTree s direct (fun f => f) level f).1 = f := by
  induction f with
  | nil => intros; rfl
  | fail => intros; rfl
  | leaf e rest ih =>
    intro level
    simp only [selectOnceTree]
    split
    · next h =>
      have hm : s.matches e = true := by
        rw [Bool.and_eq_true] at h; exact h.2
      simp only [single, hs e hm, if_true, Forest.append]
    · simp only [ih]
  | elem t as c k rest ih1 ih2 =>
    intro level
    simp only [selectOnceTree, onlyStarts_closing hs, Bool.and_false, Bool.false_eq_true, if_false]
    split
    · simp only [Forest.append]
    · split
      · simp only [ih1]
      · simp only [ih1, ih2]

theorem notOfName_same {n m : Str} (h : SameName n m) (as : Attributes) :
    notOfName n as = notOfName m as := by
  unfold notOfName
  congr 1
  funext a
  have : Named n a ↔ Named m a := ⟨fun k => k.trans h, fun k => k.trans h.symm⟩
  simp [this]

theorem notOfName_over {op : AttrOp} (h : ValidCall op) {n : Str} (hn : SameName n (aboutName op))
    (as : Attributes) : notOfName n (op.apply as) = notOfName n as := by
  rw [notOfName_same hn, notOfName_apply op h, ← notOfName_same hn]

theorem removeClass_twice {c d : Identifier} (hc : ValidIdent c.str) (hd : ValidIdent d.str)
    (h : SameName c.str d.str) (as : Attributes) :
    (AttrOp.removeClass d).apply ((AttrOp.removeClass c).apply as) =
      (AttrOp.removeClass c).apply as := by
  refine (C13_remove_class _ d hd).2.2.2.2.1 ?_
  rintro ⟨a, ha, hn, v, hv, w, hw, hs⟩
  exact (C13_remove_class as c hc).1 ⟨a, ha, hn, v, hv, w, hw, hs.trans h.symm⟩

theorem not_named_notOfName {n : Str} {as : Attributes} : ∀ a ∈ notOfName n as, ¬ Named n a := by
  intro a ha
  simpa [notOfName] using (List.mem_filter.1 ha).2

theorem notOfName_comm (n m : Str) (as : Attributes) :
    notOfName n (notOfName m as) = notOfName m (notOfName n as) := by
  unfold notOfName
  rw [List.filter_filter, List.filter_filter]
  congr 1
  funext a
  exact Bool.and_comm _ _

theorem notOfName_other {n : Str} {a : Attribute} (h : ¬ Named n a) : notOfName n [a] = [a] := by
  simp [notOfName, h]

theorem remove_other {n : Identifier} {op : AttrOp} (h : ValidCall op) (hn : ValidIdent n.str)
    (hne : ¬ SameName n.str (aboutName op)) (as : Attributes) :
    (AttrOp.removeAttribute n).apply (op.apply as) =
      op.apply ((AttrOp.removeAttribute n).apply as) := by
  rw [removeAttribute_eq _ hn.ascii, removeAttribute_eq _ hn.ascii]
  have other : ∀ {m : Identifier} {v}, ¬ SameName n.str m.str → ¬ Named n.str ⟨m, v⟩ :=
    fun h k => h k.symm
  have named : ∀ {m : Str}, ¬ SameName n.str m → ∀ {a}, Named m a → ¬ Named n.str a :=
    fun h _ k k' => h (k'.symm.trans k)
  have set : ∀ (m : Identifier) v, ValidIdent m.str → ¬ SameName n.str m.str →
      notOfName n.str ((AttrOp.setAttribute m v).apply as) =
        (AttrOp.setAttribute m v).apply (notOfName n.str as) := by
    intro m v hm hne
    rw [setAttribute_eq _ hm.ascii, setAttribute_eq _ hm.ascii, notOfName_append, notOfName_comm,
      notOfName_other (other hne)]
  cases op with
  | setAttribute m v => exact set m v h hne
  | removeAttribute m =>
    rw [removeAttribute_eq _ (ValidIdent.ascii h), removeAttribute_eq _ (ValidIdent.ascii h),
      notOfName_comm]
  | addAttribute m v =>
    rw [(C11_add_attribute as m (.static []) (.static []) h).1 v,
      (C11_add_attribute (notOfName n.str as) m (.static []) (.static []) h).1 v, notOfName_append,
      notOfName_other (other hne)]
  | replaceAttribute m v =>
    by_cases he : ∃ a ∈ as, Named m.str a
    · rw [(C10_replace_if_exists as m v h).2 he]
      obtain ⟨a, ha, hm⟩ := he
      rw [(C10_replace_if_exists (notOfName n.str as) m v h).2
        ⟨a, List.mem_filter.2 ⟨ha, by simpa using named hne hm⟩, hm⟩]
      exact set m v h hne
    · rw [(C10_replace_if_exists as m v h).1 (fun a ha hn => he ⟨a, ha, hn⟩),
        (C10_replace_if_exists (notOfName n.str as) m v h).1
          (fun a ha hn => he ⟨a, (List.mem_filter.1 ha).1, hn⟩)]
  | addToAttribute m v sep =>
    rcases named_split as m.str with he | ⟨pre, a, post, rfl, he1, he2⟩
    · rw [(C11_add_attribute as m v sep h).2.1 he,
        (C11_add_attribute (notOfName n.str as) m v sep h).2.1
          (fun a ha => he a (List.mem_filter.1 ha).1), notOfName_append, notOfName_other (other hne)]
    · have hna : ∀ w, notOfName n.str ((⟨a.name, w⟩ : Attribute) :: post) =
          ⟨a.name, w⟩ :: notOfName n.str post := by
        intro w
        rw [← List.singleton_append, notOfName_append,
          notOfName_other (a := ⟨a.name, w⟩) (named (a := ⟨a.name, w⟩) hne he2)]
        rfl
      change notOfName _ (Attributes.addToAttribute _ _ _ _) = Attributes.addToAttribute _ _ _ _
      rw [addToAttribute_first (ValidIdent.ascii h) he1 he2, notOfName_append, hna, notOfName_append,
        hna a.value, addToAttribute_first (pre := notOfName n.str pre)
          (a := ⟨a.name, a.value⟩) (ValidIdent.ascii h) (fun a ha => he1 a (List.mem_filter.1 ha).1) he2]
  | removeClass c =>
    change notOfName _ (Attributes.removeClass _ _) = Attributes.removeClass _ _
    rw [attributes_removeClass_eq (ValidIdent.ascii h), attributes_removeClass_eq (ValidIdent.ascii h)]
    clear set
    classical
    induction as with
    | nil => rfl
    | cons a as ih =>
      have hc : ∀ (b : Attribute) bs, notOfName n.str (b :: bs) =
          if SameName b.name.str n.str then notOfName n.str bs else b :: notOfName n.str bs := by
        intro b bs
        unfold notOfName
        rw [List.filter_cons]
        by_cases hb : SameName b.name.str n.str
        · simp [Named, hb]
        · simp [Named, hb]
      rw [List.filterMap_cons, hc]
      rcases attribute_removeClass (a := a) (x := c.str) (ValidIdent.ascii h) with
        ⟨-, h2⟩ | ⟨h1, v, hv, ⟨h2, -⟩ | ⟨v', h2, -⟩⟩
      · rw [h2]
        simp only [hc, ih]
        split
        · rfl
        · rw [List.filterMap_cons, h2]
      · have hna : ¬ SameName a.name.str n.str := named hne h1.1
        rw [h2, if_neg hna, List.filterMap_cons, h2]
        exact ih
      · have hna : ¬ SameName a.name.str n.str := named hne h1.1
        rw [h2, if_neg hna, List.filterMap_cons, h2]
        simp only [hc, if_neg hna, ih]

/-- The rules keep the meaning. -/
theorem sameCalls_meaning {a k : Kind} {p q : Prog a k} (h : SameCalls p q) :
    ∀ f, meaning p f = meaning q f := by
  induction h with
  | refl => intro f; rfl
  | symm _ ih => intro f; exact (ih f).symm
  | trans _ _ ih1 ih2 => intro f; exact (ih1 f).trans (ih2 f)
  | inForget _ ih => intro f; simp only [meaning, ih]
  | inApply _ _ ih1 ih2 => intro f; simp only [meaning, ih1, ih2]
  | inFallible _ ih => intro f; simp only [meaning, ih]
  | inSelect _ _ ih1 ih2 => intro f; simp only [meaning, ih1, funext (ih2 _)]
  | inSelectOnce _ _ ih1 ih2 => intro f; simp only [meaning, ih1, funext ih2]
  | inRemove _ ih => intro f; simp only [meaning, ih]
  | inPrepend _ ih => intro f; simp only [meaning, ih]
  | inAppend _ ih => intro f; simp only [meaning, ih]
  | inRepeat _ _ ih1 ih2 => intro f; simp only [meaning, ih1, funext (ih2 _)]
  | inOrElse _ _ _ ih1 ih2 ih3 => intro f; simp only [meaning, ih1, ih2, ih3]
  | inTemplate _ ih => intro f; simp only [meaning, ih]
  | inContents _ _ ih1 ih2 => intro f; simp only [meaning, ih1, funext ih2]
  | inAttr _ ih => intro f; simp only [meaning, ih]
  | bothEnds => intro f; simp only [meaning, forest_append_assoc]
  | removeTwice => intro f; simp only [meaning, removed_removed]
  | removePrepend h => intro f; simp only [meaning, removed_append, removed_noErrors h, Forest.append]
  | removeAppend h => intro f; simp only [meaning, removed_append, removed_noErrors h, append_nil]
  | removeAttr => intro f; simp only [meaning, events_onAttributes]
  | prependNothing h => intro f; simp only [meaning, h]; rfl
  | appendNothing h => intro f; simp only [meaning, h]; exact append_nil _
  | repeatNone =>
    intro f
    simp only [meaning, repeated, removed, copies]
  | elseTaken => intro f; simp only [meaning, Nat.lt_irrefl, if_false]
  | elseNotTaken => intro f; simp only [meaning, Nat.zero_lt_succ, if_true]
  | selectAlone h => intro f; simp only [meaning]; exact selectTree_id h _ _ _ _
  | selectOnceAlone h => intro f; simp only [meaning]; exact selectOnceTree_id h _ _ _
  | selectRemoved =>
    intro f
    simp only [meaning]
    rcases removed_cases (meaning _ f) with h | ⟨e, h⟩ <;> rw [h] <;> rfl
  | selectOnceRemoved =>
    intro f
    simp only [meaning]
    rcases removed_cases (meaning _ f) with h | ⟨e, h⟩ <;> rw [h] <;> rfl
  | @selectTwice _ _ _ _ _ _ b c hs hb =>
    intro f
    simp only [meaning]
    rw [(selectTree_fuse hs _ _ (fun i => meaning (c i))
      (fun i f hf => one_keeps (b i) (hb i) hf) _ 0 0).1]
  | @selectOnceTwice _ _ _ _ _ _ b c hs hb =>
    intro f
    simp only [meaning]
    rw [(selectOnceTree_fuse hs _ _ (meaning c) (fun f hf => one_keeps b hb hf) _ 0).1]
  | @selectSwap _ _ _ _ _ _ _ b c hs hr hb hc h1 h2 h3 =>
    intro f
    have eb : (fun i => meaning (b i)) = fun i => onAttributes (change (b i)) :=
      funext fun i => funext fun f => meaning_change _ (hb i) f
    have ec : (fun i => meaning (c i)) = fun i => onAttributes (change (c i)) :=
      funext fun i => funext fun f => meaning_change _ (hc i) f
    simp only [meaning]
    rw [eb, ec]
    exact (selectTree_commute hs hr _ _ _ _ h1 h2 h3 _ 0 0 0).1
  | otherSelector h =>
    intro f
    simp only [meaning]
    rw [select_ext (A := fun _ => True) (fun _ => trivial) (fun e _ => h e) (fun _ _ _ => rfl) _
      (allOf_any _)]
  | otherSelectorOnce h =>
    intro f
    simp only [meaning]
    rw [once_ext (A := fun _ => True) (fun _ => trivial) (fun e _ => h e) (fun _ _ => rfl) _
      (allOf_any _)]
  | firstMatch hs =>
    intro f
    exact (once_select hs (b := fun i => meaning (firstOnly _ i)) (fun _ _ => rfl) _ 0).1
  | removals hs hr => intro f; exact without_both hs hr _ _ 0
  | @selectCopies _ _ _ _ p n s d b c =>
    intro f
    have := copies_meaning (.selectRaw .src s d fun _ => c : Prog .gen .gen) ⟨trivial, fun _ => rfl⟩
      (fun i => meaning (b i) (meaning p f)) n (fun _ => rfl) 0
    simp only [meaning, repeated]
    cases (meaning p f).events with
    | ok es => exact this
    | error e => rfl
  | @repeatRepeat _ _ _ p n m b =>
    intro f
    have := copies_flat (fun i j => meaning (b i j) (meaning p f)) n m 0
    rw [Nat.zero_mul] at this
    simp only [meaning, repeated]
    cases (meaning p f).events with
    | ok es => exact this
    | error e => rfl
  | contentsTwice => intro f; simp only [meaning, onChildren_twice]
  | contentsAttr => intro f; simp only [meaning, onAttributes_onChildren]
  | setOver h hn hs =>
    intro f
    simp only [meaning, onAttributes_twice]
    congr 1
    funext as
    rw [setAttribute_eq _ hn.ascii, setAttribute_eq _ hn.ascii, notOfName_over h hs]
  | removeOver h hn hs =>
    intro f
    simp only [meaning, onAttributes_twice]
    congr 1
    funext as
    rw [removeAttribute_eq _ hn.ascii, removeAttribute_eq _ hn.ascii, notOfName_over h hs]
  | @replaceSet _ _ n m v w hn hm hs =>
    intro f
    simp only [meaning, onAttributes_twice]
    congr 1
    funext as
    rw [(C10_replace_if_exists _ n v hn).2 ⟨⟨m, w⟩, by rw [setAttribute_eq _ hm.ascii]; simp,
        hs.symm⟩, setAttribute_eq _ hn.ascii, setAttribute_eq _ hn.ascii,
      notOfName_over (op := .setAttribute m w) hm hs]
  | @replaceRemoved _ _ n m v hn hm hs =>
    intro f
    simp only [meaning, onAttributes_twice]
    congr 1
    funext as
    refine (C10_replace_if_exists _ n v hn).1 ?_
    rw [removeAttribute_eq _ hm.ascii, ← notOfName_same hs]
    exact not_named_notOfName
  | @addRemoved _ _ n m v hn hm hs =>
    intro f
    simp only [meaning, onAttributes_twice]
    congr 1
    funext as
    rw [(C11_add_attribute _ n (.static []) (.static []) hn).1 v, removeAttribute_eq _ hm.ascii,
      setAttribute_eq _ hn.ascii, notOfName_same hs]
  | @addToRemoved _ _ n m v sep hn hm hs =>
    intro f
    simp only [meaning, onAttributes_twice]
    congr 1
    funext as
    rw [removeAttribute_eq _ hm.ascii, ← notOfName_same hs,
      (C11_add_attribute _ n v sep hn).2.1 not_named_notOfName, setAttribute_eq _ hn.ascii]
  | removeClassTwice hc hd hs =>
    intro f
    simp only [meaning, onAttributes_twice]
    congr 1
    funext as
    exact removeClass_twice hc hd hs as
  | removeOther h hn hs =>
    intro f
    simp only [meaning, onAttributes_twice]
    congr 1
    funext as
    exact remove_other h hn hs as
  | _ => intro f; rfl

end Fuser
