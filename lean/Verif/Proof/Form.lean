import Verif.Spec.Form
import Verif.Proof.Calculus

/-!
# Forms
-/

namespace Fuser

open Spec

/-! ## Selections of elements -/

theorem one_events {s : Selector} {f : Forest} (hw : f.WF) (hd : Sound f) (h : One s f) :
    ∃ m, f.events = .ok m ∧ Element m := by
  cases h with
  | @leaf e he hm => exact ⟨[e], rfl, leaf_element hw.1 he⟩
  | @elem t as g c hm =>
    obtain ⟨m, h1⟩ := sound_iff.1 hd.1
    exact ⟨.openingTag t as :: (m ++ [.closingTag c]), by rw [events_elem, h1]; rfl,
      .pair hw.1 (wf_balanced hw.2.2.1 h1).1⟩

theorem select_sound {s : Selector} (hs : OnlyStarts s) {b : Nat → Forest → Forest}
    (hb : ∀ i f, f.WF → Sound f → One s f → Sound (b i f)) {d : Bool} (f : Forest) (hf : f.WF)
    (hd : Sound f) : ∀ l n, Sound (selectTree s d b l n f).1 := by
  induction f with
  | nil => exact fun _ _ => trivial
  | fail e => exact hd.elim
  | leaf e rest ih =>
    intro l n
    rw [select_leaf hs]
    split
    · next h =>
      have hm := (Bool.and_eq_true _ _ ▸ h).2
      exact sound_append.2 ⟨hb _ _ ⟨hf.1, hf.2.1, hf.2.2.1, trivial⟩ trivial (.leaf (hs _ hm) hm),
        ih hf.2.2.2 hd _ _⟩
    · exact ih hf.2.2.2 hd _ _
  | elem t as f c rest ihf ihr =>
    intro l n
    rw [select_elem hs]
    split
    · next h =>
      have hm := (Bool.and_eq_true _ _ ▸ h).2
      exact sound_append.2 ⟨hb _ _ ⟨hf.1, hf.2.1, hf.2.2.1, trivial⟩ ⟨hd.1, trivial⟩ (.elem hm),
        ihr hf.2.2.2 hd.2 _ _⟩
    · exact ⟨ihf hf.2.2.1 hd.1 _ _, ihr hf.2.2.2 hd.2 _ _⟩

theorem select_same {s : Selector} (hs : OnlyStarts s) {b b' : Nat → Forest → Forest}
    (hb : ∀ i f, f.WF → Sound f → One s f → b i f = b' i f) {d : Bool} (f : Forest) (hf : f.WF)
    (hd : Sound f) : ∀ l n, selectTree s d b l n f = selectTree s d b' l n f := by
  induction f with
  | nil => exact fun _ _ => rfl
  | fail e => exact hd.elim
  | leaf e rest ih =>
    intro l n
    rw [select_leaf hs, select_leaf hs]
    split
    · next h =>
      have hm := (Bool.and_eq_true _ _ ▸ h).2
      rw [hb n (.leaf e .nil) ⟨hf.1, hf.2.1, hf.2.2.1, trivial⟩ trivial (.leaf (hs _ hm) hm),
        ih hf.2.2.2 hd]
    · rw [ih hf.2.2.2 hd]
  | elem t as f c rest ihf ihr =>
    intro l n
    rw [select_elem hs, select_elem hs]
    split
    · next h =>
      have hm := (Bool.and_eq_true _ _ ▸ h).2
      rw [hb n (.elem t as f c .nil) ⟨hf.1, hf.2.1, hf.2.2.1, trivial⟩ ⟨hd.1, trivial⟩ (.elem hm),
        ihr hf.2.2.2 hd.2]
    · rw [ihf hf.2.2.1 hd.1, ihr hf.2.2.2 hd.2]

/-! ## Fields that do not meet stay so -/

theorem mute_apart {s r : Selector} {f : Forest} (h : Mute s f) : TreeApart s r f := by
  induction f with
  | nil => trivial
  | fail e => trivial
  | leaf e rest ih => exact ⟨(fun hm => by rw [h.1] at hm; cases hm.1), ih h.2⟩
  | elem t as f c rest ihf ihr =>
    exact ⟨(fun hm => by rw [h.1] at hm; cases hm), fun _ => ⟨h.1, h.2.1⟩, ihf h.2.1, ihr h.2.2⟩

theorem apart_append {s r : Selector} {f g : Forest} (hf : TreeApart s r f) (hg : TreeApart s r g) :
    TreeApart s r (f.append g) := by
  induction f with
  | nil => exact hg
  | fail e => trivial
  | leaf e rest ih => exact ⟨hf.1, ih hf.2⟩
  | elem t as f c rest _ ih => exact ⟨hf.1, hf.2.1, hf.2.2.1, ih hf.2.2.2⟩

theorem apart_symm {s r : Selector} {f : Forest} (h : TreeApart s r f) : TreeApart r s f := by
  induction f with
  | nil => trivial
  | fail e => trivial
  | leaf e rest ih => exact ⟨fun hm => h.1 ⟨hm.2, hm.1⟩, ih h.2⟩
  | elem t as f c rest ihf ihr => exact ⟨h.2.1, h.1, ihf h.2.2.1, ihr h.2.2.2⟩

theorem select_apart {s r q : Selector} (hs : OnlyStarts s) (hr : OnlyStarts r)
    {b : Nat → Forest → Forest} (hb : ∀ i f, Mute r f → Mute r (b i f)) {d : Bool} (f : Forest)
    (h : TreeApart s r f) (hq : TreeApart r q f) :
    ∀ l n, TreeApart r q (selectTree s d b l n f).1 := by
  induction f with
  | nil => exact fun _ _ => trivial
  | fail e => exact fun _ _ => trivial
  | leaf e rest ih =>
    intro l n
    rw [select_leaf hs]
    split
    · next hm =>
      have hm := (Bool.and_eq_true _ _ ▸ hm).2
      refine apart_append (mute_apart (hb _ _ ⟨?_, trivial⟩)) (ih h.2 hq.2 _ _)
      exact Bool.eq_false_iff.2 fun h' => h.1 ⟨hm, h'⟩
    · exact ⟨hq.1, ih h.2 hq.2 _ _⟩
  | elem t as f c rest ihf ihr =>
    intro l n
    rw [select_elem hs]
    split
    · next hm =>
      have hm := (Bool.and_eq_true _ _ ▸ hm).2
      exact apart_append (mute_apart (hb _ _ ⟨(h.1 hm).1, (h.1 hm).2, trivial⟩))
        (ihr h.2.2.2 hq.2.2.2 _ _)
    · refine ⟨fun hm => ?_, fun hm => ⟨(hq.2.1 hm).1, mute_select hr hb _ (hq.2.1 hm).2 _ _⟩,
        ihf h.2.2.1 hq.2.2.1 _ _, ihr h.2.2.2 hq.2.2.2 _ _⟩
      rw [select_mute hs (h.2.1 hm).2]
      exact hq.1 hm

/-! ## Forms on forests -/

/-- What a field does. -/
def Spec.Field.step (f : Field) (x : Forest) : Forest :=
  (selectTree f.selector f.direct (fun i => meaning (f.call i)) 0 0 x).1

/-- What the fields do, one after the other. -/
def steps : List Field → Forest → Forest
  | [], x => x
  | f :: fs, x => steps fs (f.step x)

theorem meaning_form (fs : List Field) : ∀ (p : Prog .gen .gen) (x : Forest),
    meaning (fillForm p fs) x = steps fs (meaning p x) := by
  induction fs with
  | nil => exact fun _ _ => rfl
  | cons f fs ih =>
    obtain ⟨s, d, b⟩ := f
    cases d <;> exact fun p x => ih _ x

theorem form_nested {fs : List Field} (hfs : ∀ f ∈ fs, f.Proper) : ∀ {p : Prog .gen .gen},
    WellNested p → WellNested (fillForm p fs) := by
  induction fs with
  | nil => exact fun h => h
  | cons f fs ih =>
    have hn := (hfs f List.mem_cons_self).nested
    intro p h
    refine ih (fun g hg => hfs g (List.mem_cons_of_mem _ hg)) ?_
    split <;> exact ⟨h, hn⟩

theorem form_src {fs : List Field} (hfs : ∀ f ∈ fs, f.Proper) : WellNested (fillForm .src fs) :=
  form_nested hfs trivial

/-- Two fields on a forest. -/
structure Lone (x : Forest) (f g : Field) : Prop where
  apart : TreeApart f.selector g.selector x
  left : ∀ i y, Mute g.selector y → Mute g.selector (meaning (f.call i) y)
  right : ∀ i y, Mute f.selector y → Mute f.selector (meaning (g.call i) y)

theorem lone_symm {x : Forest} {f g : Field} (h : Lone x f g) : Lone x g f :=
  ⟨apart_symm h.apart, h.right, h.left⟩

theorem step_wf {f : Field} (hf : f.Proper) {x : Forest} (h : x.WF) : (f.step x).WF :=
  (meaning_ok (.selectRaw .src f.selector f.direct f.call : Prog .gen .gen)
    (by exact ⟨trivial, hf.nested⟩) x trivial h).2

theorem never_sound {k : Kind} {p : Prog .elem k} (hp : WellNested p) (h : NeverFails p)
    {s : Selector} {f : Forest} (hw : f.WF) (hd : Sound f) (ho : One s f) :
    Sound (meaning p f) := by
  obtain ⟨m, h1, h2⟩ := one_events hw hd ho
  obtain ⟨m', h3⟩ := h m h2 (wf_page hw h1)
  rw [run_meaning p hp (wf_page hw h1) h2, treeOf_of_events hw h1] at h3
  exact sound_iff.2 ⟨m', Option.some.inj h3⟩

theorem step_sound {f : Field} (hf : f.Proper) {x : Forest} (h : x.WF) (hd : Sound x) :
    Sound (f.step x) :=
  select_sound hf.starts (fun i _ hw hd ho => never_sound (hf.nested i) (hf.never i) hw hd ho) x h hd
    0 0

theorem same_forest {x y : Forest} (hx : x.WF) (hy : y.WF) (hd : Sound x)
    (h : x.events = y.events) : x = y := by
  obtain ⟨m, hm⟩ := sound_iff.1 hd
  rw [← treeOf_of_events hx hm, ← treeOf_of_events hy (h ▸ hm)]

theorem step_swap {f g : Field} (hf : f.Proper) (hg : g.Proper) {x : Forest} (hx : x.WF)
    (hd : Sound x) (h : Lone x f g) : g.step (f.step x) = f.step (g.step x) :=
  same_forest (step_wf hg (step_wf hf hx)) (step_wf hf (step_wf hg hx))
    (step_sound hg (step_wf hf hx) (step_sound hf hx hd))
    (select_swap hf.starts hg.starts h.left h.right x h.apart 0 0 0).1

theorem step_lone {f g h : Field} (hf : f.Proper) (hg : g.Proper) {x : Forest} (h1 : Lone x f g)
    (h2 : Lone x g h) : Lone (f.step x) g h :=
  ⟨select_apart hf.starts hg.starts h1.left x h1.apart h2.apart 0 0, h2.left, h2.right⟩

theorem step_all {f : Field} (hf : f.Proper) {fs : List Field} (hfs : ∀ g ∈ fs, g.Proper)
    {x : Forest} (h : ∀ g ∈ fs, Lone x f g) (hp : fs.Pairwise (Lone x)) :
    fs.Pairwise (Lone (f.step x)) :=
  hp.imp_of_mem fun hg _ hl => step_lone hf (hfs _ hg) (h _ hg) hl

theorem step_self {f : Field} (hf : f.Proper) {fs : List Field} (hfs : ∀ g ∈ fs, g.Proper)
    {x : Forest} (h : ∀ g ∈ fs, Lone x f g) : ∀ g ∈ fs, Lone (f.step x) f g :=
  fun g hg => lone_symm (step_lone hf (hfs g hg) (h g hg) (lone_symm (h g hg)))

theorem steps_perm {fs gs : List Field} (h : fs.Perm gs) : (∀ f ∈ fs, f.Proper) →
    ∀ x : Forest, x.WF → Sound x → fs.Pairwise (Lone x) → steps fs x = steps gs x := by
  induction h with
  | nil => exact fun _ _ _ _ _ => rfl
  | cons f h ih =>
    intro hfs x hx hd hp
    have hf := hfs f List.mem_cons_self
    have hfs' := fun g hg => hfs g (List.mem_cons_of_mem _ hg)
    rw [List.pairwise_cons] at hp
    exact ih hfs' _ (step_wf hf hx) (step_sound hf hx hd) (step_all hf hfs' hp.1 hp.2)
  | swap f g l =>
    intro hfs x hx hd hp
    rw [List.pairwise_cons] at hp
    simp only [steps]
    rw [step_swap (hfs g List.mem_cons_self) (hfs f (by simp)) hx hd (hp.1 f List.mem_cons_self)]
  | trans h h' ih ih' =>
    intro hfs x hx hd hp
    rw [ih hfs x hx hd hp, ih' (fun f hf => hfs f (h.mem_iff.2 hf)) x hx hd
      ((h.pairwise_iff fun hl => lone_symm hl).1 hp)]

theorem steps_comm {f : Field} (hf : f.Proper) (fs : List Field) : (∀ g ∈ fs, g.Proper) →
    ∀ x : Forest, x.WF → Sound x → (f :: fs).Pairwise (Lone x) →
    f.step (steps fs x) = steps fs (f.step x) := by
  induction fs with
  | nil => exact fun _ _ _ _ _ => rfl
  | cons g fs ih =>
    intro hfs x hx hd hp
    have hg := hfs g List.mem_cons_self
    have hfs' := fun g hg => hfs g (List.mem_cons_of_mem _ hg)
    rw [List.pairwise_cons, List.pairwise_cons] at hp
    have hl := hp.1 g List.mem_cons_self
    simp only [steps]
    rw [ih hfs' _ (step_wf hg hx) (step_sound hg hx hd), step_swap hg hf hx hd (lone_symm hl)]
    refine step_all hg (fun h hh => ?_) (fun h hh => ?_) ?_
    · rcases List.mem_cons.1 hh with rfl | hh
      exacts [hf, hfs' h hh]
    · rcases List.mem_cons.1 hh with rfl | hh
      exacts [lone_symm hl, hp.2.1 h hh]
    · exact List.pairwise_cons.2 ⟨fun h hh => hp.1 h (List.mem_cons_of_mem _ hh), hp.2.2⟩

theorem step_again {f : Field} (hf : f.Proper) (hk : ∀ i, StaysSelected f.selector (f.call i))
    (ha : ∀ i, Rests (f.call i)) {x : Forest} (hx : x.WF) (hd : Sound x) :
    f.step (f.step x) = f.step x := by
  unfold Field.step
  rw [(selectTree_fuse hf.starts f.direct _ _ (fun i g hg => one_keeps (f.call i) (hk i) hg) x 0 0).1]
  refine congrArg Prod.fst (select_same hf.starts (fun i g hw hd ho => ?_) x hx hd 0 0)
  have hn := hf.nested i
  obtain ⟨m, h1, h2⟩ := one_events hw hd ho
  have hd' := never_sound hn (hf.never i) hw hd ho
  obtain ⟨m', h3⟩ := sound_iff.1 hd'
  have hsh : ∀ {y : Forest}, One f.selector y → Shape .elem y := by
    intro y hy
    cases hy with
    | leaf he => exact .leaf he
    | elem hm => exact .elem
  have hw' := (meaning_ok (f.call i) hn g (hsh ho) hw).2
  obtain ⟨m'', h4, h5⟩ := one_events hw' hd' (one_keeps (f.call i) (hk i) ho)
  rw [h3] at h4
  cases h4
  have := ha i m m' h2 (wf_page hw h1) (by
    rw [run_meaning _ hn (wf_page hw h1) h2, treeOf_of_events hw h1, h3])
  rw [run_meaning _ hn (wf_page hw' h3) h5, treeOf_of_events hw' h3] at this
  have h6 := Option.some.inj this
  exact same_forest (meaning_ok (f.call i) hn _ (hsh (one_keeps (f.call i) (hk i) ho)) hw').2 hw' (sound_iff.2 ⟨_, h6⟩)
    (h6.trans h3.symm)

theorem steps_again {fs : List Field} : (∀ f ∈ fs, f.Proper) →
    (∀ f ∈ fs, ∀ i, StaysSelected f.selector (f.call i) ∧ Rests (f.call i)) →
    ∀ x : Forest, x.WF → Sound x → fs.Pairwise (Lone x) → steps fs (steps fs x) = steps fs x := by
  induction fs with
  | nil => exact fun _ _ _ _ _ _ => rfl
  | cons f fs ih =>
    intro hfs ha x hx hd hp
    have hf := hfs f List.mem_cons_self
    have hfs' := fun g hg => hfs g (List.mem_cons_of_mem _ hg)
    rw [List.pairwise_cons] at hp
    have hp' := step_all hf hfs' hp.1 hp.2
    have hx' := step_wf hf hx
    have hd' := step_sound hf hx hd
    simp only [steps]
    rw [steps_comm hf fs hfs' _ hx' hd' (List.pairwise_cons.2 ⟨step_self hf hfs' hp.1, hp'⟩),
      step_again hf (fun i => (ha f List.mem_cons_self i).1) (fun i => (ha f List.mem_cons_self i).2)
        hx hd]
    exact ih hfs' (fun g hg => ha g (List.mem_cons_of_mem _ hg)) _ hx' hd' hp'

theorem steps_ok {fs : List Field} : (∀ f ∈ fs, f.Proper) → ∀ x : Forest, x.WF → Sound x →
    (steps fs x).WF ∧ Sound (steps fs x) := by
  induction fs with
  | nil => exact fun _ x hx hd => ⟨hx, hd⟩
  | cons f fs ih =>
    intro hfs x hx hd
    have hf := hfs f List.mem_cons_self
    exact ih (fun g hg => hfs g (List.mem_cons_of_mem _ hg)) _ (step_wf hf hx) (step_sound hf hx hd)

theorem lone_of {es : List Event} {f g : Field} (hf : f.Proper) (hg : g.Proper)
    (h : f.Unlike es g) (he : Page es) : Lone (treeOf es) f g :=
  ⟨tree_apart hf.starts h.meet (treeOf_spec he).1 (x := []) (y := []) (treeOf_events he) (by simp),
    fun i => mute_meaning hg.starts hg.blind (f.call i) (h.left i),
    fun i => mute_meaning hf.starts hf.blind (g.call i) (h.right i)⟩

/-! ## Filling in -/

theorem sets_only {a k : Kind} (p : Prog a k) (h : SetsAndRemoves p) : OnlyAttributes p := by
  induction p with
  | src => trivial
  | forget p ih => exact ih h
  | apply p q ih1 ih2 => exact ⟨ih1 h.1, ih2 h.2⟩
  | fallOk p ih => exact ih h
  | attr p op ih =>
    cases op with
    | setAttribute => exact ih h.1
    | removeAttribute => exact ih h.1
    | _ => exact h.elim
  | _ => exact h.elim

theorem sets_change {a k : Kind} (p : Prog a k) (h : SetsAndRemoves p) :
    ∃ (keep : Attribute → Bool) (new : Attributes), (∀ x ∈ new, keep x = false) ∧
      ∀ as, change p as = as.filter keep ++ new := by
  induction p with
  | src => exact ⟨fun _ => true, [], by simp, fun as => by simp [change]⟩
  | forget p ih => exact ih h
  | apply p q ih1 ih2 =>
    obtain ⟨k, n, h1, h2⟩ := ih1 h.1
    obtain ⟨k', n', h3, h4⟩ := ih2 h.2
    refine ⟨fun x => k x && k' x, n.filter k' ++ n', fun x hx => ?_, fun as => ?_⟩
    · rcases List.mem_append.1 hx with hx | hx
      · simp [h1 x (List.mem_filter.1 hx).1]
      · simp [h3 x hx]
    · simp [change, h2, h4, List.filter_filter, Bool.and_comm]
  | fallOk p ih => exact ih h
  | attr p op ih =>
    cases op with
    | setAttribute n v =>
      obtain ⟨k, new, h1, h2⟩ := ih h.1
      refine ⟨fun x => k x && !x.name.eq n, new.filter (fun x => !x.name.eq n) ++ [⟨n, v⟩],
        fun x hx => ?_, fun as => ?_⟩
      · rcases List.mem_append.1 hx with hx | hx
        · simp [h1 x (List.mem_filter.1 hx).1]
        · cases List.mem_singleton.1 hx
          simp [Identifier.eq, identifierEq_self, isAscii_iff'.2 h.2.2.1]
      · simp [change, h2, AttrOp.apply, Attributes.setAttribute, List.filter_filter, Bool.and_comm]
    | removeAttribute n =>
      obtain ⟨k, new, h1, h2⟩ := ih h.1
      refine ⟨fun x => k x && !x.name.eq n, new.filter (fun x => !x.name.eq n),
        fun x hx => ?_, fun as => ?_⟩
      · simp [h1 x (List.mem_filter.1 hx).1]
      · simp [change, h2, AttrOp.apply, Attributes.removeAttribute, List.filter_filter,
          Bool.and_comm]
    | _ => exact h.elim
  | _ => exact h.elim

theorem sets_twice {a k : Kind} (p : Prog a k) (h : SetsAndRemoves p) (as : Attributes) :
    change p (change p as) = change p as := by
  obtain ⟨k, new, h1, h2⟩ := sets_change p h
  rw [h2, h2, List.filter_append, List.filter_filter]
  have : new.filter k = [] := List.filter_eq_nil_iff.2 fun x hx => by simp [h1 x hx]
  simp [this]

theorem noErrors_sound {c : Content} (h : NoErrors c) : Sound (tree (results c)) :=
  sound_iff.2 (grow_noErrors h).1

theorem single_events {f : Forest} (hw : f.WF) (hs : Single f) (hd : Sound f) :
    ∃ m, f.events = .ok m ∧ Element m := by
  cases hs with
  | @leaf e he => exact ⟨[e], rfl, leaf_element hw.1 he⟩
  | @elem t as g c =>
    obtain ⟨m, h1⟩ := sound_iff.1 hd.1
    exact ⟨.openingTag t as :: (m ++ [.closingTag c]), by rw [events_elem, h1]; rfl,
      .pair hw.1 (wf_balanced hw.2.2.1 h1).1⟩
  | fail => exact hd.elim

theorem never_of {p : Prog .elem .elem} (hp : WellNested p)
    (h : ∀ f, Single f → Sound f → Sound (meaning p f)) : NeverFails (.forget p) := by
  intro es hE he
  obtain ⟨m, hm⟩ := sound_iff.1 (h (treeOf es) (fit_shape (a := .elem) hE)
    (sound_iff.2 ⟨es, treeOf_events he⟩))
  exact ⟨m, by rw [run_meaning (.forget p) hp he hE]; exact congrArg some hm⟩

theorem rests_of {p : Prog .elem .elem} (hp : WellNested p)
    (h : ∀ f, Single f → Sound f → meaning p (meaning p f) = meaning p f) :
    Rests (.forget p) := by
  intro es m hE he hr
  rw [run_meaning (.forget p) hp he hE] at hr
  have hm : (meaning p (treeOf es)).events = .ok m := Option.some.inj hr
  have hsh := fit_shape (a := .elem) hE
  obtain ⟨h1, h2⟩ := meaning_ok p hp (treeOf es) hsh (treeOf_spec he).1
  obtain ⟨m', h3, h4⟩ := single_events h2 h1 (sound_iff.2 ⟨m, hm⟩)
  rw [hm] at h3
  cases h3
  rw [run_meaning (.forget p) hp (wf_page h2 hm) h4, treeOf_of_events h2 hm]
  exact congrArg some ((congrArg Forest.events (h _ hsh (sound_iff.2 ⟨es, treeOf_events he⟩))).trans
    hm)

theorem filling_ok {p : Prog .elem .gen} (h : Filling p) :
    WellNested p ∧ NeverFails p ∧ Rests p := by
  cases h with
  | @tag p h =>
    have hm := meaning_change p (sets_only p h)
    have hw : WellNested p := onlyAttributes_nested (sets_only p h)
    refine ⟨hw, never_of hw fun f hs hd => ?_, rests_of hw fun f hs _ => ?_⟩
    · rw [hm]
      cases hs with
      | @leaf e he => cases e <;> trivial
      | elem => exact hd
      | fail => exact hd
    · rw [hm, hm]
      cases hs with
      | @leaf e he => cases e <;> simp only [onAttributes, sets_twice p h]
      | elem => simp only [onAttributes, sets_twice p h]
      | fail => rfl
  | @contents p c h hc hn =>
    have hw : WellNested (p.replaceContents c) :=
      ⟨onlyAttributes_nested (sets_only p h), trivial, hn⟩
    have hm : ∀ f, meaning (p.replaceContents c) f =
        onChildren (fun g => (tree (results c)).append (removed g)) (onAttributes (change p) f) := by
      intro f
      rw [← meaning_change p (sets_only p h)]
      rfl
    have hr : ∀ g, Sound g → removed g = .nil := by
      intro g hg
      obtain ⟨m, h1⟩ := sound_iff.1 hg
      rw [removed, h1]
    have hs := noErrors_sound hc
    have hr' : ∀ g, removed ((tree (results c)).append (removed g)) = removed g := by
      intro g
      rw [removed_append, removed_noErrors hc]
      rcases removed_or g with ⟨h, -⟩ | ⟨e, h, -⟩ <;> rw [h] <;> rfl
    refine ⟨hw, never_of hw fun f hf hd => ?_, rests_of hw fun f hf _ => ?_⟩
    · rw [hm]
      cases hf with
      | @leaf e he =>
        cases e with
        | selfClosedTag t as => exact ⟨sound_append.2 ⟨hs, by rw [hr .nil trivial]; trivial⟩, trivial⟩
        | _ => trivial
      | elem => exact ⟨sound_append.2 ⟨hs, by rw [hr _ hd.1]; trivial⟩, trivial⟩
      | fail => exact hd
    · rw [hm, hm]
      cases hf with
      | @leaf e he => cases e <;> simp only [onAttributes, onChildren, sets_twice p h, hr']
      | elem => simp only [onAttributes, onChildren, sets_twice p h, hr']
      | fail => rfl

end Fuser
