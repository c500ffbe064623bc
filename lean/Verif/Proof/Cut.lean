import Verif.Spec.Cut
import Verif.Proof.Refine2
import Verif.Proof.Normal
import Verif.Proof.Equal

/-!
# Transforms do not see how texts are cut
-/

namespace Fuser

open Spec

/-- A text before a forest, letter by letter. -/
def letterLeaves : Str → Forest → Forest
  | [], f => f
  | c :: s, f => .leaf (.data (.actual [c])) (letterLeaves s f)

/-- The forest with all texts cut into letters. -/
def spellTree : Forest → Forest
  | .nil => .nil
  | .fail e => .fail e
  | .leaf (.data c) rest => letterLeaves c.str (spellTree rest)
  | .leaf (.rawData c) rest => letterLeaves c.str (spellTree rest)
  | .leaf e rest => .leaf e (spellTree rest)
  | .elem t as f c rest => .elem t as (spellTree f) c (spellTree rest)

/-- A leaf that is no text. -/
theorem spellTree_leaf {e : Event} (h : notText e = true) (f : Forest) :
    spellTree (.leaf e f) = .leaf e (spellTree f) := by
  cases e <;> first | rfl | cases h

theorem letterLeaves_append (s : Str) (f g : Forest) :
    (letterLeaves s f).append g = letterLeaves s (f.append g) := by
  induction s with
  | nil => rfl
  | cons c s ih => simp only [letterLeaves, Forest.append, ih]

theorem spellTree_append (f g : Forest) :
    spellTree (f.append g) = (spellTree f).append (spellTree g) := by
  induction f with
  | nil => rfl
  | fail e => rfl
  | elem t as f c rest _ ih => simp only [Forest.append, spellTree, ih]
  | leaf e rest ih =>
    cases e <;> simp only [Forest.append, spellTree, ih, letterLeaves_append]

theorem spellTree_letterLeaves (s : Str) (f : Forest) :
    spellTree (letterLeaves s f) = letterLeaves s (spellTree f) := by
  induction s with
  | nil => rfl
  | cons c s ih => simp only [letterLeaves, spellTree, Deferred.str, ih]

theorem spellTree_idem (f : Forest) : spellTree (spellTree f) = spellTree f := by
  induction f with
  | nil => rfl
  | fail e => rfl
  | elem t as f c rest h ih => simp only [spellTree, h, ih]
  | leaf e rest ih => cases e <;> simp only [spellTree, ih, spellTree_letterLeaves]

/-! ## Events -/

theorem letterLeaves_events (s : Str) (f : Forest) :
    (letterLeaves s f).events = f.events.map (s.map (fun x => Event.data (.actual [x])) ++ ·) := by
  induction s with
  | nil => simp only [letterLeaves, List.map_nil, List.nil_append]; cases f.events <;> rfl
  | cons c s ih =>
    simp only [letterLeaves, Forest.events, ih]
    cases f.events <;> rfl

theorem spellTree_events (f : Forest) : (spellTree f).events = f.events.map letters := by
  induction f with
  | nil => rfl
  | fail e => rfl
  | elem t as f c rest h ih =>
    simp only [spellTree, Forest.events, h, ih]
    cases f.events <;> cases rest.events <;> simp [Except.map, letters, spelt, bind, Except.bind, pure,
      Except.pure]
  | leaf e rest ih =>
    cases e <;> simp only [spellTree, Forest.events, ih, letterLeaves_events] <;>
      cases rest.events <;> simp [Except.map, letters, spelt, bind, Except.bind, pure, Except.pure]

theorem grow_letters (rs : List (Except StreamError Event)) (s : Str) :
    grow (s.map (fun x => Except.ok (Event.data (.actual [x]))) ++ rs) =
      (letterLeaves s (grow rs).1, (grow rs).2) := by
  induction s with
  | nil => rfl
  | cons c s ih => simp only [List.map_cons, List.cons_append, grow, ih, letterLeaves]

theorem grow_text (e : Event) (he : notText e = false) (rs : List (Except StreamError Event)) :
    grow (.ok e :: rs) = (.leaf e (grow rs).1, (grow rs).2) := by
  cases e <;> first | rfl | cases he

theorem grow_spelt (es : List Event) :
    grow ((letters es).map .ok) = (spellTree (grow (es.map .ok)).1,
      (grow (es.map .ok)).2.map fun x => (x.1, spellTree x.2)) := by
  induction es with
  | nil => rfl
  | cons e es ih =>
    have hc : letters (e :: es) = spelt e ++ letters es := rfl
    rw [hc, List.map_append, List.map_cons]
    cases e with
    | data c =>
      rw [grow_text _ rfl]
      simp only [spelt, List.map_map, Function.comp_def, grow_letters, ih, spellTree]
    | rawData c =>
      rw [grow_text _ rfl]
      simp only [spelt, List.map_map, Function.comp_def, grow_letters, ih, spellTree]
    | openingTag t as =>
      simp only [spelt, List.map_cons, List.map_nil, List.cons_append, List.nil_append, grow, ih]
      rcases grow (es.map .ok) with ⟨f, _ | ⟨⟨c, r⟩, o⟩⟩ <;> rfl
    | _ =>
      simp only [spelt, List.map_cons, List.map_nil, List.cons_append, List.nil_append, grow, ih] <;> rfl

theorem treeOf_letters (es : List Event) : treeOf (letters es) = spellTree (treeOf es) :=
  congrArg Prod.fst (grow_spelt es)

/-! ## Elements -/

/-- A single element, or a failure. -/
inductive OneElement : Forest → Prop
  | fail {e} : OneElement (.fail e)
  | leaf {e} : isStart e = true → OneElement (.leaf e .nil)
  | elem {t as f c} : OneElement (.elem t as f c .nil)

/-- The forest is of a kind of streams. -/
def OfKind (k : Kind) (f : Forest) : Prop := k = .elem → OneElement f

theorem ofKind_gen (f : Forest) : OfKind .gen f := fun h => by cases h

theorem oneElement_children {f : Forest} (h : OneElement f) (b : Forest → Forest) :
    OneElement (onChildren b f) := by
  cases h with
  | fail => exact .fail
  | elem => exact .elem
  | @leaf e h => cases e <;> first | exact .leaf h | exact .elem

theorem oneElement_attributes {f : Forest} (h : OneElement f) (op : Attributes → Attributes) :
    OneElement (onAttributes op f) := by
  cases h with
  | fail => exact .fail
  | elem => exact .elem
  | @leaf e h => cases e <;> exact .leaf h

theorem ofKind_meaning {a k : Kind} (p : Prog a k) : ∀ f, OfKind a f → OfKind k (meaning p f) := by
  induction p with
  | src => exact fun f h => h
  | forget p ih => exact fun f _ => ofKind_gen _
  | apply p q ihp ihq => exact fun f h => ihq _ (ihp _ h)
  | fallOk p ih => exact ih
  | fallErr e => exact fun f _ _ => .fail
  | contents p b ihp ihb => exact fun f h _ => oneElement_children (ihp _ h rfl) _
  | attr p op ih => exact fun f h _ => oneElement_attributes (ih _ h rfl) _
  | _ => exact fun f _ => ofKind_gen _

/-! ## Calls -/

theorem spellTree_one {f g : Forest} (hf : OneElement f) (hg : OneElement g)
    (h : spellTree f = spellTree g) :
    (∃ e, f = .fail e ∧ g = .fail e) ∨ (∃ e, isStart e = true ∧ f = .leaf e .nil ∧ g = .leaf e .nil) ∨
    ∃ t as x y c, f = .elem t as x c .nil ∧ g = .elem t as y c .nil ∧ spellTree x = spellTree y := by
  have key : ∀ e, isStart e = true → spellTree (.leaf e .nil) = .leaf e .nil := by
    intro e h
    cases e <;> first | rfl | cases h
  cases hf with
  | fail => cases hg with
    | fail => cases h; exact .inl ⟨_, rfl, rfl⟩
    | leaf h' => rw [key _ h'] at h; cases h
    | elem => cases h
  | leaf h1 => rw [key _ h1] at h; cases hg with
    | fail => cases h
    | leaf h' => rw [key _ h'] at h; cases h; exact .inr (.inl ⟨_, h1, rfl, rfl⟩)
    | elem => cases h
  | elem => cases hg with
    | fail => cases h
    | leaf h' => rw [key _ h'] at h; cases h
    | elem =>
      simp only [spellTree, Forest.elem.injEq, and_true] at h
      obtain ⟨rfl, rfl, h, rfl⟩ := h
      exact .inr (.inr ⟨_, _, _, _, _, rfl, rfl, h⟩)

theorem spell_children {b : Forest → Forest}
    (hb : ∀ f g, spellTree f = spellTree g → spellTree (b f) = spellTree (b g)) {f g : Forest}
    (hf : OneElement f) (hg : OneElement g) (h : spellTree f = spellTree g) :
    spellTree (onChildren b f) = spellTree (onChildren b g) := by
  rcases spellTree_one hf hg h with ⟨e, rfl, rfl⟩ | ⟨e, -, rfl, rfl⟩ | ⟨t, as, x, y, c, rfl, rfl, h'⟩
  · rfl
  · rfl
  · simp only [onChildren, spellTree, hb x y h']

theorem spell_attributes {op : Attributes → Attributes} {f g : Forest}
    (hf : OneElement f) (hg : OneElement g) (h : spellTree f = spellTree g) :
    spellTree (onAttributes op f) = spellTree (onAttributes op g) := by
  rcases spellTree_one hf hg h with ⟨e, rfl, rfl⟩ | ⟨e, -, rfl, rfl⟩ | ⟨t, as, x, y, c, rfl, rfl, h'⟩
  · rfl
  · rfl
  · simp only [onAttributes, spellTree, h']

theorem events_cases {f g : Forest} (h : spellTree f = spellTree g) :
    (∃ e, f.events = .error e ∧ g.events = .error e) ∨
    ∃ es es', f.events = .ok es ∧ g.events = .ok es' ∧ letters es = letters es' := by
  have h := congrArg Forest.events h
  rw [spellTree_events, spellTree_events] at h
  cases hf : f.events <;> cases hg : g.events <;> rw [hf, hg] at h <;>
    simp only [Except.map, Except.error.injEq, Except.ok.injEq, reduceCtorEq] at h
  · exact .inl ⟨_, rfl, by rw [h]⟩
  · exact .inr ⟨_, _, rfl, rfl, h⟩

theorem spell_removed {f g : Forest} (h : spellTree f = spellTree g) : removed f = removed g := by
  rcases events_cases h with ⟨e, h1, h2⟩ | ⟨es, es', h1, h2, -⟩ <;> simp only [removed, h1, h2]

theorem spell_copies {b b' : Nat → Forest} (h : ∀ i, spellTree (b i) = spellTree (b' i)) (n : Nat) :
    ∀ i, spellTree (copies b i n) = spellTree (copies b' i n) := by
  induction n with
  | zero => exact fun i => rfl
  | succ n ih => exact fun i => by simp only [copies, spellTree_append, h, ih]

theorem spell_repeated {b : Nat → Forest → Forest} {n : Nat} {f g : Forest}
    (hb : ∀ i, spellTree (b i f) = spellTree (b i g)) (h : spellTree f = spellTree g) :
    spellTree (repeated n b f) = spellTree (repeated n b g) := by
  rcases events_cases h with ⟨e, h1, h2⟩ | ⟨es, es', h1, h2, -⟩ <;> simp only [repeated, h1, h2]
  exact spell_copies hb n 0

theorem spell_applied {op : Template → Except StreamError Template}
    (ho : ∀ t u, letters t.events = letters u.events → SameLetters (op t) (op u)) {f g : Forest}
    (h : spellTree f = spellTree g) : spellTree (applied op f) = spellTree (applied op g) := by
  rcases events_cases h with ⟨e, h1, h2⟩ | ⟨es, es', h1, h2, h⟩ <;> simp only [applied, h1, h2]
  have h := ho ⟨es⟩ ⟨es'⟩ h
  generalize op ⟨es⟩ = x at h
  generalize op ⟨es'⟩ = y at h
  cases h with
  | ok h => simp only [← treeOf_letters, h]
  | error => rfl

/-! ## Selections -/

theorem select_letters {s : Selector} (hs : OnlyStarts s) {direct : Bool} {b : Nat → Forest → Forest}
    (level count : Nat) (w : Str) (f : Forest) :
    selectTree s direct b level count (letterLeaves w f) =
      (letterLeaves w (selectTree s direct b level count f).1, (selectTree s direct b level count f).2) := by
  have key : ∀ x, s.matches (.data (.actual [x])) = false := fun x =>
    Bool.eq_false_iff.2 fun h => by cases hs _ h
  induction w with
  | nil => rfl
  | cons c w ih => simp [letterLeaves, selectTree, key, ih]

theorem not_start {s : Selector} (hs : OnlyStarts s) {e : Event} (he : isStart e = false) :
    s.matches e = false := Bool.eq_false_iff.2 fun h => by rw [hs e h] at he; cases he

theorem spell_select {s : Selector} (hs : OnlyStarts s) {direct : Bool} {b : Nat → Forest → Forest}
    (hb : ∀ i f g, OneElement f → OneElement g → spellTree f = spellTree g →
      spellTree (b i f) = spellTree (b i g)) (f : Forest) : ∀ level count,
    spellTree (selectTree s direct b level count f).1 =
      spellTree (selectTree s direct b level count (spellTree f)).1 ∧
    (selectTree s direct b level count f).2 = (selectTree s direct b level count (spellTree f)).2 := by
  induction f with
  | nil => exact fun _ _ => ⟨rfl, rfl⟩
  | fail e => exact fun _ _ => ⟨rfl, rfl⟩
  | leaf e rest ih =>
    intro level count
    have text : ∀ e, isStart e = false → selectTree s direct b level count (.leaf e rest) =
        (.leaf e (selectTree s direct b level count rest).1,
          (selectTree s direct b level count rest).2) := by
      intro e he
      simp [selectTree, not_start hs he]
    cases e with
    | data c =>
      rw [text _ rfl]
      simp only [spellTree, select_letters hs, spellTree_letterLeaves, (ih level count).1,
        (ih level count).2, and_self]
    | rawData c =>
      rw [text _ rfl]
      simp only [spellTree, select_letters hs, spellTree_letterLeaves, (ih level count).1,
        (ih level count).2, and_self]
    | _ =>
      rw [spellTree_leaf rfl]
      simp only [selectTree]
      split
      · simp only [spellTree_append, (ih level (count + 1)).1, (ih level (count + 1)).2, and_self]
      · rw [spellTree_leaf rfl, spellTree_leaf rfl, (ih level count).1, (ih level count).2]
        exact ⟨rfl, rfl⟩
  | elem t as f c rest ihf ihr =>
    intro level count
    have hc : s.matches (.closingTag c) = false := not_start hs rfl
    simp only [spellTree, selectTree, hc, Bool.and_false, Bool.false_eq_true, if_false]
    split
    · simp only [spellTree_append, (ihr level (count + 1)).1, (ihr level (count + 1)).2, and_true]
      rw [hb count (.elem t as f c .nil) (.elem t as (spellTree f) c .nil) .elem .elem
        (by simp only [spellTree, spellTree_idem])]
    · simp only [spellTree, (ihf (level + 1) count).1, (ihf (level + 1) count).2]
      generalize (selectTree s direct b (level + 1) count (spellTree f)).2 = n
      simp only [(ihr level n).1, (ihr level n).2, and_true]

theorem once_letters {s : Selector} (hs : OnlyStarts s) {direct : Bool} {b : Forest → Forest}
    (level : Nat) (w : Str) (f : Forest) :
    selectOnceTree s direct b level (letterLeaves w f) =
      (letterLeaves w (selectOnceTree s direct b level f).1, (selectOnceTree s direct b level f).2) := by
  have key : ∀ x, s.matches (.data (.actual [x])) = false := fun x => not_start hs rfl
  induction w with
  | nil => rfl
  | cons c w ih => simp [letterLeaves, selectOnceTree, key, ih]

theorem spell_once {s : Selector} (hs : OnlyStarts s) {direct : Bool} {b : Forest → Forest}
    (hb : ∀ f g, OneElement f → OneElement g → spellTree f = spellTree g →
      spellTree (b f) = spellTree (b g)) (f : Forest) : ∀ level,
    spellTree (selectOnceTree s direct b level f).1 =
      spellTree (selectOnceTree s direct b level (spellTree f)).1 ∧
    (selectOnceTree s direct b level f).2 = (selectOnceTree s direct b level (spellTree f)).2 := by
  induction f with
  | nil => exact fun _ => ⟨rfl, rfl⟩
  | fail e => exact fun _ => ⟨rfl, rfl⟩
  | leaf e rest ih =>
    intro level
    have text : ∀ e, isStart e = false → selectOnceTree s direct b level (.leaf e rest) =
        (.leaf e (selectOnceTree s direct b level rest).1,
          (selectOnceTree s direct b level rest).2) := by
      intro e he
      simp [selectOnceTree, not_start hs he]
    cases e with
    | data c =>
      rw [text _ rfl]
      simp only [spellTree, once_letters hs, spellTree_letterLeaves, (ih level).1, (ih level).2,
        and_self]
    | rawData c =>
      rw [text _ rfl]
      simp only [spellTree, once_letters hs, spellTree_letterLeaves, (ih level).1, (ih level).2,
        and_self]
    | _ =>
      rw [spellTree_leaf rfl]
      simp only [selectOnceTree]
      split
      · simp only [spellTree_append, spellTree_idem, and_self]
      · rw [spellTree_leaf rfl, spellTree_leaf rfl, (ih level).1, (ih level).2]
        exact ⟨rfl, rfl⟩
  | elem t as f c rest ihf ihr =>
    intro level
    have hc : s.matches (.closingTag c) = false := not_start hs rfl
    simp only [spellTree, selectOnceTree, hc, Bool.and_false, Bool.false_eq_true, if_false]
    split
    · simp only [spellTree_append, spellTree_idem, and_true]
      rw [hb (.elem t as f c .nil) (.elem t as (spellTree f) c .nil) .elem .elem
        (by simp only [spellTree, spellTree_idem])]
    · rw [(ihf (level + 1)).2]
      split
      · simp only [spellTree, (ihf (level + 1)).1, spellTree_idem, and_self]
      · simp only [spellTree, (ihf (level + 1)).1, (ihr level).1, (ihr level).2, and_self]

/-! ## All calls -/

theorem spell_meaning {a k : Kind} (p : Prog a k) : StartSelectors p → CutBlind p → ∀ f g,
    OfKind a f → OfKind a g → spellTree f = spellTree g →
    spellTree (meaning p f) = spellTree (meaning p g) := by
  induction p with
  | src => exact fun _ _ f g _ _ h => h
  | forget p ih => exact ih
  | apply p q ihp ihq =>
    exact fun hs hc f g hf hg h => ihq hs.2 hc.2 _ _ (ofKind_meaning p f hf) (ofKind_meaning p g hg)
      (ihp hs.1 hc.1 f g hf hg h)
  | fallOk p ih => exact ih
  | fallErr e => exact fun _ _ f g _ _ _ => rfl
  | selectRaw p s direct b ih ihb =>
    intro hs hc f g hf hg h
    have hb : ∀ i f g, OneElement f → OneElement g → spellTree f = spellTree g →
        spellTree (meaning (b i) f) = spellTree (meaning (b i) g) :=
      fun i f g hf hg h => ihb i (hs.2.2 i) (hc.2 i) f g (fun _ => hf) (fun _ => hg) h
    simp only [meaning]
    rw [(spell_select hs.2.1 hb (meaning p f) 0 0).1, (spell_select hs.2.1 hb (meaning p g) 0 0).1,
      ih hs.1 hc.1 f g hf hg h]
  | selectOnceRaw p s direct b ih ihb =>
    intro hs hc f g hf hg h
    have hb : ∀ f g, OneElement f → OneElement g → spellTree f = spellTree g →
        spellTree (meaning b f) = spellTree (meaning b g) :=
      fun f g hf hg h => ihb hs.2.2 hc.2 f g (fun _ => hf) (fun _ => hg) h
    simp only [meaning]
    rw [(spell_once hs.2.1 hb (meaning p f) 0).1, (spell_once hs.2.1 hb (meaning p g) 0).1,
      ih hs.1 hc.1 f g hf hg h]
  | remove p ih =>
    exact fun hs hc f g hf hg h => congrArg spellTree (spell_removed (ih hs hc f g hf hg h))
  | prepend p c ih =>
    exact fun hs hc f g hf hg h => by simp only [meaning, spellTree_append, ih hs hc f g hf hg h]
  | append p c ih =>
    exact fun hs hc f g hf hg h => by simp only [meaning, spellTree_append, ih hs hc f g hf hg h]
  | «repeat» p n b ih ihb =>
    intro hs hc f g hf hg h
    have h := ih hs.1 hc.1 f g hf hg h
    exact spell_repeated (fun i => ihb i (hs.2 i) (hc.2 i) _ _ (ofKind_meaning p f hf)
      (ofKind_meaning p g hg) h) h
  | orElse p n r q ih ihr ihq =>
    intro hs hc f g hf hg h
    have h := ih hs.1 hc.1 f g hf hg h
    simp only [meaning]
    split
    · exact ihr hs.2.1 hc.2.1 _ _ (ofKind_meaning p f hf) (ofKind_meaning p g hg) h
    · exact ihq hs.2.2 hc.2.2 _ _ (ofKind_meaning p f hf) (ofKind_meaning p g hg) h
  | applyTemplate p op ih =>
    exact fun hs hc f g hf hg h => spell_applied hc.2 (ih hs hc.1 f g hf hg h)
  | contents p b ih ihb =>
    intro hs hc f g hf hg h
    exact spell_children (fun x y => ihb hs.2 hc.2 x y (ofKind_gen x) (ofKind_gen y))
      (ofKind_meaning p f hf rfl) (ofKind_meaning p g hg rfl) (ih hs.1 hc.1 f g hf hg h)
  | attr p op ih =>
    intro hs hc f g hf hg h
    exact spell_attributes (ofKind_meaning p f hf rfl) (ofKind_meaning p g hg rfl)
      (ih hs hc f g hf hg h)

/-! ## Rendering -/

theorem letters_append (es fs : List Event) : letters (es ++ fs) = letters es ++ letters fs :=
  List.flatMap_append ..

theorem letters_cons (e : Event) (es : List Event) : letters (e :: es) = spelt e ++ letters es := rfl

theorem render_spelt (e : Event) : (spelt e).flatMap Event.render = e.render := by
  have key : ∀ s : Str, (s.map fun x => Event.data (.actual [x])).flatMap Event.render = s := by
    intro s
    induction s with
    | nil => rfl
    | cons c s ih => rw [List.map_cons, List.flatMap_cons, ih]; rfl
  cases e with
  | data c => exact key _
  | rawData c => exact key _
  | _ => simp only [spelt, List.flatMap_cons, List.flatMap_nil, List.append_nil]

theorem render_letters (es : List Event) :
    (letters es).flatMap Event.render = es.flatMap Event.render := by
  induction es with
  | nil => rfl
  | cons e es ih => rw [letters_cons, List.flatMap_append, ih, render_spelt, List.flatMap_cons]

/-! ## Saved pages -/

theorem strip_own {e : Event} (h : FlushValues e) : stripEvent e = ownEvent e := by
  have key : ∀ as : Attributes,
      (∀ a ∈ as, ∀ v c, a.value = some v → v.str.head? = some c → ¬ Space c) →
      stripAttributes as = ownAttributes as := by
    intro as h
    refine List.map_congr_left fun a ha => ?_
    have h := h a ha
    cases hv : a.value with
    | none => rfl
    | some v =>
      simp only [Option.map, Attribute.mk.injEq, true_and, Option.some.injEq]
      have h := fun c => h v c hv
      unfold stripText ownText
      congr 1
      cases hs : v.str with
      | nil => rfl
      | cons c s =>
        rw [hs] at h
        rw [List.dropWhile_cons_of_neg]
        simpa using h c rfl
  cases e <;> first | rfl | (simp only [stripEvent, ownEvent, key _ h])

theorem letters_addText (s : Str) (ms : List Event) :
    letters (addText s ms) = s.map (fun x => .data (.actual [x])) ++ letters ms := by
  unfold addText
  split
  · simp [letters_cons, spelt, Deferred.str]
  · split
    · rename_i h; subst h; rfl
    · rfl

theorem letters_texts {ts : List Event} {s : Str} (h : Texts ts s) :
    letters (ts.map ownEvent) = s.map fun x => .data (.actual [x]) := by
  induction h with
  | nil => rfl
  | data h ih => rw [List.map_cons, letters_cons, ih, List.map_append]; rfl
  | raw h ih => rw [List.map_cons, letters_cons, ih, List.map_append]; rfl

theorem letters_normal {es ms : List Event} (h : Normal es ms) (hv : ∀ e ∈ es, FlushValues e) :
    letters ms = letters (es.map ownEvent) := by
  induction h with
  | nil => rfl
  | data _ _ ih =>
    rw [letters_addText, ih fun e he => hv e (List.mem_cons_of_mem _ he)]
    rfl
  | plain _ _ _ _ ih =>
    rw [List.map_cons, letters_cons, letters_cons, ih fun e he => hv e (List.mem_cons_of_mem _ he),
      strip_own (hv _ List.mem_cons_self)]
  | @raw t as ts s n es ms _ _ _ ht _ _ _ _ ih =>
    simp only [List.map_cons, List.map_append, letters_cons, letters_append, letters_texts ht,
      ih fun e he => hv e (by simp [he]), ← strip_own (hv _ List.mem_cons_self)]
    rfl

/-- Events are alike with texts owned. -/
theorem like_own (es : List Event) : List.Forall₂ (LikeEvent .stored) es (es.map ownEvent) := by
  have attrs : ∀ as : Attributes, List.Forall₂ (LikeAttribute .stored) as (ownAttributes as) := by
    intro as
    induction as with
    | nil => exact .nil
    | cons a as ih =>
      rcases a with ⟨n, _ | v⟩
      · exact .cons ⟨rfl, .none⟩ ih
      · exact .cons ⟨rfl, .some rfl⟩ ih
  induction es with
  | nil => exact .nil
  | cons e es ih =>
    refine .cons ?_ ih
    cases e with
    | noop => exact .noop
    | doctype c => exact .doctype rfl
    | comment c => exact .comment rfl
    | data c => exact .data rfl
    | rawData c => exact .rawData rfl
    | openingTag t as => exact .opening rfl (attrs as)
    | closingTag t => exact .closing rfl
    | selfClosedTag t as => exact .selfClosed rfl (attrs as)
    | voidTag t as => exact .void rfl (attrs as)

theorem page_own {es : List Event} (h : Page es) : Page (es.map ownEvent) := by
  obtain ⟨⟨n, h1⟩, h2, h3⟩ := h
  refine ⟨⟨n, nests_own h1⟩, fun e he t ht => ?_, fun h => ?_⟩
  · obtain ⟨e, he', rfl⟩ := List.mem_map.1 he
    cases e <;> cases ht <;> (have := h2 _ he' _ rfl; exact this)
  · obtain ⟨e, he, h⟩ := List.mem_map.1 h
    cases e <;> first | exact h3 he | cases h

end Fuser
