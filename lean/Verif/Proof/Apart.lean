import Verif.Spec.Apart
import Verif.Proof.Laws
import Verif.Proof.Keep

/-!
# Selections that do not meet
-/

namespace Fuser

open Spec

/-! ## Removals -/

theorem anyOf_starts {s r : Selector} (hs : OnlyStarts s) (hr : OnlyStarts r) :
    OnlyStarts (anyOf s r) := by
  intro e h
  simp only [anyOf, Selector.matches, Bool.or_eq_true] at h
  exact h.elim (hs e) (hr e)

theorem starts_closing {s : Selector} (hs : OnlyStarts s) (c : Identifier) :
    s.matches (.closingTag c) = false := Bool.eq_false_iff.2 fun h => by cases hs _ h

/-- What removal of the matches in a forest gives, if it is nothing or a failure. -/
theorem removed_elem (t : Identifier) (as : Attributes) (f : Forest) (c : Identifier) :
    removed (.elem t as f c .nil) = removed f := by
  simp only [removed, Forest.events]
  cases f.events <;> rfl

theorem removed_leaf (e : Event) : removed (.leaf e .nil) = .nil := rfl

theorem removed_of {f g : Forest} (h : ∀ e, f.events = .error e ↔ g.events = .error e) :
    removed f = removed g := by
  unfold removed
  cases hf : f.events with
  | error e => rw [(h e).1 hf]
  | ok es =>
    cases hg : g.events with
    | error e => rw [(h e).2 hg] at hf; cases hf
    | ok _ => rfl

theorem select_leaf {s : Selector} (hs : OnlyStarts s) (d : Bool) (b : Nat → Forest → Forest)
    (l n : Nat) (e : Event) (rest : Forest) :
    selectTree s d b l n (.leaf e rest) =
      if inScope d l && s.matches e then
        ((b n (.leaf e .nil)).append (selectTree s d b l (n + 1) rest).1,
          (selectTree s d b l (n + 1) rest).2)
      else (.leaf e (selectTree s d b l n rest).1, (selectTree s d b l n rest).2) := by
  simp only [selectTree]
  split
  · rename_i h
    rw [single_start (hs e (by simpa using (Bool.and_eq_true _ _ ▸ h).2))]
  · rfl

theorem select_elem {s : Selector} (hs : OnlyStarts s) (d : Bool) (b : Nat → Forest → Forest)
    (l n : Nat) (t : Identifier) (as : Attributes) (f : Forest) (c : Identifier) (rest : Forest) :
    selectTree s d b l n (.elem t as f c rest) =
      if inScope d l && s.matches (.openingTag t as) then
        ((b n (.elem t as f c .nil)).append (selectTree s d b l (n + 1) rest).1,
          (selectTree s d b l (n + 1) rest).2)
      else (.elem t as (selectTree s d b (l + 1) n f).1 c
          (selectTree s d b l (selectTree s d b (l + 1) n f).2 rest).1,
          (selectTree s d b l (selectTree s d b (l + 1) n f).2 rest).2) := by
  simp only [selectTree, starts_closing hs, Bool.and_false, Bool.false_eq_true, if_false]

/-- The forest without matches. -/
def without (s : Selector) (d : Bool) (l : Nat) (f : Forest) : Forest :=
  (selectTree s d (fun _ => removed) l 0 f).1

theorem removed_or (f : Forest) : removed f = .nil ∧ (∃ es, f.events = .ok es) ∨
    ∃ e, removed f = .fail e ∧ f.events = .error e := by
  unfold removed
  cases hf : f.events with
  | error e => exact .inr ⟨e, rfl, rfl⟩
  | ok es => exact .inl ⟨rfl, es, rfl⟩

theorem select_count {s : Selector} (hs : OnlyStarts s) (d : Bool) (b : Forest → Forest)
    (f : Forest) : ∀ l n m, (selectTree s d (fun _ => b) l n f).1 =
      (selectTree s d (fun _ => b) l m f).1 := by
  induction f with
  | nil => exact fun _ _ _ => rfl
  | fail e => exact fun _ _ _ => rfl
  | leaf e rest ih =>
    intro l n m
    simp only [select_leaf hs]
    split
    · simp only [ih l (n + 1) (m + 1)]
    · simp only [ih l n m]
  | elem t as f c rest ihf ihr =>
    intro l n m
    simp only [select_elem hs]
    split
    · simp only [ihr l (n + 1) (m + 1)]
    · simp only [ihf (l + 1) n m, ihr l _ (selectTree s d (fun _ => b) (l + 1) m f).2]

theorem without_leaf {s : Selector} (hs : OnlyStarts s) (d : Bool) (l : Nat) (e : Event)
    (rest : Forest) : without s d l (.leaf e rest) =
      if inScope d l && s.matches e then without s d l rest
      else .leaf e (without s d l rest) := by
  unfold without
  rw [select_leaf hs]
  split
  · exact select_count hs d removed rest l 1 0
  · rfl

theorem without_elem {s : Selector} (hs : OnlyStarts s) (d : Bool) (l : Nat) (t : Identifier)
    (as : Attributes) (f : Forest) (c : Identifier) (rest : Forest) :
    without s d l (.elem t as f c rest) =
      if inScope d l && s.matches (.openingTag t as) then (removed f).append (without s d l rest)
      else .elem t as (without s d (l + 1) f) c (without s d l rest) := by
  unfold without
  rw [select_elem hs]
  split
  · simp only [removed_elem, select_count hs d removed rest l 1 0]
  · simp only [select_count hs d removed rest l _ 0]

theorem removed_without {s : Selector} (hs : OnlyStarts s) (d : Bool) (f : Forest) :
    ∀ l, removed (without s d l f) = removed f := by
  have leafs : ∀ e f, removed (.leaf e f) = removed f := by
    intro e f
    simp only [removed, Forest.events]
    cases f.events <;> rfl
  have elems : ∀ t as f c g, removed (.elem t as f c g) = (removed f).append (removed g) := by
    intro t as f c g
    simp only [removed, Forest.events]
    cases f.events <;> cases g.events <;> rfl
  have twice : ∀ f, removed (removed f) = removed f := by
    intro f
    rcases removed_or f with ⟨h, -⟩ | ⟨e, h, -⟩ <;> rw [h] <;> rfl
  induction f with
  | nil => exact fun _ => rfl
  | fail e => exact fun _ => rfl
  | leaf e rest ih =>
    intro l
    rw [without_leaf hs]
    split
    · rw [ih, leafs]
    · rw [leafs, leafs, ih]
  | elem t as f c rest ihf ihr =>
    intro l
    rw [without_elem hs, elems]
    split
    · rw [removed_append, twice, ihr]
    · rw [elems, ihf, ihr]

theorem without_removed {s : Selector} (hs : OnlyStarts s) (d : Bool) (l : Nat) (f g : Forest) :
    without s d l ((removed f).append g) = (removed f).append (without s d l g) := by
  rcases removed_or f with ⟨h, -⟩ | ⟨e, h, -⟩ <;> rw [h] <;> rfl

theorem without_both {s r : Selector} (hs : OnlyStarts s) (hr : OnlyStarts r) (d : Bool)
    (f : Forest) : ∀ l, without r d l (without s d l f) = without (anyOf s r) d l f := by
  have hm : ∀ e, (anyOf s r).matches e = (s.matches e || r.matches e) := fun _ => rfl
  have ha := anyOf_starts hs hr
  induction f with
  | nil => exact fun _ => rfl
  | fail e => exact fun _ => rfl
  | leaf e rest ih =>
    intro l
    rw [without_leaf hs, without_leaf ha, hm]
    cases h0 : inScope d l <;> cases h1 : s.matches e <;> cases h2 : r.matches e <;>
      simp [without_leaf hr, h0, h2, ih]
  | elem t as f c rest ihf ihr =>
    intro l
    rw [without_elem hs, without_elem ha, hm]
    cases h0 : inScope d l <;> cases h1 : s.matches (.openingTag t as) <;>
      cases h2 : r.matches (.openingTag t as) <;>
      simp [without_elem hr, h0, h2, ihr, ihf, without_removed hr, removed_without hs]

/-! ## Forests without matches -/

/-- No event of the forest is matched, also not after a failure. -/
def Mute (s : Selector) : Forest → Prop
  | .nil => True
  | .fail _ => True
  | .leaf e rest => s.matches e = false ∧ Mute s rest
  | .elem t as f _ rest => s.matches (.openingTag t as) = false ∧ Mute s f ∧ Mute s rest

theorem mute_append {s : Selector} {f g : Forest} (hf : Mute s f) (hg : Mute s g) :
    Mute s (f.append g) := by
  induction f with
  | nil => exact hg
  | fail e => trivial
  | leaf e rest ih => exact ⟨hf.1, ih hf.2⟩
  | elem t as f c rest _ ih => exact ⟨hf.1, hf.2.1, ih hf.2.2⟩

theorem mute_removed (s : Selector) (f : Forest) : Mute s (removed f) := by
  rcases removed_or f with ⟨h, -⟩ | ⟨e, h, -⟩ <;> rw [h] <;> trivial

theorem mute_single {s : Selector} {e : Event} (h : s.matches e = false) : Mute s (single e) := by
  unfold single
  split
  · exact ⟨h, trivial⟩
  · trivial

theorem mute_grow {s : Selector} {rs : List (Except StreamError Event)}
    (h : ∀ e, .ok e ∈ rs → s.matches e = false) :
    Mute s (grow rs).1 ∧ ∀ x ∈ (grow rs).2, Mute s x.2 := by
  induction rs with
  | nil => exact ⟨trivial, by simp [grow]⟩
  | cons r rs ih =>
    have ih := ih fun e he => h e (List.mem_cons_of_mem _ he)
    cases r with
    | error e => exact ⟨trivial, by simp [grow]⟩
    | ok e =>
      have he := h e List.mem_cons_self
      rcases hg : grow rs with ⟨f, o⟩
      rw [hg] at ih
      cases e with
      | noop => simpa only [grow, hg] using ih
      | closingTag c =>
        simp only [grow, hg]
        exact ⟨trivial, by simpa using ih⟩
      | openingTag t as =>
        rcases o with _ | ⟨⟨c, g⟩, o⟩ <;> simp only [grow, hg]
        · exact ⟨⟨he, ih.1, trivial⟩, by simp⟩
        · have h2 := ih.2 (c, g) List.mem_cons_self
          exact ⟨⟨he, ih.1, h2⟩, fun x hx => ih.2 x (List.mem_cons_of_mem _ hx)⟩
      | _ =>
        simp only [grow, hg]
        exact ⟨⟨he, ih.1⟩, ih.2⟩

theorem mute_events {s : Selector} (hs : OnlyStarts s) {f : Forest} (h : Mute s f) :
    ∀ {es : List Event}, f.events = .ok es → Unmatched s es := by
  induction f with
  | nil => intro es he; cases he; intro e he; cases he
  | fail e => intro es he; cases he
  | leaf e rest ih =>
    intro es he
    rw [events_leaf] at he
    cases hr : rest.events with
    | error e => rw [hr] at he; cases he
    | ok m =>
      rw [hr] at he
      cases he
      exact List.forall_mem_cons.2 ⟨h.1, ih h.2 hr⟩
  | elem t as f c rest ihf ihr =>
    intro es he
    simp only [Forest.events] at he
    cases hf : f.events with
    | error e => rw [hf] at he; cases he
    | ok m =>
      cases hr : rest.events with
      | error e => rw [hf, hr] at he; cases he
      | ok m' =>
        rw [hf, hr] at he
        cases he
        intro e he
        simp only [List.mem_cons, List.cons_append, List.mem_append] at he
        rcases he with rfl | he | rfl | he
        · exact h.1
        · exact ihf h.2.1 hf e he
        · exact starts_closing hs c
        · exact ihr h.2.2 hr e he

theorem mute_copies {s : Selector} {b : Nat → Forest} (h : ∀ i, Mute s (b i)) (n : Nat) :
    ∀ i, Mute s (copies b i n) := by
  induction n with
  | zero => exact fun _ => trivial
  | succ n ih => exact fun i => mute_append (h i) (ih _)

theorem mute_select {r s : Selector} (hr : OnlyStarts r) {d : Bool} {b : Nat → Forest → Forest}
    (hb : ∀ i f, Mute r f → Mute r (b i f)) (f : Forest) (h : Mute r f) : ∀ l n,
    Mute r (selectTree s d b l n f).1 := by
  induction f with
  | nil => exact fun _ _ => trivial
  | fail e => exact fun _ _ => trivial
  | leaf e rest ih =>
    intro l n
    simp only [selectTree]
    split
    · exact mute_append (hb _ _ (mute_single h.1)) (ih h.2 _ _)
    · exact ⟨h.1, ih h.2 _ _⟩
  | elem t as f c rest ihf ihr =>
    intro l n
    simp only [selectTree]
    split
    · exact mute_append (hb _ _ ⟨h.1, h.2.1, trivial⟩) (ihr h.2.2 _ _)
    · split
      · exact ⟨h.1, mute_append (ihf h.2.1 _ _) (hb _ _ (mute_single (starts_closing hr c))),
          ihr h.2.2 _ _⟩
      · exact ⟨h.1, ihf h.2.1 _ _, ihr h.2.2 _ _⟩

theorem mute_once {r s : Selector} (hr : OnlyStarts r) {d : Bool} {b : Forest → Forest}
    (hb : ∀ f, Mute r f → Mute r (b f)) (f : Forest) (h : Mute r f) : ∀ l,
    Mute r (selectOnceTree s d b l f).1 := by
  induction f with
  | nil => exact fun _ => trivial
  | fail e => exact fun _ => trivial
  | leaf e rest ih =>
    intro l
    simp only [selectOnceTree]
    split
    · exact mute_append (hb _ (mute_single h.1)) h.2
    · exact ⟨h.1, ih h.2 _⟩
  | elem t as f c rest ihf ihr =>
    intro l
    simp only [selectOnceTree]
    split
    · exact mute_append (hb _ ⟨h.1, h.2.1, trivial⟩) h.2.2
    · split
      · exact ⟨h.1, ihf h.2.1 _, h.2.2⟩
      · split
        · exact ⟨h.1, mute_append (ihf h.2.1 _) (hb _ (mute_single (starts_closing hr c))), h.2.2⟩
        · exact ⟨h.1, ihf h.2.1 _, ihr h.2.2 _⟩

theorem mute_meaning {s : Selector} (hs : OnlyStarts s) (hb : SlashBlind s) {a k : Kind}
    (p : Prog a k) (h : MakesNone s p) : ∀ f, Mute s f → Mute s (meaning p f) := by
  induction p with
  | src => exact fun f hf => hf
  | forget p ih => exact ih h
  | apply p q ihp ihq => exact fun f hf => ihq h.2 _ (ihp h.1 f hf)
  | fallOk p ih => exact ih h
  | fallErr e => exact fun _ _ => trivial
  | selectRaw p s' d b ih ihb =>
    exact fun f hf => mute_select hs (fun i => ihb i (h.2 i)) _ (ih h.1 f hf) _ _
  | selectOnceRaw p s' d b ih ihb =>
    exact fun f hf => mute_once hs (ihb h.2) _ (ih h.1 f hf) _
  | remove p ih => exact fun f _ => mute_removed _ _
  | prepend p c ih => exact fun f hf => mute_append (mute_grow h.2).1 (ih h.1 f hf)
  | append p c ih => exact fun f hf => mute_append (ih h.1 f hf) (mute_grow h.2).1
  | «repeat» p n b ih ihb =>
    intro f hf
    simp only [meaning, repeated]
    split
    · exact mute_copies (fun i => ihb i (h.2 i) _ (ih h.1 f hf)) _ _
    · trivial
  | orElse p n q r ih ihq ihr =>
    intro f hf
    simp only [meaning]
    split
    · exact ihq h.2.1 _ (ih h.1 f hf)
    · exact ihr h.2.2 _ (ih h.1 f hf)
  | applyTemplate p g ih =>
    intro f hf
    simp only [meaning, applied]
    split
    · rename_i es he
      split
      · rename_i t ht
        refine (mute_grow fun e he' => ?_).1
        obtain ⟨e', h', heq⟩ := List.mem_map.1 he'
        cases heq
        exact h.2 _ _ (mute_events hs (ih h.1 f hf) he) ht e h'
      · trivial
    · trivial
  | contents p b ih ihb =>
    intro f hf
    have hf := ih h.1 f hf
    simp only [meaning]
    generalize meaning p f = g at hf
    cases g with
    | nil => trivial
    | fail e => trivial
    | elem t as f c rest => exact ⟨hf.1, ihb h.2 _ hf.2.1, hf.2.2⟩
    | leaf e rest =>
      cases e with
      | selfClosedTag t as => exact ⟨(hb t as).symm.trans hf.1, ihb h.2 .nil trivial, hf.2⟩
      | _ => exact hf
  | attr p op ih =>
    intro f hf
    have hf := ih h.1 f hf
    simp only [meaning]
    generalize meaning p f = g at hf
    cases g with
    | nil => trivial
    | fail e => trivial
    | elem t as f c rest => exact ⟨(h.2 t as).1 hf.1, hf.2⟩
    | leaf e rest =>
      cases e with
      | selfClosedTag t as => exact ⟨(h.2 t as).2.1 hf.1, hf.2⟩
      | voidTag t as => exact ⟨(h.2 t as).2.2 hf.1, hf.2⟩
      | _ => exact hf

/-! ## Selections of different elements -/

section Swap

variable {s r : Selector} (hs : OnlyStarts s) (hr : OnlyStarts r) {d d' : Bool}
  {b c : Nat → Forest → Forest}

include hr in
theorem select_mute {f : Forest} (h : Mute r f) : ∀ l n, selectTree r d c l n f = (f, n) := by
  induction f with
  | nil => exact fun _ _ => rfl
  | fail e => exact fun _ _ => rfl
  | leaf e rest ih =>
    intro l n
    rw [select_leaf hr, h.1, Bool.and_false, if_neg (by decide), ih h.2]
  | elem t as f c' rest ihf ihr =>
    intro l n
    rw [select_elem hr, h.1, Bool.and_false, if_neg (by decide), ihf h.2.1, ihr h.2.2]

include hr in
theorem select_mute_append {g : Forest} (h : Mute r g) (x : Forest) : ∀ l n,
    (selectTree r d c l n (g.append x)).1 = g.append (selectTree r d c l n x).1 ∧
    ∀ es, g.events = .ok es → (selectTree r d c l n (g.append x)).2 = (selectTree r d c l n x).2 := by
  induction g with
  | nil => exact fun _ _ => ⟨rfl, fun _ _ => rfl⟩
  | fail e => exact fun _ _ => ⟨rfl, fun es he => by cases he⟩
  | leaf e rest ih =>
    intro l n
    simp only [Forest.append]
    rw [select_leaf hr, h.1, Bool.and_false, if_neg (by decide)]
    refine ⟨by rw [(ih h.2 l n).1], fun es he => ?_⟩
    rw [events_leaf] at he
    cases hx : rest.events with
    | error e => rw [hx] at he; cases he
    | ok m => exact (ih h.2 l n).2 m hx
  | elem t as f c' rest _ ihr =>
    intro l n
    simp only [Forest.append]
    rw [select_elem hr, h.1, Bool.and_false, if_neg (by decide), select_mute hr h.2.1]
    refine ⟨by rw [(ihr h.2.2 l n).1], fun es he => ?_⟩
    simp only [Forest.events] at he
    cases hf : f.events with
    | error e => rw [hf] at he; cases he
    | ok m =>
      cases hx : rest.events with
      | error e => rw [hf, hx] at he; cases he
      | ok m' => exact (ihr h.2.2 l n).2 m' hx

/-- Matches of the selectors do not meet in the forest. -/
def TreeApart (s r : Selector) : Forest → Prop
  | .nil => True
  | .fail _ => True
  | .leaf e rest => ¬ (s.matches e = true ∧ r.matches e = true) ∧ TreeApart s r rest
  | .elem t as f _ rest =>
    (s.matches (.openingTag t as) = true → r.matches (.openingTag t as) = false ∧ Mute r f) ∧
    (r.matches (.openingTag t as) = true → s.matches (.openingTag t as) = false ∧ Mute s f) ∧
    TreeApart s r f ∧ TreeApart s r rest

theorem append_ok {f g : Forest} {es : List Event} (h : (f.append g).events = .ok es) :
    (∃ m, f.events = .ok m) ∧ ∃ m, g.events = .ok m := by
  rw [events_append'] at h
  unfold andThen at h
  cases hf : f.events with
  | error e => rw [hf] at h; cases h
  | ok m =>
    cases hg : g.events with
    | error e => rw [hf, hg] at h; cases h
    | ok m' => exact ⟨⟨m, rfl⟩, m', rfl⟩

theorem ok_of_leaf {e : Event} {f : Forest} {es : List Event} (h : (Forest.leaf e f).events = .ok es) :
    ∃ m, f.events = .ok m := by
  rw [events_leaf] at h
  cases hf : f.events with
  | error e => rw [hf] at h; cases h
  | ok m => exact ⟨m, rfl⟩

theorem ok_of_elem {t as c} {f g : Forest} {es : List Event}
    (h : (Forest.elem t as f c g).events = .ok es) :
    (∃ m, f.events = .ok m) ∧ ∃ m, g.events = .ok m := by
  simp only [Forest.events] at h
  cases hf : f.events with
  | error e => rw [hf] at h; cases h
  | ok m =>
    cases hg : g.events with
    | error e => rw [hf, hg] at h; cases h
    | ok m' => exact ⟨⟨m, rfl⟩, m', rfl⟩

include hs hr in
theorem select_swap (hb : ∀ i f, Mute r f → Mute r (b i f)) (hc : ∀ i f, Mute s f → Mute s (c i f))
    (f : Forest) (h : TreeApart s r f) : ∀ l n m,
    (selectTree r d' c l m (selectTree s d b l n f).1).1.events =
      (selectTree s d b l n (selectTree r d' c l m f).1).1.events ∧
    ∀ es, (selectTree r d' c l m (selectTree s d b l n f).1).1.events = .ok es →
      (selectTree r d' c l m (selectTree s d b l n f).1).2 = (selectTree r d' c l m f).2 ∧
      (selectTree s d b l n (selectTree r d' c l m f).1).2 = (selectTree s d b l n f).2 := by
  induction f with
  | nil => exact fun _ _ _ => ⟨rfl, fun _ _ => ⟨rfl, rfl⟩⟩
  | fail e => exact fun _ _ _ => ⟨rfl, fun _ _ => ⟨rfl, rfl⟩⟩
  | leaf e rest ih =>
    intro l n m
    by_cases h1 : (inScope d l && s.matches e) = true
    · have h1' := (Bool.and_eq_true _ _ ▸ h1).2
      have h2 : r.matches e = false := Bool.eq_false_iff.2 fun h2 => h.1 ⟨h1', h2⟩
      have hg := hb n (.leaf e .nil) ⟨h2, trivial⟩
      have k := select_mute_append (d := d') (c := c) hr hg (selectTree s d b l (n + 1) rest).1 l m
      have ih := ih h.2 l (n + 1) m
      rw [select_leaf hs, if_pos h1, select_leaf hr, h2, Bool.and_false, if_neg (by decide),
        select_leaf hs, if_pos h1]
      dsimp only
      rw [k.1]
      refine ⟨by rw [events_append', events_append', ih.1], fun es he => ?_⟩
      obtain ⟨⟨m1, h3⟩, m2, h4⟩ := append_ok he
      exact ⟨(k.2 m1 h3).trans (ih.2 m2 h4).1, (ih.2 m2 h4).2⟩
    · by_cases h2 : (inScope d' l && r.matches e) = true
      · have h2' := (Bool.and_eq_true _ _ ▸ h2).2
        have h3 : s.matches e = false := Bool.eq_false_iff.2 fun h3 => h.1 ⟨h3, h2'⟩
        have hg := hc m (.leaf e .nil) ⟨h3, trivial⟩
        have k := select_mute_append (d := d) (c := b) hs hg (selectTree r d' c l (m + 1) rest).1 l n
        have ih := ih h.2 l n (m + 1)
        rw [select_leaf hs, if_neg h1, select_leaf hr, if_pos h2, select_leaf hr, if_pos h2]
        dsimp only
        rw [k.1]
        refine ⟨by rw [events_append', events_append', ih.1], fun es he => ?_⟩
        obtain ⟨⟨m1, h3⟩, m2, h4⟩ := append_ok he
        exact ⟨(ih.2 m2 h4).1, (k.2 m1 h3).trans (ih.2 m2 h4).2⟩
      · have ih := ih h.2 l n m
        rw [select_leaf hs, if_neg h1, select_leaf hr, if_neg h2, select_leaf hr, if_neg h2,
          select_leaf hs, if_neg h1]
        dsimp only
        refine ⟨by rw [events_leaf, events_leaf, ih.1], fun es he => ?_⟩
        obtain ⟨m', h4⟩ := ok_of_leaf he
        exact ih.2 m' h4
  | elem t as f x rest ihf ihr =>
    intro l n m
    obtain ⟨ha, hb', hf, hrest⟩ := h
    by_cases h1 : (inScope d l && s.matches (.openingTag t as)) = true
    · obtain ⟨h2, hm⟩ := ha (Bool.and_eq_true _ _ ▸ h1).2
      have hg := hb n (.elem t as f x .nil) ⟨h2, hm, trivial⟩
      have k := select_mute_append (d := d') (c := c) hr hg (selectTree s d b l (n + 1) rest).1 l m
      have ih := ihr hrest l (n + 1) m
      rw [select_elem hs, if_pos h1, select_elem hr, h2, Bool.and_false, if_neg (by decide),
        select_mute hr hm, select_elem hs, if_pos h1]
      dsimp only
      rw [k.1]
      refine ⟨by rw [events_append', events_append', ih.1], fun es he => ?_⟩
      obtain ⟨⟨m1, h3⟩, m2, h4⟩ := append_ok he
      exact ⟨(k.2 m1 h3).trans (ih.2 m2 h4).1, (ih.2 m2 h4).2⟩
    · by_cases h2 : (inScope d' l && r.matches (.openingTag t as)) = true
      · obtain ⟨h3, hm⟩ := hb' (Bool.and_eq_true _ _ ▸ h2).2
        have hg := hc m (.elem t as f x .nil) ⟨h3, hm, trivial⟩
        have k := select_mute_append (d := d) (c := b) hs hg (selectTree r d' c l (m + 1) rest).1 l n
        have ih := ihr hrest l n (m + 1)
        rw [select_elem hs, if_neg h1, select_mute hs hm, select_elem hr, if_pos h2,
          select_elem hr, if_pos h2]
        dsimp only
        rw [k.1]
        refine ⟨by rw [events_append', events_append', ih.1], fun es he => ?_⟩
        obtain ⟨⟨m1, h3⟩, m2, h4⟩ := append_ok he
        exact ⟨(ih.2 m2 h4).1, (k.2 m1 h3).trans (ih.2 m2 h4).2⟩
      · have ih := ihf hf (l + 1) n m
        rw [select_elem hs, if_neg h1, select_elem hr, if_neg h2, select_elem hr, if_neg h2,
          select_elem hs, if_neg h1]
        dsimp only
        have inner : ∀ es, (selectTree r d' c (l + 1) m (selectTree s d b (l + 1) n f).1).1.events =
            .ok es → _ := ih.2
        cases hx : (selectTree r d' c (l + 1) m (selectTree s d b (l + 1) n f).1).1.events with
        | error e =>
          refine ⟨?_, fun es he => ?_⟩
          · simp only [Forest.events]
            rw [← ih.1, hx]
            rfl
          · obtain ⟨⟨m1, h3⟩, -⟩ := ok_of_elem he
            rw [hx] at h3
            cases h3
        | ok ms =>
          obtain ⟨k1, k2⟩ := ih.2 ms hx
          rw [k1, k2]
          have ih' := ihr hrest l (selectTree s d b (l + 1) n f).2 (selectTree r d' c (l + 1) m f).2
          refine ⟨?_, fun es he => ?_⟩
          · simp only [Forest.events]
            rw [← ih.1, ih'.1]
          · obtain ⟨-, m2, h4⟩ := ok_of_elem he
            exact ih'.2 m2 h4

end Swap

/-! ## From events to forests -/

theorem events_mute {s : Selector} {f : Forest} {es : List Event} (h : f.events = .ok es)
    (hu : Unmatched s es) : Mute s f := by
  induction f generalizing es with
  | nil => trivial
  | fail e => cases h
  | leaf e rest ih =>
    obtain ⟨m, h1, rfl⟩ := leaf_ok h
    exact ⟨hu _ List.mem_cons_self, ih h1 fun x hx => hu x (List.mem_cons_of_mem _ hx)⟩
  | elem t as f c rest ihf ihr =>
    obtain ⟨m, m', h1, h2, rfl⟩ := elem_ok h
    exact ⟨hu _ List.mem_cons_self, ihf h1 fun x hx => hu x (by simp [hx]),
      ihr h2 fun x hx => hu x (by simp [hx])⟩

theorem leaf_element {e : Event} (hl : Leaf e) (he : isStart e = true) : Element [e] := by
  cases e with
  | openingTag => cases hl
  | selfClosedTag t as => exact .selfClosed t as
  | voidTag t as => exact .void t as
  | _ => cases he

theorem tree_apart {s r : Selector} (hs : OnlyStarts s) {all : List Event}
    (h : NeverMeet s r all) {f : Forest} (hf : f.WF) : ∀ {x es y : List Event},
    f.events = .ok es → all = x ++ es ++ y → TreeApart s r f := by
  induction f with
  | nil => exact fun _ _ => trivial
  | fail e => exact fun _ _ => trivial
  | leaf e rest ih =>
    intro x es y he ha
    obtain ⟨m, h1, rfl⟩ := leaf_ok he
    refine ⟨fun ⟨h2, h3⟩ => ?_, ih hf.2.2.2 (x := x ++ [e]) (y := y) h1 (by simp [ha])⟩
    have := (h x e [] (m ++ y) (by simp [ha]) (leaf_element hf.1 (hs e h2))).1 h2 e
      List.mem_cons_self
    rw [this] at h3
    cases h3
  | elem t as f c rest ihf ihr =>
    intro x es y he ha
    obtain ⟨m, m', h1, h2, rfl⟩ := elem_ok he
    have hE : Element (.openingTag t as :: (m ++ [.closingTag c])) :=
      .pair hf.1 (wf_balanced hf.2.2.1 h1).1
    have hm := h x _ _ (m' ++ y) (by simp [ha]) hE
    have inner : ∀ q : Selector, Unmatched q (.openingTag t as :: (m ++ [.closingTag c])) →
        q.matches (.openingTag t as) = false ∧ Mute q f := fun q hq =>
      ⟨hq _ List.mem_cons_self, events_mute h1 fun z hz => hq z (by simp [hz])⟩
    exact ⟨fun h3 => inner r (hm.1 h3), fun h3 => inner s (hm.2 h3),
      ihf hf.2.2.1 (x := x ++ [.openingTag t as]) (y := .closingTag c :: (m' ++ y)) h1 (by simp [ha]),
      ihr hf.2.2.2 (x := x ++ .openingTag t as :: (m ++ [.closingTag c])) (y := y) h2 (by simp [ha])⟩

/-! ## Matches taken one by one -/

section First

variable {s : Selector} (hs : OnlyStarts s) {d : Bool} {b : Nat → Forest → Forest}

/-- The builder leaves no match of matched elements. -/
def TreeClears (s : Selector) (b : Forest → Forest) : Prop :=
  (∀ e, Leaf e → (Forest.leaf e .nil).WF → s.matches e = true → Mute s (b (.leaf e .nil)) ∧ Sound (b (.leaf e .nil))) ∧
  ∀ t as f c, (Forest.elem t as f c .nil).WF → Sound f → s.matches (.openingTag t as) = true →
    Mute s (b (.elem t as f c .nil)) ∧ Sound (b (.elem t as f c .nil))

include hs in
theorem select_shift (f : Forest) : ∀ l n,
    (selectTree s d (fun i => b (i + 1)) l n f).1 = (selectTree s d b l (n + 1) f).1 ∧
    (selectTree s d (fun i => b (i + 1)) l n f).2 + 1 = (selectTree s d b l (n + 1) f).2 := by
  induction f with
  | nil => exact fun _ _ => ⟨rfl, rfl⟩
  | fail e => exact fun _ _ => ⟨rfl, rfl⟩
  | leaf e rest ih =>
    intro l n
    rw [select_leaf hs, select_leaf hs]
    split
    · exact ⟨by rw [(ih l (n + 1)).1], (ih l (n + 1)).2⟩
    · exact ⟨by rw [(ih l n).1], (ih l n).2⟩
  | elem t as f c rest ihf ihr =>
    intro l n
    rw [select_elem hs, select_elem hs]
    split
    · exact ⟨by rw [(ihr l (n + 1)).1], (ihr l (n + 1)).2⟩
    · rw [← (ihf (l + 1) n).2]
      exact ⟨by rw [(ihr l _).1, (ihf (l + 1) n).1], (ihr l _).2⟩

include hs in
theorem select_first (hb : TreeClears s (b 0)) (f : Forest) (hf : f.WF) (hd : Sound f) : ∀ l,
    ((selectOnceTree s d (b 0) l f).2 = false →
      (selectOnceTree s d (b 0) l f).1 = f ∧ ∀ b', selectTree s d b' l 0 f = (f, 0)) ∧
    ((selectOnceTree s d (b 0) l f).2 = true →
      (selectTree s d (fun i => b (i + 1)) l 0 (selectOnceTree s d (b 0) l f).1).1 =
        (selectTree s d b l 0 f).1 ∧
      (selectTree s d (fun i => b (i + 1)) l 0 (selectOnceTree s d (b 0) l f).1).2 + 1 =
        (selectTree s d b l 0 f).2 ∧ Sound (selectOnceTree s d (b 0) l f).1) := by
  induction f with
  | nil => exact fun _ => ⟨fun _ => ⟨rfl, fun _ => rfl⟩, fun h => by cases h⟩
  | fail e => exact hd.elim
  | leaf e rest ih =>
    intro l
    have ih := ih hf.2.2.2 hd l
    simp only [selectOnceTree]
    by_cases h : (inScope d l && s.matches e) = true
    · rw [if_pos h]
      have h' := (Bool.and_eq_true _ _ ▸ h).2
      have hc := hb.1 e hf.1 ⟨hf.1, hf.2.1, hf.2.2.1, trivial⟩ h'
      obtain ⟨m, hm⟩ := sound_iff.1 hc.2
      have k := select_mute_append (d := d) (c := fun i => b (i + 1)) hs hc.1 rest l 0
      refine ⟨fun h => (by cases h), fun _ => ?_⟩
      rw [single_start (hs e h'), select_leaf hs, if_pos h]
      dsimp only
      rw [k.1, k.2 m hm]
      exact ⟨by rw [(select_shift hs rest l 0).1], (select_shift hs rest l 0).2,
        sound_append.2 ⟨hc.2, hd⟩⟩
    · rw [if_neg h]
      refine ⟨fun hn => ?_, fun hy => ?_⟩
      · obtain ⟨h1, h2⟩ := ih.1 hn
        exact ⟨by rw [h1], fun b' => by rw [select_leaf hs, if_neg h, h2]⟩
      · obtain ⟨h1, h2, h3⟩ := ih.2 hy
        dsimp only
        rw [select_leaf hs, select_leaf hs, if_neg h, if_neg h]
        exact ⟨by rw [h1], h2, h3⟩
  | elem t as f c rest ihf ihr =>
    intro l
    have ihf := ihf hf.2.2.1 hd.1 (l + 1)
    have ihr := ihr hf.2.2.2 hd.2 l
    simp only [selectOnceTree, starts_closing hs, Bool.and_false, Bool.false_eq_true, if_false]
    by_cases h : (inScope d l && s.matches (.openingTag t as)) = true
    · rw [if_pos h]
      have h' := (Bool.and_eq_true _ _ ▸ h).2
      have hc := hb.2 t as f c ⟨hf.1, hf.2.1, hf.2.2.1, trivial⟩ hd.1 h'
      obtain ⟨m, hm⟩ := sound_iff.1 hc.2
      have k := select_mute_append (d := d) (c := fun i => b (i + 1)) hs hc.1 rest l 0
      refine ⟨fun h => (by cases h), fun _ => ?_⟩
      rw [select_elem hs, if_pos h]
      dsimp only
      rw [k.1, k.2 m hm]
      exact ⟨by rw [(select_shift hs rest l 0).1], (select_shift hs rest l 0).2,
        sound_append.2 ⟨hc.2, hd.2⟩⟩
    · rw [if_neg h]
      by_cases hx : (selectOnceTree s d (b 0) (l + 1) f).2 = true
      · rw [if_pos hx]
        refine ⟨fun h => (by cases h), fun _ => ?_⟩
        obtain ⟨h1, h2, h3⟩ := ihf.2 hx
        dsimp only
        rw [select_elem hs, select_elem hs, if_neg h, if_neg h, ← h2]
        dsimp only
        exact ⟨by rw [h1, (select_shift hs rest l _).1], (select_shift hs rest l _).2, h3, hd.2⟩
      · rw [if_neg hx]
        obtain ⟨h1, h2⟩ := ihf.1 (by simpa using hx)
        refine ⟨fun hn => ?_, fun hy => ?_⟩
        · obtain ⟨h3, h4⟩ := ihr.1 hn
          exact ⟨by rw [h1, h3], fun b' => by rw [select_elem hs, if_neg h, h2, h4]⟩
        · obtain ⟨h3, h4, h5⟩ := ihr.2 hy
          dsimp only
          rw [select_elem hs, select_elem hs, if_neg h, if_neg h, h1, h2, h2]
          dsimp only
          exact ⟨by rw [h3], h4, hd.1, h5⟩

include hs in
theorem select_grows (f : Forest) : ∀ l n, n ≤ (selectTree s d b l n f).2 := by
  induction f with
  | nil => exact fun _ _ => Nat.le_refl _
  | fail e => exact fun _ _ => Nat.le_refl _
  | leaf e rest ih =>
    intro l n
    rw [select_leaf hs]
    split
    · exact Nat.le_of_succ_le (ih l (n + 1))
    · exact ih l n
  | elem t as f c rest ihf ihr =>
    intro l n
    rw [select_elem hs]
    split
    · exact Nat.le_of_succ_le (ihr l (n + 1))
    · exact Nat.le_trans (ihf (l + 1) n) (ihr l _)

include hs in
theorem select_none (f : Forest) : ∀ l n, (selectTree s d b l n f).2 = n →
    (selectTree s d b l n f).1 = f := by
  induction f with
  | nil => exact fun _ _ _ => rfl
  | fail e => exact fun _ _ _ => rfl
  | leaf e rest ih =>
    intro l n
    rw [select_leaf hs]
    split
    · intro h
      have h1 := select_grows (d := d) (b := b) hs rest l (n + 1)
      dsimp only at h
      omega
    · intro h
      rw [ih l n h]
  | elem t as f c rest ihf ihr =>
    intro l n
    rw [select_elem hs]
    split
    · intro h
      have h1 := select_grows (d := d) (b := b) hs rest l (n + 1)
      dsimp only at h
      omega
    · intro h
      dsimp only at h ⊢
      have h1 := select_grows (d := d) (b := b) hs f (l + 1) n
      have h2 := select_grows (d := d) (b := b) hs rest l (selectTree s d b (l + 1) n f).2
      rw [ihf (l + 1) n (by omega), ihr l _ (by omega)]

include hs in
theorem select_bound {f : Forest} : ∀ {es : List Event}, f.events = .ok es →
    ∀ l n, (selectTree s d b l n f).2 ≤ n + es.length := by
  induction f with
  | nil => exact fun _ _ _ => Nat.le_add_right _ _
  | fail e => intro es h; cases h
  | leaf e rest ih =>
    intro es h l n
    obtain ⟨m, h1, rfl⟩ := leaf_ok h
    rw [select_leaf hs, List.length_cons]
    split
    · have := ih h1 l (n + 1)
      dsimp only
      omega
    · have := ih h1 l n
      dsimp only
      omega
  | elem t as f c rest ihf ihr =>
    intro es h l n
    obtain ⟨m, m', h1, h2, rfl⟩ := elem_ok h
    rw [select_elem hs]
    simp only [List.length_cons, List.length_append]
    split
    · have := ihr h2 l (n + 1)
      dsimp only
      omega
    · have h3 := ihf h1 (l + 1) n
      have h4 := ihr h2 l (selectTree s d b (l + 1) n f).2
      dsimp only
      omega

end First

theorem tree_clears {s : Selector} {k : Kind} {p : Prog .elem k} (hp : WellNested p)
    (hs : OnlyStarts s) (h : Clears s p) : TreeClears s (meaning p) := by
  have main : ∀ {f : Forest} {e m}, f.WF → f.events = .ok (e :: m) → Element (e :: m) →
      s.matches e = true → Mute s (meaning p f) ∧ Sound (meaning p f) := by
    intro f e m hf he hE hm
    obtain ⟨m', h1, h2⟩ := h e m hE (wf_page hf he) hm
    rw [run_meaning p hp (wf_page hf he) hE, treeOf_of_events hf he] at h1
    cases h1' : (meaning p f).events with
    | error e => rw [h1'] at h1; cases h1
    | ok m'' =>
      rw [h1'] at h1
      cases h1
      exact ⟨events_mute h1' h2, sound_iff.2 ⟨_, h1'⟩⟩
  refine ⟨fun e hl hf hm => ?_, fun t as f c hf hd hm => ?_⟩
  · exact main hf rfl (leaf_element hl (hs e hm)) hm
  · obtain ⟨m, h1⟩ := sound_iff.1 hd
    refine main (m := m ++ [.closingTag c]) hf ?_ (.pair hf.1 (wf_balanced hf.2.2.1 h1).1) hm
    rw [events_elem, h1]
    rfl

theorem one_nested {s : Selector} {k : Kind} {b : Nat → Prog .elem k}
    (hb : ∀ i, WellNested (b i)) (n : Nat) : WellNested (oneByOne s b n) := by
  induction n with
  | zero => trivial
  | succ n ih => exact ⟨ih, hb n⟩

theorem one_by_one {s : Selector} (hs : OnlyStarts s) {k : Kind} {b : Nat → Prog .elem k}
    (hn : ∀ i, WellNested (b i)) (hb : ∀ i, Clears s (b i)) {f : Forest} (hf : f.WF)
    (hd : Sound f) (n : Nat) :
    (meaning (oneByOne s b n) f).WF ∧ Sound (meaning (oneByOne s b n) f) ∧
    (selectTree s false (fun i => meaning (b (i + n))) 0 0 (meaning (oneByOne s b n) f)).1 =
      (selectTree s false (fun i => meaning (b i)) 0 0 f).1 ∧
    (selectTree s false (fun i => meaning (b (i + n))) 0 0 (meaning (oneByOne s b n) f)).2 =
      (selectTree s false (fun i => meaning (b i)) 0 0 f).2 - n := by
  induction n with
  | zero => exact ⟨hf, hd, rfl, rfl⟩
  | succ n ih =>
    obtain ⟨h1, h2, h3, h4⟩ := ih
    have hw := (meaning_ok (oneByOne s b (n + 1)) (one_nested hn (n + 1)) f trivial hf).2
    have hc : TreeClears s ((fun i => meaning (b (i + n))) 0) := by
      have := tree_clears (hn n) hs (hb n)
      simpa only [Nat.zero_add] using this
    have k := select_first (d := false) (b := fun i => meaning (b (i + n))) hs hc
      (meaning (oneByOne s b n) f) h1 h2 0
    have e0 : meaning (oneByOne s b (n + 1)) f = (selectOnceTree s false (meaning (b (0 + n))) 0
        (meaning (oneByOne s b n) f)).1 := by rw [Nat.zero_add]; rfl
    have e1 : (fun i => meaning (b (i + (n + 1)))) = fun i => meaning (b (i + 1 + n)) := by
      funext i
      rw [Nat.add_assoc, Nat.add_comm n 1]
    refine ⟨hw, ?_⟩
    rw [e0, e1]
    cases hx : (selectOnceTree s false (meaning (b (0 + n))) 0 (meaning (oneByOne s b n) f)).2 with
    | false =>
      obtain ⟨k1, k2⟩ := k.1 hx
      rw [k2] at h3 h4
      rw [k1, k2]
      dsimp only at h3 h4 ⊢
      exact ⟨h2, h3, by omega⟩
    | true =>
      obtain ⟨k1, k2, k3⟩ := k.2 hx
      exact ⟨k3, k1.trans h3, by omega⟩

/-! ## The first match -/

theorem select_rest {s : Selector} (hs : OnlyStarts s) {b : Nat → Forest → Forest} {d : Bool}
    (f : Forest) : ∀ l n, (∀ i f, n ≤ i → b i f = f) → (selectTree s d b l n f).1 = f := by
  induction f with
  | nil => exact fun _ _ _ => rfl
  | fail e => exact fun _ _ _ => rfl
  | leaf e rest ih =>
    intro l n hb
    rw [select_leaf hs]
    split
    · rw [hb n _ (Nat.le_refl n), ih l (n + 1) fun i f hi => hb i f (Nat.le_of_succ_le hi)]
      rfl
    · rw [ih l n hb]
  | elem t as f c rest ihf ihr =>
    intro l n hb
    rw [select_elem hs]
    split
    · rw [hb n _ (Nat.le_refl n), ihr l (n + 1) fun i f hi => hb i f (Nat.le_of_succ_le hi)]
      rfl
    · rw [ihf (l + 1) n hb, ihr l _ fun i g hi =>
        hb i g (Nat.le_trans (select_grows hs f (l + 1) n) hi)]

theorem once_select {s : Selector} (hs : OnlyStarts s) {b : Nat → Forest → Forest} {d : Bool}
    (hb : ∀ i f, b (i + 1) f = f) (f : Forest) : ∀ l,
    (selectOnceTree s d (b 0) l f).1 = (selectTree s d b l 0 f).1 ∧
    ((selectOnceTree s d (b 0) l f).2 = false ↔ (selectTree s d b l 0 f).2 = 0) := by
  have hb' : ∀ i f, 1 ≤ i → b i f = f := fun i f hi => by
    obtain ⟨j, rfl⟩ := Nat.exists_eq_add_of_le' hi
    exact hb j f
  have pos : ∀ l f, (selectTree s d b l 1 f).2 ≠ 0 := fun l f =>
    Nat.ne_of_gt (select_grows hs f l 1)
  induction f with
  | nil => exact fun _ => ⟨rfl, by simp [selectOnceTree, selectTree]⟩
  | fail e => exact fun _ => ⟨rfl, by simp [selectOnceTree, selectTree]⟩
  | leaf e rest ih =>
    intro l
    rw [select_leaf hs]
    simp only [selectOnceTree]
    split
    · next h =>
      rw [single_start (hs e (Bool.and_eq_true _ _ ▸ h).2), select_rest hs rest l 1 hb']
      exact ⟨rfl, fun h => (by cases h), fun h => (pos _ _ h).elim⟩
    · exact ⟨congrArg _ (ih l).1, (ih l).2⟩
  | elem t as f c rest ihf ihr =>
    intro l
    rw [select_elem hs]
    simp only [selectOnceTree, starts_closing hs, Bool.and_false, Bool.false_eq_true, if_false]
    split
    · rw [select_rest hs rest l 1 hb']
      exact ⟨rfl, fun h => (by cases h), fun h => (pos _ _ h).elim⟩
    · obtain ⟨h1, h2⟩ := ihf (l + 1)
      by_cases h : (selectOnceTree s d (b 0) (l + 1) f).2 = true
      · rw [if_pos h]
        have hc : 1 ≤ (selectTree s d b (l + 1) 0 f).2 :=
          Nat.pos_of_ne_zero fun h' => by rw [h2.2 h'] at h; cases h
        rw [select_rest hs rest l _ fun i f hi => hb' i f (Nat.le_trans hc hi), h1]
        exact ⟨rfl, fun h => (by cases h), fun h' => by
          have := select_grows (d := d) (b := b) hs rest l (selectTree s d b (l + 1) 0 f).2
          omega⟩
      · rw [if_neg h, h2.1 (Bool.eq_false_iff.2 h), h1, (ihr l).1]
        exact ⟨rfl, (ihr l).2⟩

end Fuser
