import Verif.Spec.Agree
import Verif.Proof.Apart

/-!
# Selectors that agree
-/

namespace Fuser

open Spec

variable {A : Event → Prop}

/-- Every event of the forest has the property, also those after a failure. -/
def AllOf (A : Event → Prop) : Forest → Prop
  | .nil => True
  | .fail _ => True
  | .leaf e rest => A e ∧ AllOf A rest
  | .elem t as f _ rest => A (.openingTag t as) ∧ AllOf A f ∧ AllOf A rest

theorem allOf_append {f g : Forest} (hf : AllOf A f) (hg : AllOf A g) : AllOf A (f.append g) := by
  induction f with
  | nil => exact hg
  | fail e => trivial
  | leaf e rest ih => exact ⟨hf.1, ih hf.2⟩
  | elem t as f c rest _ ih => exact ⟨hf.1, hf.2.1, ih hf.2.2⟩

theorem allOf_removed (f : Forest) : AllOf A (removed f) := by
  rcases removed_or f with ⟨h, -⟩ | ⟨e, h, -⟩ <;> rw [h] <;> trivial

theorem allOf_single {e : Event} (h : A e) : AllOf A (single e) := by
  unfold single
  split
  · exact ⟨h, trivial⟩
  · trivial

theorem allOf_grow {rs : List (Except StreamError Event)} (h : ∀ e, .ok e ∈ rs → A e) :
    AllOf A (grow rs).1 ∧ ∀ x ∈ (grow rs).2, AllOf A x.2 := by
  induction rs with
  | nil => exact ⟨trivial, by simp [grow]⟩
  | cons r rs ih =>
    have ih := ih fun e he => h e (List.mem_cons_of_mem _ he)
    cases r with
    | error e => exact ⟨trivial, by simp [grow]⟩
    | ok e =>
      have he := h e List.mem_cons_self
      rcases hg : grow rs with ⟨f, o⟩
      rw [hg] at ih
      cases e with
      | noop => simpa only [grow, hg] using ih
      | closingTag c =>
        simp only [grow, hg]
        exact ⟨trivial, by simpa using ih⟩
      | openingTag t as =>
        rcases o with _ | ⟨⟨c, g⟩, o⟩ <;> simp only [grow, hg]
        · exact ⟨⟨he, ih.1, trivial⟩, by simp⟩
        · have h2 := ih.2 (c, g) List.mem_cons_self
          exact ⟨⟨he, ih.1, h2⟩, fun x hx => ih.2 x (List.mem_cons_of_mem _ hx)⟩
      | _ =>
        simp only [grow, hg]
        exact ⟨⟨he, ih.1⟩, ih.2⟩

theorem allOf_treeOf {es : List Event} (h : ∀ e ∈ es, A e) : AllOf A (treeOf es) := by
  refine (allOf_grow fun e he => ?_).1
  obtain ⟨e', h', heq⟩ := List.mem_map.1 he
  cases heq
  exact h e h'

theorem allOf_events (hc : ∀ c, A (.closingTag c)) {f : Forest} (h : AllOf A f) :
    ∀ {es : List Event}, f.events = .ok es → ∀ e ∈ es, A e := by
  induction f with
  | nil => intro es he; cases he; intro e he; cases he
  | fail e => intro es he; cases he
  | leaf e rest ih =>
    intro es he
    rw [events_leaf] at he
    cases hr : rest.events with
    | error e => rw [hr] at he; cases he
    | ok m =>
      rw [hr] at he
      cases he
      exact List.forall_mem_cons.2 ⟨h.1, ih h.2 hr⟩
  | elem t as f c rest ihf ihr =>
    intro es he
    simp only [Forest.events] at he
    cases hf : f.events with
    | error e => rw [hf] at he; cases he
    | ok m =>
      cases hr : rest.events with
      | error e => rw [hf, hr] at he; cases he
      | ok m' =>
        rw [hf, hr] at he
        cases he
        intro e he
        simp only [List.mem_cons, List.cons_append, List.mem_append] at he
        rcases he with rfl | he | rfl | he
        · exact h.1
        · exact ihf h.2.1 hf e he
        · exact hc c
        · exact ihr h.2.2 hr e he

theorem allOf_copies {b : Nat → Forest} (h : ∀ i, AllOf A (b i)) (n : Nat) :
    ∀ i, AllOf A (copies b i n) := by
  induction n with
  | zero => exact fun _ => trivial
  | succ n ih => exact fun i => allOf_append (h i) (ih _)

theorem allOf_select (hc : ∀ c, A (.closingTag c)) {s : Selector} {d : Bool}
    {b : Nat → Forest → Forest} (hb : ∀ i f, AllOf A f → AllOf A (b i f)) (f : Forest)
    (h : AllOf A f) : ∀ l n, AllOf A (selectTree s d b l n f).1 := by
  induction f with
  | nil => exact fun _ _ => trivial
  | fail e => exact fun _ _ => trivial
  | leaf e rest ih =>
    intro l n
    simp only [selectTree]
    split
    · exact allOf_append (hb _ _ (allOf_single h.1)) (ih h.2 _ _)
    · exact ⟨h.1, ih h.2 _ _⟩
  | elem t as f c rest ihf ihr =>
    intro l n
    simp only [selectTree]
    split
    · exact allOf_append (hb _ _ ⟨h.1, h.2.1, trivial⟩) (ihr h.2.2 _ _)
    · split
      · exact ⟨h.1, allOf_append (ihf h.2.1 _ _) (hb _ _ (allOf_single (hc c))), ihr h.2.2 _ _⟩
      · exact ⟨h.1, ihf h.2.1 _ _, ihr h.2.2 _ _⟩

theorem allOf_once (hc : ∀ c, A (.closingTag c)) {s : Selector} {d : Bool} {b : Forest → Forest}
    (hb : ∀ f, AllOf A f → AllOf A (b f)) (f : Forest) (h : AllOf A f) : ∀ l,
    AllOf A (selectOnceTree s d b l f).1 := by
  induction f with
  | nil => exact fun _ => trivial
  | fail e => exact fun _ => trivial
  | leaf e rest ih =>
    intro l
    simp only [selectOnceTree]
    split
    · exact allOf_append (hb _ (allOf_single h.1)) h.2
    · exact ⟨h.1, ih h.2 _⟩
  | elem t as f c rest ihf ihr =>
    intro l
    simp only [selectOnceTree]
    split
    · exact allOf_append (hb _ ⟨h.1, h.2.1, trivial⟩) h.2.2
    · split
      · exact ⟨h.1, ihf h.2.1 _, h.2.2⟩
      · split
        · exact ⟨h.1, allOf_append (ihf h.2.1 _) (hb _ (allOf_single (hc c))), h.2.2⟩
        · exact ⟨h.1, ihf h.2.1 _, ihr h.2.2 _⟩

theorem allOf_meaning (hA : Lasting A) {a k : Kind} (p : Prog a k) (h : Keeps A p) :
    ∀ f, AllOf A f → AllOf A (meaning p f) := by
  induction p with
  | src => exact fun f hf => hf
  | forget p ih => exact ih h
  | apply p q ihp ihq => exact fun f hf => ihq h.2 _ (ihp h.1 f hf)
  | fallOk p ih => exact ih h
  | fallErr e => exact fun _ _ => trivial
  | selectRaw p s' d b ih ihb =>
    exact fun f hf => allOf_select hA.1 (fun i => ihb i (h.2 i)) _ (ih h.1 f hf) _ _
  | selectOnceRaw p s' d b ih ihb =>
    exact fun f hf => allOf_once hA.1 (ihb h.2) _ (ih h.1 f hf) _
  | remove p ih => exact fun f _ => allOf_removed _
  | prepend p c ih => exact fun f hf => allOf_append (allOf_grow h.2).1 (ih h.1 f hf)
  | append p c ih => exact fun f hf => allOf_append (ih h.1 f hf) (allOf_grow h.2).1
  | «repeat» p n b ih ihb =>
    intro f hf
    simp only [meaning, repeated]
    split
    · exact allOf_copies (fun i => ihb i (h.2 i) _ (ih h.1 f hf)) _ _
    · trivial
  | orElse p n q r ih ihq ihr =>
    intro f hf
    simp only [meaning]
    split
    · exact ihq h.2.1 _ (ih h.1 f hf)
    · exact ihr h.2.2 _ (ih h.1 f hf)
  | applyTemplate p g ih =>
    intro f hf
    simp only [meaning, applied]
    split
    · rename_i es he
      split
      · rename_i t ht
        exact allOf_treeOf (h.2 _ _ (allOf_events hA.1 (ih h.1 f hf) he) ht)
      · trivial
    · trivial
  | contents p b ih ihb =>
    intro f hf
    have hf := ih h.1 f hf
    simp only [meaning]
    generalize meaning p f = g at hf
    cases g with
    | nil => trivial
    | fail e => trivial
    | elem t as f c rest => exact ⟨hf.1, ihb h.2 _ hf.2.1, hf.2.2⟩
    | leaf e rest =>
      cases e with
      | selfClosedTag t as => exact ⟨hA.2 t as hf.1, ihb h.2 .nil trivial, hf.2⟩
      | _ => exact hf
  | attr p op ih =>
    intro f hf
    have hf := ih h.1 f hf
    simp only [meaning]
    generalize meaning p f = g at hf
    cases g with
    | nil => trivial
    | fail e => trivial
    | elem t as f c rest => exact ⟨(h.2 t as).1 hf.1, hf.2⟩
    | leaf e rest =>
      cases e with
      | selfClosedTag t as => exact ⟨(h.2 t as).2.1 hf.1, hf.2⟩
      | voidTag t as => exact ⟨(h.2 t as).2.2 hf.1, hf.2⟩
      | _ => exact hf

/-! ## The same matches -/

section Ext

variable (hc : ∀ c, A (.closingTag c)) {s r : Selector} (hs : ∀ e, A e → s.matches e = r.matches e)

include hc hs

theorem select_ext {d : Bool} {b c : Nat → Forest → Forest}
    (hb : ∀ i f, AllOf A f → b i f = c i f) (f : Forest) (h : AllOf A f) : ∀ l n,
    selectTree s d b l n f = selectTree r d c l n f := by
  induction f with
  | nil => exact fun _ _ => rfl
  | fail e => exact fun _ _ => rfl
  | leaf e rest ih =>
    intro l n
    simp only [selectTree]
    rw [hs e h.1, hb _ _ (allOf_single h.1), ih h.2, ih h.2]
  | elem t as f x rest ihf ihr =>
    intro l n
    simp only [selectTree]
    rw [hs _ h.1, hs _ (hc x), hb _ (.elem t as f x .nil) ⟨h.1, h.2.1, trivial⟩, ihf h.2.1,
      ihr h.2.2, ihr h.2.2, hb _ _ (allOf_single (hc x))]

theorem once_ext {d : Bool} {b c : Forest → Forest} (hb : ∀ f, AllOf A f → b f = c f) (f : Forest)
    (h : AllOf A f) : ∀ l, selectOnceTree s d b l f = selectOnceTree r d c l f := by
  induction f with
  | nil => exact fun _ => rfl
  | fail e => exact fun _ => rfl
  | leaf e rest ih =>
    intro l
    simp only [selectOnceTree]
    rw [hs e h.1, hb _ (allOf_single h.1), ih h.2]
  | elem t as f x rest ihf ihr =>
    intro l
    simp only [selectOnceTree]
    rw [hs _ h.1, hs _ (hc x), hb (.elem t as f x .nil) ⟨h.1, h.2.1, trivial⟩, ihf h.2.1,
      ihr h.2.2, hb _ (allOf_single (hc x))]

end Ext

theorem meaning_ext (hA : Lasting A) {a k : Kind} {p q : Prog a k} (h : OtherSelectors A p q)
    (hk : Keeps A p) : ∀ f, AllOf A f → meaning p f = meaning q f := by
  induction h with
  | src => exact fun _ _ => rfl
  | forget _ ih => exact ih hk
  | @apply _ _ _ p q p' q' _ _ ih1 ih2 =>
    intro f hf
    simp only [meaning]
    rw [ih2 hk.2 _ (allOf_meaning hA p hk.1 f hf), ih1 hk.1 f hf]
  | fallOk _ ih => exact ih hk
  | fallErr => exact fun _ _ => rfl
  | @select _ _ _ p q s r d b c _ hs _ ih ihb =>
    intro f hf
    simp only [meaning]
    rw [select_ext hA.1 hs (fun i g hg => ihb i (hk.2 i) g hg) _ (allOf_meaning hA p hk.1 f hf),
      ih hk.1 f hf]
  | @selectOnce _ _ _ p q s r d b c _ hs _ ih ihb =>
    intro f hf
    simp only [meaning]
    rw [once_ext hA.1 hs (fun g hg => ihb hk.2 g hg) _ (allOf_meaning hA p hk.1 f hf), ih hk.1 f hf]
  | remove _ ih => intro f hf; simp only [meaning]; rw [ih hk f hf]
  | prepend _ ih => intro f hf; simp only [meaning]; rw [ih hk.1 f hf]
  | append _ ih => intro f hf; simp only [meaning]; rw [ih hk.1 f hf]
  | @«repeat» _ _ _ p q n b c _ _ ih ihb =>
    intro f hf
    have hp := allOf_meaning hA p hk.1 f hf
    simp only [meaning, repeated]
    rw [← ih hk.1 f hf]
    have : (fun i => meaning (b i) (meaning p f)) = fun i => meaning (c i) (meaning p f) :=
      funext fun i => ihb i (hk.2 i) _ hp
    rw [this]
  | @orElse _ _ _ _ p q n b c b' c' _ _ _ ih ihb ihc =>
    intro f hf
    have hp := allOf_meaning hA p hk.1 f hf
    simp only [meaning]
    rw [← ih hk.1 f hf, ihb hk.2.1 _ hp, ihc hk.2.2 _ hp]
  | template _ ih => intro f hf; simp only [meaning]; rw [ih hk.1 f hf]
  | @contents _ _ p q b c _ _ ih ihb =>
    intro f hf
    have hp := allOf_meaning hA p hk.1 f hf
    simp only [meaning]
    rw [← ih hk.1 f hf]
    generalize meaning p f = g at hp
    cases g with
    | nil => rfl
    | fail e => rfl
    | elem t as f c rest => simp only [onChildren]; rw [ihb hk.2 _ hp.2.1]
    | leaf e rest =>
      cases e with
      | selfClosedTag t as => simp only [onChildren]; rw [ihb hk.2 .nil trivial]
      | _ => rfl
  | attr _ ih => intro f hf; simp only [meaning]; rw [ih hk.1 f hf]

theorem nested_ext {a k : Kind} {p q : Prog a k} (h : OtherSelectors A p q) :
    WellNested p → WellNested q := by
  induction h with
  | src => exact id
  | forget _ ih => exact ih
  | apply _ _ ih1 ih2 => exact fun h => ⟨ih1 h.1, ih2 h.2⟩
  | fallOk _ ih => exact ih
  | fallErr => exact id
  | select _ _ _ ih ihb => exact fun h => ⟨ih h.1, fun i => ihb i (h.2 i)⟩
  | selectOnce _ _ _ ih ihb => exact fun h => ⟨ih h.1, ihb h.2⟩
  | remove _ ih => exact ih
  | prepend _ ih => exact fun h => ⟨ih h.1, h.2⟩
  | append _ ih => exact fun h => ⟨ih h.1, h.2⟩
  | «repeat» _ _ ih ihb => exact fun h => ⟨ih h.1, fun i => ihb i (h.2 i)⟩
  | orElse _ _ _ ih ihb ihc => exact fun h => ⟨ih h.1, ihb h.2.1, ihc h.2.2⟩
  | template _ ih => exact fun h => ⟨ih h.1, h.2⟩
  | contents _ _ ih ihb => exact fun h => ⟨ih h.1, ihb h.2⟩
  | attr _ ih => exact ih

theorem allOf_any (f : Forest) : AllOf (fun _ => True) f := by
  induction f with
  | nil => trivial
  | fail e => trivial
  | leaf e rest ih => exact ⟨trivial, ih⟩
  | elem t as f c rest ihf ihr => exact ⟨trivial, ihf, ihr⟩

theorem keeps_any {a k : Kind} (p : Prog a k) : Keeps (fun _ => True) p := by
  induction p with
  | src => trivial
  | forget p ih => exact ih
  | apply p q ih1 ih2 => exact ⟨ih1, ih2⟩
  | fallOk p ih => exact ih
  | fallErr e => trivial
  | selectRaw p s d b ih ihb => exact ⟨ih, ihb⟩
  | selectOnceRaw p s d b ih ihb => exact ⟨ih, ihb⟩
  | remove p ih => exact ih
  | prepend p c ih => exact ⟨ih, fun _ _ => trivial⟩
  | append p c ih => exact ⟨ih, fun _ _ => trivial⟩
  | «repeat» p n b ih ihb => exact ⟨ih, ihb⟩
  | orElse p n r q ih ihr ihq => exact ⟨ih, ihr, ihq⟩
  | applyTemplate p g ih => exact ⟨ih, fun _ _ _ _ _ _ => trivial⟩
  | contents p b ih ihb => exact ⟨ih, ihb⟩
  | attr p op ih => exact ⟨ih, fun _ _ => ⟨id, id, id⟩⟩

end Fuser
