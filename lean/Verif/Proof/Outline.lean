import Verif.Spec.Outline
import Verif.Proof.Transform

/-!
# What calls on elements keep
-/

namespace Fuser

open Spec

/-- The same top level, as forests; the second may fail. -/
inductive Outline : Forest → Forest → Prop
  | nil : Outline .nil .nil
  | fail {f e} : Outline f (.fail e)
  | same {e f g} : Outline f g → Outline (.leaf e f) (.leaf e g)
  | void {t as as' f g} :
      Outline f g → Outline (.leaf (.voidTag t as) f) (.leaf (.voidTag t as') g)
  | selfClosed {t as as' f g} :
      Outline f g → Outline (.leaf (.selfClosedTag t as) f) (.leaf (.selfClosedTag t as') g)
  | opened {t as as' ch f g} :
      Outline f g → Outline (.leaf (.selfClosedTag t as) f) (.elem t as' ch t g)
  | elem {t as as' ch ch' c f g} :
      Outline f g → Outline (.elem t as ch c f) (.elem t as' ch' c g)

theorem Outline.refl (f : Forest) : Outline f f := by
  induction f with
  | nil => exact .nil
  | leaf e rest ih => exact .same ih
  | elem t as ch c rest _ ih => exact .elem ih
  | fail e => exact .fail

theorem Outline.trans {f g h : Forest} (h₁ : Outline f g) (h₂ : Outline g h) : Outline f h := by
  induction h₁ generalizing h with
  | nil => exact h₂
  | fail => cases h₂; exact .fail
  | same _ ih =>
    cases h₂ with
    | fail => exact .fail
    | same h => exact .same (ih h)
    | void h => exact .void (ih h)
    | selfClosed h => exact .selfClosed (ih h)
    | opened h => exact .opened (ih h)
  | void _ ih =>
    cases h₂ with
    | fail => exact .fail
    | same h => exact .void (ih h)
    | void h => exact .void (ih h)
  | selfClosed _ ih =>
    cases h₂ with
    | fail => exact .fail
    | same h => exact .selfClosed (ih h)
    | selfClosed h => exact .selfClosed (ih h)
    | opened h => exact .opened (ih h)
  | opened _ ih =>
    cases h₂ with
    | fail => exact .fail
    | elem h => exact .opened (ih h)
  | elem _ ih =>
    cases h₂ with
    | fail => exact .fail
    | elem h => exact .elem (ih h)

theorem Outline.append {f g f' g' : Forest} (h : Outline f g) (h' : Outline f' g') :
    Outline (f.append f') (g.append g') := by
  induction h with
  | nil => exact h'
  | fail => exact .fail
  | same _ ih => exact .same ih
  | void _ ih => exact .void ih
  | selfClosed _ ih => exact .selfClosed ih
  | opened _ ih => exact .opened ih
  | elem _ ih => exact .elem ih

theorem outline_onChildren (b : Forest → Forest) {f : Forest} (h : Single f) :
    Outline f (onChildren b f) := by
  cases h with
  | @leaf e h =>
    cases e with
    | selfClosedTag t as => exact .opened .nil
    | voidTag t as => exact .void .nil
    | openingTag t as => exact .same .nil
    | _ => cases h
  | elem => exact .elem .nil
  | fail => exact .fail

theorem outline_onAttributes (b : Attributes → Attributes) {f : Forest} (h : Single f) :
    Outline f (onAttributes b f) := by
  cases h with
  | @leaf e h =>
    cases e with
    | selfClosedTag t as => exact .selfClosed .nil
    | voidTag t as => exact .void .nil
    | openingTag t as => exact .same .nil
    | _ => cases h
  | elem => exact .elem .nil
  | fail => exact .fail

theorem Outline.of_fail {e : StreamError} {g : Forest} (h : Outline (.fail e) g) :
    ∃ e', g = .fail e' := by
  cases h
  exact ⟨_, rfl⟩

/-- Calls that give an element stream keep the element. On streams that are not known to be elements
there are no such calls but failing ones. -/
theorem outline_elem {a k : Kind} (p : Prog a k) (hp : WellNested p) (hk : k = .elem) {f : Forest}
    (hs : Shape a f) (hf : f.WF) : (a = .elem → Outline f (meaning p f)) ∧
      (a = .gen → ∃ e, meaning p f = .fail e) := by
  induction p generalizing f with
  | src => exact ⟨fun _ => .refl f, fun h => by rw [hk] at h; cases h⟩
  | forget p ih => cases hk
  | @apply a b c p q ihp ihq =>
    have h₁ := meaning_ok p hp.1 f hs hf
    have h₂ := ihq hp.2 hk h₁.1 h₁.2
    cases b with
    | gen =>
      obtain ⟨e, he⟩ := h₂.2 rfl
      simp only [meaning, he]
      exact ⟨fun _ => .fail, fun _ => ⟨_, rfl⟩⟩
    | elem =>
      have h₃ := ihp hp.1 rfl hs hf
      refine ⟨fun ha => (h₃.1 ha).trans (h₂.1 rfl), fun ha => ?_⟩
      obtain ⟨e, he⟩ := h₃.2 ha
      have := h₂.1 rfl
      rw [he] at this
      simp only [meaning, he]
      exact this.of_fail
  | fallOk p ih => exact ih hp hk hs hf
  | fallErr e => exact ⟨fun _ => .fail, fun _ => ⟨_, rfl⟩⟩
  | contents p b ih =>
    have h₁ := meaning_ok p hp.1 f hs hf
    have h₂ := ih hp.1 rfl hs hf
    refine ⟨fun ha => (h₂.1 ha).trans (outline_onChildren _ h₁.1), fun ha => ?_⟩
    obtain ⟨e, he⟩ := h₂.2 ha
    exact ⟨e, by simp only [meaning, he, onChildren]⟩
  | attr p op ih =>
    have h₁ := meaning_ok p hp f hs hf
    have h₂ := ih hp rfl hs hf
    refine ⟨fun ha => (h₂.1 ha).trans (outline_onAttributes _ h₁.1), fun ha => ?_⟩
    obtain ⟨e, he⟩ := h₂.2 ha
    exact ⟨e, by simp only [meaning, he, onAttributes]⟩
  | _ => cases hk

theorem outline_any {a : Kind} (p : Prog a .elem) (hp : WellNested p) {f : Forest}
    (hs : Shape a f) (hf : f.WF) : Outline f (meaning p f) := by
  have h := outline_elem p hp rfl hs hf
  cases a with
  | elem => exact h.1 rfl
  | gen =>
    obtain ⟨e, he⟩ := h.2 rfl
    rw [he]
    exact .fail

theorem outline_select (s : Selector) (d : Bool) (b : Nat → Forest → Forest)
    (hb : ∀ i f, Single f → f.WF → Outline f (b i f)) (f : Forest) (hf : f.WF) (level count : Nat) :
    Outline f (selectTree s d b level count f).1 := by
  induction f generalizing level count with
  | nil => exact .nil
  | fail e => exact .fail
  | leaf e rest ih =>
    rw [selectTree]
    split
    · have h₁ := hb count (single e) (single_single e) (single_wf hf.1 hf.2.1 hf.2.2.1)
      have h₂ := ih hf.2.2.2 level (count + 1)
      by_cases he : isStart e = true
      · rw [single, if_pos he] at h₁ ⊢
        exact h₁.append h₂
      · rw [single, if_neg he] at h₁ ⊢
        obtain ⟨e', h⟩ := h₁.of_fail
        simp only [h, Forest.append]
        exact .fail
    · exact .same (ih hf.2.2.2 _ _)
  | elem t as ch c rest _ ih =>
    rw [selectTree]
    split
    · exact (hb count (.elem t as ch c .nil) .elem ⟨hf.1, hf.2.1, hf.2.2.1, trivial⟩).append
        (ih hf.2.2.2 _ _)
    · simp only
      split
      · exact .elem (ih hf.2.2.2 _ _)
      · exact .elem (ih hf.2.2.2 _ _)

theorem outline_selectOnce (s : Selector) (d : Bool) (b : Forest → Forest)
    (hb : ∀ f, Single f → f.WF → Outline f (b f)) (f : Forest) (hf : f.WF) (level : Nat) :
    Outline f (selectOnceTree s d b level f).1 := by
  induction f generalizing level with
  | nil => exact .nil
  | fail e => exact .fail
  | leaf e rest ih =>
    rw [selectOnceTree]
    split
    · have h₁ := hb (single e) (single_single e) (single_wf hf.1 hf.2.1 hf.2.2.1)
      by_cases he : isStart e = true
      · rw [single, if_pos he] at h₁ ⊢
        exact h₁.append (.refl rest)
      · rw [single, if_neg he] at h₁ ⊢
        obtain ⟨e', h⟩ := h₁.of_fail
        simp only [h, Forest.append]
        exact .fail
    · exact .same (ih hf.2.2.2 _)
  | elem t as ch c rest _ ih =>
    rw [selectOnceTree]
    split
    · exact (hb (.elem t as ch c .nil) .elem ⟨hf.1, hf.2.1, hf.2.2.1, trivial⟩).append (.refl rest)
    · simp only
      split
      · exact .elem (.refl rest)
      · split
        · exact .elem (.refl rest)
        · exact .elem (ih hf.2.2.2 _)

theorem outline_meaning {a k : Kind} (p : Prog a k) (hp : WellNested p) (he : ElementWise p)
    {f : Forest} (hs : Shape a f) (hf : f.WF) : Outline f (meaning p f) := by
  induction p generalizing f with
  | src => exact .refl f
  | forget p ih => exact ih hp he hs hf
  | apply p q ihp ihq =>
    have h₁ := meaning_ok p hp.1 f hs hf
    exact (ihp hp.1 he.1 hs hf).trans (ihq hp.2 he.2 h₁.1 h₁.2)
  | fallOk p ih => exact ih hp he hs hf
  | fallErr e => exact .fail
  | selectRaw p s d b ih =>
    have h₁ := meaning_ok p hp.1 f hs hf
    refine (ih hp.1 he.2 hs hf).trans (outline_select s d _ (fun i f hs hf => ?_) _ h₁.2 0 0)
    exact (outline_elem (b i) (hp.2 i) he.1 hs hf).1 rfl
  | selectOnceRaw p s d b ih =>
    have h₁ := meaning_ok p hp.1 f hs hf
    refine (ih hp.1 he.2 hs hf).trans (outline_selectOnce s d _ (fun f hs hf => ?_) _ h₁.2 0)
    exact (outline_elem b hp.2 he.1 hs hf).1 rfl
  | orElse p n r q ihp ihr ihq =>
    have h₁ := meaning_ok p hp.1 f hs hf
    simp only [meaning]
    split
    · exact (ihp hp.1 he.1 hs hf).trans (ihr hp.2.1 he.2.1 h₁.1 h₁.2)
    · exact (ihp hp.1 he.1 hs hf).trans (ihq hp.2.2 he.2.2 h₁.1 h₁.2)
  | contents p b _ => exact outline_any (.contents p b) hp hs hf
  | attr p op _ => exact outline_any (.attr p op) hp hs hf
  | _ => exact he.elim

theorem top_of_outline {f g : Forest} (h : Outline f g) (hf : f.WF) (hg : g.WF)
    {m m' : List Event} (hm : f.events = .ok m) (hm' : g.events = .ok m') : SameTop m m' := by
  have leaf : ∀ {e : Event} {f : Forest} {m : List Event}, (Forest.leaf e f).events = .ok m →
      ∃ r, f.events = .ok r ∧ m = [e] ++ r := by
    intro e f m h
    rw [events_leaf] at h
    cases hr : f.events with
    | error e => rw [hr] at h; cases h
    | ok r => rw [hr] at h; cases h; exact ⟨r, rfl, rfl⟩
  have elem : ∀ {t as ch c} {f : Forest} {m : List Event},
      (Forest.elem t as ch c f).events = .ok m → ∃ i r, ch.events = .ok i ∧ f.events = .ok r ∧
        m = (.openingTag t as :: (i ++ [.closingTag c])) ++ r := by
    intro t as ch c f m h
    rw [events_elem] at h
    cases hi : ch.events with
    | error e => rw [hi] at h; cases h
    | ok i =>
      rw [hi] at h
      cases hr : f.events with
      | error e => rw [hr] at h; cases h
      | ok r => rw [hr] at h; cases h; exact ⟨i, r, rfl, rfl, by simp⟩
  induction h generalizing m m' with
  | nil => cases hm; cases hm'; exact .nil
  | fail => cases hm'
  | @same e f g _ ih =>
    obtain ⟨r, hr, rfl⟩ := leaf hm
    obtain ⟨r', hr', rfl⟩ := leaf hm'
    have := ih hf.2.2.2 hg.2.2.2 hr hr'
    cases e with
    | voidTag t as => exact .element .void this
    | selfClosedTag t as => exact .element .selfClosed this
    | openingTag t as => exact hf.1.elim
    | _ => exact .leaf rfl hf.1 this
  | void _ ih =>
    obtain ⟨r, hr, rfl⟩ := leaf hm
    obtain ⟨r', hr', rfl⟩ := leaf hm'
    exact .element .void (ih hf.2.2.2 hg.2.2.2 hr hr')
  | selfClosed _ ih =>
    obtain ⟨r, hr, rfl⟩ := leaf hm
    obtain ⟨r', hr', rfl⟩ := leaf hm'
    exact .element .selfClosed (ih hf.2.2.2 hg.2.2.2 hr hr')
  | opened _ ih =>
    obtain ⟨r, hr, rfl⟩ := leaf hm
    obtain ⟨i', r', hi', hr', rfl⟩ := elem hm'
    exact .element (.opened (wf_balanced hg.2.2.1 hi').1) (ih hf.2.2.2 hg.2.2.2 hr hr')
  | elem _ ih =>
    obtain ⟨i, r, hi, hr, rfl⟩ := elem hm
    obtain ⟨i', r', hi', hr', rfl⟩ := elem hm'
    exact .element (.pair (wf_balanced hf.2.2.1 hi).1 (wf_balanced hg.2.2.1 hi').1)
      (ih hf.2.2.2 hg.2.2.2 hr hr')

theorem element_of_outline {f g : Forest} (h : Outline f g) (hf : f.WF) (hg : g.WF)
    (hs : Single f) (hs' : Single g) {m m' : List Event} (hm : f.events = .ok m)
    (hm' : g.events = .ok m') : SameElement m m' := by
  cases hs with
  | fail => cases hm
  | @leaf e he =>
    cases hm
    cases h with
    | fail => cases hm'
    | same h =>
      cases hs' with
      | leaf _ =>
        cases hm'
        cases e with
        | voidTag t as => exact .void
        | selfClosedTag t as => exact .selfClosed
        | openingTag t as => exact hf.1.elim
        | _ => cases he
    | void h => cases hs'; cases hm'; exact .void
    | selfClosed h => cases hs'; cases hm'; exact .selfClosed
    | @opened _ _ _ ch =>
      cases hs'
      rw [events_elem] at hm'
      cases hi : ch.events with
      | error e => rw [hi] at hm'; cases hm'
      | ok i => rw [hi] at hm'; cases hm'; exact .opened (wf_balanced hg.2.2.1 hi).1
  | @elem t as ch c =>
    cases h with
    | fail => cases hm'
    | @elem _ _ _ _ ch' =>
      cases hs'
      rw [events_elem] at hm hm'
      cases hi : ch.events with
      | error e => rw [hi] at hm; cases hm
      | ok i =>
        cases hi' : ch'.events with
        | error e => rw [hi'] at hm'; cases hm'
        | ok i' =>
          rw [hi] at hm
          rw [hi'] at hm'
          cases hm
          cases hm'
          exact .pair (wf_balanced hf.2.2.1 hi).1 (wf_balanced hg.2.2.1 hi').1

theorem top_nil {y : List Event} (h : SameTop [] y) : y = [] := by
  generalize hx : ([] : List Event) = x at h
  cases h with
  | nil => rfl
  | leaf => cases hx
  | element h => cases h <;> simp at hx

end Fuser
