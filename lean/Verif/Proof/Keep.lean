import Verif.Proof.Normal
import Verif.Spec.Keep

/-!
# Lemmas on what calls put into a page
-/

namespace Fuser

open Spec

/-- No errors, and every event has a property that may depend on the tag of the element around it. -/
def Ev (P : Option Identifier → Event → Prop) : Option Identifier → Forest → Prop
  | _, .nil => True
  | _, .fail _ => False
  | x, .leaf e rest => P x e ∧ Ev P x rest
  | x, .elem t as children c rest => P x (.openingTag t as) ∧ P x (.closingTag c) ∧
    Ev P (some t) children ∧ Ev P x rest

variable {P : Option Identifier → Event → Prop} {x : Option Identifier}

theorem ev_append {f g : Forest} (hf : Ev P x f) (hg : Ev P x g) : Ev P x (f.append g) := by
  induction f with
  | nil => exact hg
  | fail e => exact hf.elim
  | leaf e r ih => exact ⟨hf.1, ih hf.2⟩
  | elem t as ch c r _ ih => exact ⟨hf.1, hf.2.1, hf.2.2.1, ih hf.2.2.2⟩

theorem ev_single {e : Event} (h : P x e) (hs : isStart e = true) : Ev P x (single e) := by
  rw [single, if_pos hs]
  exact ⟨h, trivial⟩

/-- A matched event that is no start of an element gives an error. -/
theorem start_of_sound {e : Event} {b : Forest → Forest} (hb : ∀ f, Sound (b f) → Sound f)
    (h : Sound (b (single e))) : isStart e = true := by
  have := hb _ h
  unfold single at this
  split at this
  · assumption
  · exact this.elim

theorem ev_select {s : Selector} {direct : Bool} {b : Nat → Forest → Forest}
    (hbs : ∀ i f, Sound (b i f) → Sound f)
    (hb : ∀ i f x, Single f → f.WF → Ev P x f → Sound (b i f) → Ev P x (b i f))
    {f : Forest} {x : Option Identifier} {level count : Nat} (hw : f.WF) (hf : Ev P x f)
    (h : Sound (selectTree s direct b level count f).1) :
    Ev P x (selectTree s direct b level count f).1 := by
  induction f generalizing x level count with
  | nil => trivial
  | fail e => exact h
  | leaf e r ih =>
    rw [selectTree] at h ⊢
    split at h
    · next hm =>
      rw [if_pos hm]
      obtain ⟨h1, h2⟩ := sound_append.1 h
      have hs := start_of_sound (hbs _) h1
      exact ev_append (hb _ _ _ (single_single e) (single_wf hw.1 hw.2.1 hw.2.2.1)
        (ev_single hf.1 hs) h1) (ih hw.2.2.2 hf.2 h2)
    · next hm =>
      rw [if_neg hm]
      exact ⟨hf.1, ih hw.2.2.2 hf.2 h⟩
  | elem t as ch c r ih1 ih2 =>
    rw [selectTree] at h ⊢
    split at h
    · next hm =>
      rw [if_pos hm]
      obtain ⟨h1, h2⟩ := sound_append.1 h
      exact ev_append (hb _ _ _ .elem ⟨hw.1, hw.2.1, hw.2.2.1, trivial⟩
        ⟨hf.1, hf.2.1, hf.2.2.1, trivial⟩ h1) (ih2 hw.2.2.2 hf.2.2.2 h2)
    · next hm =>
      rw [if_neg hm]
      simp only at h ⊢
      split at h
      · exact absurd (start_of_sound (hbs _) (sound_append.1 h.1).2) (by simp [isStart])
      · next hc =>
        rw [if_neg hc]
        exact ⟨hf.1, hf.2.1, ih1 hw.2.2.1 hf.2.2.1 h.1, ih2 hw.2.2.2 hf.2.2.2 h.2⟩

theorem ev_once {s : Selector} {direct : Bool} {b : Forest → Forest}
    (hbs : ∀ f, Sound (b f) → Sound f)
    (hb : ∀ f x, Single f → f.WF → Ev P x f → Sound (b f) → Ev P x (b f))
    {f : Forest} {x : Option Identifier} {level : Nat} (hw : f.WF) (hf : Ev P x f)
    (h : Sound (selectOnceTree s direct b level f).1) :
    Ev P x (selectOnceTree s direct b level f).1 := by
  induction f generalizing x level with
  | nil => trivial
  | fail e => exact h
  | leaf e r ih =>
    rw [selectOnceTree] at h ⊢
    split at h
    · next hm =>
      rw [if_pos hm]
      obtain ⟨h1, h2⟩ := sound_append.1 h
      have hs := start_of_sound hbs h1
      exact ev_append (hb _ _ (single_single e) (single_wf hw.1 hw.2.1 hw.2.2.1)
        (ev_single hf.1 hs) h1) hf.2
    · next hm =>
      rw [if_neg hm]
      exact ⟨hf.1, ih hw.2.2.2 hf.2 h⟩
  | elem t as ch c r ih1 ih2 =>
    rw [selectOnceTree] at h ⊢
    split at h
    · next hm =>
      rw [if_pos hm]
      obtain ⟨h1, h2⟩ := sound_append.1 h
      exact ev_append (hb _ _ .elem ⟨hw.1, hw.2.1, hw.2.2.1, trivial⟩
        ⟨hf.1, hf.2.1, hf.2.2.1, trivial⟩ h1) hf.2.2.2
    · next hm =>
      rw [if_neg hm]
      simp only at h ⊢
      split at h
      · next hc =>
        rw [if_pos hc]
        exact ⟨hf.1, hf.2.1, ih1 hw.2.2.1 hf.2.2.1 h.1, hf.2.2.2⟩
      · next hc =>
        rw [if_neg hc]
        split at h
        · exact absurd (start_of_sound hbs (sound_append.1 h.1).2) (by simp [isStart])
        · next hd =>
          rw [if_neg hd]
          exact ⟨hf.1, hf.2.1, ih1 hw.2.2.1 hf.2.2.1 h.1, ih2 hw.2.2.2 hf.2.2.2 h.2⟩

/-- What the contents, attribute changes and functions of the calls must satisfy. -/
def EachKeeps (P : Option Identifier → Event → Prop) {a k : Kind} (p : Prog a k) : Prop :=
  Each (fun c => Sound (tree (results c)) → ∀ x, Ev P x (tree (results c)))
    (fun op => ∀ x t as, (P x (.openingTag t as) → P x (.openingTag t (op.apply as))) ∧
      (P x (.selfClosedTag t as) → P x (.selfClosedTag t (op.apply as))) ∧
      (P x (.voidTag t as) → P x (.voidTag t (op.apply as))))
    (fun g => ∀ x f es t', f.WF → f.events = .ok es → Ev P x f → g ⟨es⟩ = .ok t' →
      Ev P x (treeOf t'.events)) p

theorem ev_meaning (hopen : ∀ x t as, P x (.selfClosedTag t as) →
      P x (.openingTag t as) ∧ P x (.closingTag t))
    {a k : Kind} (p : Prog a k) (hp : WellNested p) (hk : EachKeeps P p) {f : Forest}
    {x : Option Identifier} (hs : Shape a f) (hf : f.WF) (he : Ev P x f)
    (h : Sound (meaning p f)) : Ev P x (meaning p f) := by
  induction p generalizing f x with
  | src => exact he
  | forget p ih => exact ih hp hk hs hf he h
  | apply p q ih1 ih2 =>
    obtain ⟨h1, h2⟩ := meaning_ok p hp.1 f hs hf
    exact ih2 hp.2 hk.2 h1 h2 (ih1 hp.1 hk.1 hs hf he (sound_meaning q h)) h
  | fallOk p ih => exact ih hp hk hs hf he h
  | fallErr e => exact h.elim
  | selectRaw p s direct b ih ihb =>
    obtain ⟨h1, h2⟩ := meaning_ok p hp.1 f hs hf
    have hbs : ∀ i f, Sound (meaning (b i) f) → Sound f := fun i f h => sound_meaning (b i) h
    exact ev_select hbs (fun i g y hg hw hev h => ihb i (hp.2 i) (hk.2 i) hg hw hev h) h2
      (ih hp.1 hk.1 hs hf he (sound_select hbs h)) h
  | selectOnceRaw p s direct b ih ihb =>
    obtain ⟨h1, h2⟩ := meaning_ok p hp.1 f hs hf
    have hbs : ∀ f, Sound (meaning b f) → Sound f := fun f h => sound_meaning b h
    exact ev_once hbs (fun g y hg hw hev h => ihb hp.2 hk.2 hg hw hev h) h2
      (ih hp.1 hk.1 hs hf he (sound_once hbs h)) h
  | remove p ih =>
    rw [meaning, removed] at h ⊢
    split
    · trivial
    · next e he => rw [he] at h; exact h
  | prepend p c ih =>
    obtain ⟨h1, h2⟩ := sound_append.1 h
    exact ev_append (hk.2 h1 x) (ih hp.1 hk.1 hs hf he h2)
  | append p c ih =>
    obtain ⟨h1, h2⟩ := sound_append.1 h
    exact ev_append (ih hp.1 hk.1 hs hf he h1) (hk.2 h2 x)
  | «repeat» p n b ih ihb =>
    obtain ⟨h1, h2⟩ := meaning_ok p hp.1 f hs hf
    have hsd := sound_meaning (.repeat .src n b) (f := meaning p f) h
    have hev := ih hp.1 hk.1 hs hf he hsd
    rw [meaning, repeated] at h ⊢
    split
    · next es hes =>
      rw [hes] at h
      have : ∀ m i, Sound (copies (fun i => meaning (b i) (meaning p f)) i m) →
          Ev P x (copies (fun i => meaning (b i) (meaning p f)) i m) := by
        intro m
        induction m with
        | zero => intro i _; trivial
        | succ m ihm =>
          intro i hc
          obtain ⟨hc1, hc2⟩ := sound_append.1 hc
          exact ev_append (ihb i (hp.2 i) (hk.2 i) h1 h2 hev hc1) (ihm _ hc2)
      exact this _ _ h
    · next e hes => rw [hes] at h; exact h
  | orElse p n r q ih ihr ihq =>
    obtain ⟨h1, h2⟩ := meaning_ok p hp.1 f hs hf
    rw [meaning] at h ⊢
    split
    · next hn =>
      rw [if_pos hn] at h
      exact ihr hp.2.1 hk.2.1 h1 h2 (ih hp.1 hk.1 hs hf he (sound_meaning r h)) h
    · next hn =>
      rw [if_neg hn] at h
      exact ihq hp.2.2 hk.2.2 h1 h2 (ih hp.1 hk.1 hs hf he (sound_meaning q h)) h
  | applyTemplate p g ih =>
    obtain ⟨h1, h2⟩ := meaning_ok p hp.1 f hs hf
    have hsd : Sound (meaning p f) := by
      rw [meaning, applied] at h
      cases hr : (meaning p f).events with
      | ok es => exact sound_iff.2 ⟨es, hr⟩
      | error e => rw [hr] at h; exact h.elim
    have hev := ih hp.1 hk.1 hs hf he hsd
    rw [meaning, applied] at h ⊢
    split
    · next es hes =>
      rw [hes] at h
      simp only at h
      split
      · next t' ht => exact hk.2 x _ es t' h2 hes hev ht
      · next e ht => rw [ht] at h; exact h
    · next e hes => rw [hes] at h; exact h
  | contents p b ih ihb =>
    obtain ⟨h1, h2⟩ := meaning_ok p hp.1 f hs hf
    have hsd := sound_meaning (.contents .src b) (f := meaning p f) h
    have hev := ih hp.1 hk.1 hs hf he hsd
    rw [meaning] at h ⊢
    generalize meaning p f = g at h h1 h2 hev hsd
    cases h1 with
    | @leaf e hst =>
      cases e with
      | selfClosedTag t as =>
        obtain ⟨ho1, ho2⟩ := hopen x t as hev.1
        exact ⟨ho1, ho2, ihb hp.2 hk.2 trivial trivial trivial h.1, trivial⟩
      | _ => exact hev
    | elem => exact ⟨hev.1, hev.2.1, ihb hp.2 hk.2 trivial h2.2.2.1 hev.2.2.1 h.1, trivial⟩
    | fail => exact h
  | attr p op ih =>
    have hsd := sound_meaning (.attr .src op) (f := meaning p f) h
    have hev := ih hp hk.1 hs hf he hsd
    rw [meaning] at h ⊢
    generalize meaning p f = g at h hev hsd
    cases g with
    | nil => trivial
    | fail e => exact h
    | elem t as g c r => exact ⟨(hk.2 x t as).1 hev.1, hev.2⟩
    | leaf e r =>
      cases e with
      | selfClosedTag t as => exact ⟨(hk.2 x t as).2.1 hev.1, hev.2⟩
      | voidTag t as => exact ⟨(hk.2 x t as).2.2 hev.1, hev.2⟩
      | _ => exact hev

/-! ## Properties of single events -/

theorem tree_events {c : Content} (h : PageContent c) :
    (tree (results c)).events = outcome (results c) := by
  rw [← result_flat_done, (tree_spec h.1 h.2).2, result_outcome]

theorem outcome_mem {rs : List (Except StreamError Event)} {es : List Event}
    (h : outcome rs = .ok es) {e : Event} (he : e ∈ es) : .ok e ∈ rs := by
  induction rs generalizing es with
  | nil => cases h; cases he
  | cons r rs ih =>
    cases r with
    | error x => cases h
    | ok y =>
      rw [outcome] at h
      cases hr : outcome rs with
      | error x => rw [hr] at h; cases h
      | ok es' =>
        rw [hr] at h
        cases h
        rcases List.mem_append.1 he with he | he
        · split at he
          · cases he
          · rw [List.mem_singleton] at he
            subst he
            simp
        · exact List.mem_cons_of_mem _ (ih hr he)

theorem each_mono {C C' : Content → Prop} {A A' : AttrOp → Prop}
    {G G' : (Template → Except StreamError Template) → Prop}
    (hC : ∀ c, PageContent c → C c → C' c) (hA : ∀ op, A op → A' op)
    (hG : ∀ g, (∀ t t', Page t.events → g t = .ok t' → Page t'.events) → G g → G' g)
    {a k : Kind} (p : Prog a k) (hp : WellNested p) (h : Each C A G p) : Each C' A' G' p := by
  induction p with
  | src => trivial
  | forget p ih => exact ih hp h
  | apply p q ih1 ih2 => exact ⟨ih1 hp.1 h.1, ih2 hp.2 h.2⟩
  | fallOk p ih => exact ih hp h
  | fallErr e => trivial
  | selectRaw p s direct b ih ihb => exact ⟨ih hp.1 h.1, fun i => ihb i (hp.2 i) (h.2 i)⟩
  | selectOnceRaw p s direct b ih ihb => exact ⟨ih hp.1 h.1, ihb hp.2 h.2⟩
  | remove p ih => exact ih hp h
  | prepend p c ih => exact ⟨ih hp.1 h.1, hC c hp.2 h.2⟩
  | append p c ih => exact ⟨ih hp.1 h.1, hC c hp.2 h.2⟩
  | «repeat» p n b ih ihb => exact ⟨ih hp.1 h.1, fun i => ihb i (hp.2 i) (h.2 i)⟩
  | orElse p n r q ih ihr ihq => exact ⟨ih hp.1 h.1, ihr hp.2.1 h.2.1, ihq hp.2.2 h.2.2⟩
  | applyTemplate p g ih => exact ⟨ih hp.1 h.1, hG g hp.2 h.2⟩
  | contents p b ih ihb => exact ⟨ih hp.1 h.1, ihb hp.2 h.2⟩
  | attr p op ih => exact ⟨ih hp h.1, hA op h.2⟩

theorem each_imp {C C' : Content → Prop} {A A' : AttrOp → Prop}
    {G G' : (Template → Except StreamError Template) → Prop}
    (hC : ∀ c, C c → C' c) (hA : ∀ op, A op → A' op) (hG : ∀ g, G g → G' g)
    {a k : Kind} (p : Prog a k) (h : Each C A G p) : Each C' A' G' p := by
  induction p with
  | src => trivial
  | forget p ih => exact ih h
  | apply p q ih1 ih2 => exact ⟨ih1 h.1, ih2 h.2⟩
  | fallOk p ih => exact ih h
  | fallErr e => trivial
  | selectRaw p s direct b ih ihb => exact ⟨ih h.1, fun i => ihb i (h.2 i)⟩
  | selectOnceRaw p s direct b ih ihb => exact ⟨ih h.1, ihb h.2⟩
  | remove p ih => exact ih h
  | prepend p c ih => exact ⟨ih h.1, hC c h.2⟩
  | append p c ih => exact ⟨ih h.1, hC c h.2⟩
  | «repeat» p n b ih ihb => exact ⟨ih h.1, fun i => ihb i (h.2 i)⟩
  | orElse p n r q ih ihr ihq => exact ⟨ih h.1, ihr h.2.1, ihq h.2.2⟩
  | applyTemplate p g ih => exact ⟨ih h.1, hG g h.2⟩
  | contents p b ih ihb => exact ⟨ih h.1, ihb h.2⟩
  | attr p op ih => exact ⟨ih h.1, hA op h.2⟩

/-! ## Ordinary pages -/

theorem joinClasses_chars {name : Str} {cs : List Str} {acc : EncodedText} {x : Char}
    (h : x ∈ (joinClasses name cs acc).str) : x ∈ acc.str ∨ x = ' ' ∨ ∃ w ∈ cs, x ∈ w := by
  induction cs generalizing acc with
  | nil => exact .inl h
  | cons c cs ih =>
    rw [joinClasses] at h
    have push : ∀ (d : EncodedText) (s : Str), (EncodedText.pushEncodedStr d s).str = d.str ++ s := by
      intro d s
      cases d <;> rfl
    rcases ih h with h | h | ⟨w, hw, h⟩
    · split at h
      · exact .inl h
      · rw [push] at h
        rcases List.mem_append.1 h with h | h
        · split at h
          · exact .inl h
          · rw [push] at h
            rcases List.mem_append.1 h with h | h
            · exact .inl h
            · exact .inr (.inl (by simpa using h))
        · exact .inr (.inr ⟨c, by simp, h⟩)
    · exact .inr (.inl h)
    · exact .inr (.inr ⟨w, by simp [hw], h⟩)

theorem removeClass_spelled {a b : Attribute} {n : Str} (h : a.removeClass n = some b) :
    b.name = a.name ∧ ∀ v, b.value = some v → '"' ∈ v.str → ∃ u, a.value = some u ∧ '"' ∈ u.str := by
  rw [Attribute.removeClass] at h
  split at h
  · cases h
    exact ⟨rfl, fun v hv hq => ⟨v, hv, hq⟩⟩
  · next w hw =>
    split at h
    · cases h
    · cases h
      refine ⟨rfl, fun v hv hq => ?_⟩
      cases hv
      rw [Attribute.makeWithout] at hw
      split at hw
      · cases hw
      · split at hw
        · cases hw
        · next cs hcs =>
          cases hw
          rw [Attribute.classes] at hcs
          split at hcs
          · cases hav : a.value with
            | none => rw [hav] at hcs; cases hcs
            | some u =>
              rw [hav] at hcs
              cases hcs
              refine ⟨u, rfl, ?_⟩
              rcases joinClasses_chars hq with h | h | ⟨w, hw, h⟩
              · cases h
              · cases h
              · obtain ⟨-, -, pre, post, hu, -⟩ := mem_splitWhitespace.1 (List.mem_filter.1 hw).1
                rw [hu]
                simp [h]
          · cases hcs

theorem addTo_spelled {as : Attributes} (h : SpelledAttributes as) {n : Identifier}
    {v s : Value} (hn : Name n.str) (hv : '"' ∉ v.str) (hs : '"' ∉ s.str) :
    SpelledAttributes (Attributes.addToAttribute as n v s) := by
  induction as with
  | nil =>
    intro a ha
    rw [Attributes.addToAttribute, List.mem_singleton] at ha
    subst ha
    exact ⟨hn, by rintro _ ⟨⟩; exact hv⟩
  | cons b as ih =>
    have hb := h b (by simp)
    have has : SpelledAttributes as := fun a ha => h a (by simp [ha])
    intro a ha
    rw [Attributes.addToAttribute] at ha
    split at ha
    · rcases List.mem_cons.1 ha with rfl | ha
      · refine ⟨hb.1, ?_⟩
        rintro _ ⟨⟩
        cases hbv : b.value with
        | none => exact hv
        | some u =>
          have := hb.2 u hbv
          rw [join_str, join_str]
          simp [this, hv, hs]
      · exact has a ha
    · rcases List.mem_cons.1 ha with rfl | ha
      · exact hb
      · exact ih has a ha

theorem change_spelled {op : AttrOp} (h : PlainChange op) {as : Attributes}
    (ha : SpelledAttributes as) : SpelledAttributes (op.apply as) := by
  have sub : ∀ {p : Attribute → Bool}, SpelledAttributes (as.filter p) :=
    fun a hm => ha a (List.mem_filter.1 hm).1
  have snoc : ∀ {bs : Attributes} {n : Identifier} {v : Option Value}, SpelledAttributes bs →
      Name n.str → (∀ x, v = some x → '"' ∉ x.str) → SpelledAttributes (bs ++ [⟨n, v⟩]) := by
    intro bs n v hb hn hv a hm
    rcases List.mem_append.1 hm with hm | hm
    · exact hb a hm
    · rw [List.mem_singleton] at hm
      subst hm
      exact ⟨hn, hv⟩
  cases op with
  | removeAttribute n => exact sub
  | addAttribute n v => exact snoc ha h.1 h.2
  | setAttribute n v => exact snoc sub h.1 h.2
  | replaceAttribute n v =>
    simp only [AttrOp.apply, Attributes.replaceAttribute]
    split
    · exact snoc sub h.1 h.2
    · exact sub
  | addToAttribute n v s => exact addTo_spelled ha h.1 h.2.1 h.2.2
  | removeClass n =>
    simp only [AttrOp.apply, Attributes.removeClass]
    split
    · intro b hb
      obtain ⟨a, hm, hab⟩ := List.mem_filterMap.1 hb
      obtain ⟨h1, h2⟩ := removeClass_spelled hab
      refine ⟨h1 ▸ (ha a hm).1, fun v hv hq => ?_⟩
      obtain ⟨u, hu, hq⟩ := h2 v hv hq
      exact (ha a hm).2 u hu hq
    · exact ha

theorem plain_open {t : Identifier} {as : Attributes} (h : Plain (.selfClosedTag t as)) :
    Plain (.openingTag t as) ∧ Plain (.closingTag t) :=
  ⟨⟨h.1, h.2⟩, h.1.1⟩

theorem plain_change {op : AttrOp} (h : PlainChange op) (t : Identifier) (as : Attributes) :
    (Plain (.openingTag t as) → Plain (.openingTag t (op.apply as))) ∧
    (Plain (.selfClosedTag t as) → Plain (.selfClosedTag t (op.apply as))) ∧
    (Plain (.voidTag t as) → Plain (.voidTag t (op.apply as))) :=
  ⟨fun hp => ⟨⟨hp.1.1, hp.1.2.1, change_spelled h hp.1.2.2⟩, hp.2⟩,
    fun hp => ⟨⟨hp.1.1, hp.1.2.1, change_spelled h hp.1.2.2⟩, hp.2⟩,
    fun hp => ⟨⟨hp.1.1, hp.1.2.1, change_spelled h hp.1.2.2⟩, hp.2⟩⟩

theorem plainCalls_keeps {a k : Kind} {p : Prog a k} (h : PlainCalls p) : Keeps Plain p :=
  each_imp (fun _ h => h) (fun _ h t as => plain_change h t as) (fun _ h => h) p h

theorem not_directive {n : Identifier} (as : Attributes) (hn : n.str.head? ≠ some '!') :
    ¬ LooksLikeDirective n as := by
  rintro (⟨x, hx⟩ | hd | ⟨h1, -⟩)
  · apply hn; rw [← hx]; rfl
  · apply hn
    generalize n.str = m at hd
    cases m with
    | nil => cases hd
    | cons c d =>
      cases hd with
      | cons h1 h2 =>
        rw [sameLetter_bang h1]
        rfl
  · apply hn; rw [h1]; rfl

theorem plain_normal {es : List Event} (h : ∀ e ∈ es, Plain e) : Normal es (joined es) := by
  induction es with
  | nil => exact .nil
  | cons e es ih =>
    have ih := ih fun e he => h e (by simp [he])
    have he := h e (by simp)
    cases e with
    | data c => exact .data he ih
    | openingTag t as =>
      exact .plain he.1 (not_directive _ he.2.2) (by rintro _ _ ⟨⟩; exact he.2.1) ih
    | selfClosedTag t as => exact .plain he.1 (not_directive _ he.2.2) (by simp) ih
    | voidTag t as => exact .plain he.1 (not_directive _ he.2) (by simp) ih
    | noop => exact he.elim
    | rawData c => exact he.elim
    | _ => exact .plain he id (by simp) ih

/-- Parsed templates without raw text elements are ordinary. -/
theorem canonical_plain {es : List Event} (h : Canonical es)
    (hr : ∀ e ∈ es, ∀ n, startName e = some n → ¬ RawName n.str ∧ n.str.head? ≠ some '!') :
    ∀ e ∈ es, Plain e := by
  induction h with
  | nil => simp
  | @plain e es hw _ _ _ ih =>
    intro x hx
    rcases List.mem_cons.1 hx with rfl | hx
    · have hs := hr x (by simp)
      rcases writable_spelled hw with ⟨c, rfl⟩ | ⟨h1, -⟩
      · exact hw.2
      · cases x with
        | openingTag t as => exact ⟨h1, hs t rfl⟩
        | selfClosedTag t as => exact ⟨h1, hs t rfl⟩
        | voidTag t as => exact ⟨h1, (hs t rfl).2⟩
        | data c => exact h1.elim
        | _ => exact h1
    · exact ih (fun e he => hr e (by simp [he])) x hx
  | @raw t as c n es _ ht _ _ _ _ =>
    exact absurd ht (hr (.openingTag t as) (by simp) t rfl).1

end Fuser
