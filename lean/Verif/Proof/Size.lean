import Verif.Proof.Keep
import Verif.Spec.Size

/-!
# Lemmas on the size of pages
-/

namespace Fuser

open Spec

/-- The size of a forest. -/
def Spec.Forest.size (w : Event → Nat) : Forest → Nat
  | .nil => 0
  | .fail _ => 0
  | .leaf e rest => w e + rest.size w
  | .elem t as children c rest =>
    w (.openingTag t as) + children.size w + w (.closingTag c) + rest.size w

variable {w : Event → Nat}

theorem weight_append (es es' : List Event) :
    weight w (es ++ es') = weight w es + weight w es' := by simp [weight]

theorem size_append {f g : Forest} : (f.append g).size w ≤ f.size w + g.size w := by
  induction f with
  | nil => simp [Forest.append, Forest.size]
  | fail e => simp [Forest.append, Forest.size]
  | leaf e r ih => simp only [Forest.append, Forest.size]; omega
  | elem t as ch c r _ ih => simp only [Forest.append, Forest.size]; omega

theorem size_events {f : Forest} {es : List Event} (h : f.events = .ok es) :
    f.size w = weight w es := by
  induction f generalizing es with
  | nil => cases h; rfl
  | fail e => cases h
  | leaf e r ih =>
    rw [events_leaf] at h
    cases hr : r.events with
    | error e => rw [hr] at h; cases h
    | ok es' =>
      rw [hr] at h
      cases h
      rw [Forest.size, ih hr, weight_append]
      simp [weight]
  | elem t as ch c r ih1 ih2 =>
    rw [events_elem] at h
    cases hc : ch.events with
    | error e => rw [hc] at h; cases h
    | ok cs =>
      rw [hc] at h
      cases hr : r.events with
      | error e => rw [hr] at h; cases h
      | ok rs =>
        rw [hr] at h
        cases h
        rw [Forest.size, ih1 hc, ih2 hr]
        simp [weight]
        omega

theorem size_select (hw : Fair w) {m c n : Nat} (hn : 1 ≤ n) (hmc : m + c ≤ n) {s : Selector}
    {direct : Bool} {b : Nat → Forest → Forest} (hbs : ∀ i f, Sound (b i f) → Sound f)
    (hb : ∀ i f, Single f → f.WF → Sound (b i f) → (b i f).size w ≤ m * f.size w + c)
    {f : Forest} {level count : Nat} (hf : f.WF) (h : Sound (selectTree s direct b level count f).1) :
    (selectTree s direct b level count f).1.size w ≤ n * f.size w := by
  have key : ∀ x y : Nat, 1 ≤ x → y ≤ m * x + c → y ≤ n * x := by
    intro x y hx hy
    have h1 : c * 1 ≤ c * x := Nat.mul_le_mul_left _ hx
    have h2 : (m + c) * x ≤ n * x := Nat.mul_le_mul_right _ hmc
    rw [Nat.add_mul] at h2
    omega
  have one : ∀ x : Nat, x ≤ n * x := fun x => Nat.le_mul_of_pos_left x hn
  induction f generalizing level count with
  | nil => simp [selectTree, Forest.size]
  | fail e => exact h.elim
  | leaf e r ih =>
    rw [selectTree] at h ⊢
    split at h
    · next hm =>
      rw [if_pos hm]
      obtain ⟨h1, h2⟩ := sound_append.1 h
      have hs := start_of_sound (hbs _) h1
      have h3 := hb _ _ (single_single e) (single_wf hf.1 hf.2.1 hf.2.2.1) h1
      have h4 : (single e).size w = w e := by rw [single, if_pos hs]; simp [Forest.size]
      rw [h4] at h3
      have h5 := key _ _ (hw.1 e hs) h3
      have h6 := ih (count := count + 1) hf.2.2.2 h2
      refine Nat.le_trans size_append ?_
      rw [Forest.size, Nat.mul_add]
      omega
    · next hm =>
      rw [if_neg hm]
      have h6 := ih (level := level) (count := count) hf.2.2.2 h
      simp only [Forest.size, Nat.mul_add]
      have := one (w e)
      omega
  | elem t as ch c' r ih1 ih2 =>
    rw [selectTree] at h ⊢
    split at h
    · next hm =>
      rw [if_pos hm]
      obtain ⟨h1, h2⟩ := sound_append.1 h
      have h3 := hb _ _ .elem ⟨hf.1, hf.2.1, hf.2.2.1, trivial⟩ h1
      have h4 := hw.1 (.openingTag t as) rfl
      have h5 := key _ _ (by simp only [Forest.size]; omega) h3
      have h6 := ih2 (count := count + 1) hf.2.2.2 h2
      refine Nat.le_trans size_append ?_
      simp only [Forest.size, Nat.mul_add, Nat.mul_zero] at h5 ⊢
      omega
    · next hm =>
      rw [if_neg hm]
      simp only at h ⊢
      split at h
      · exact absurd (start_of_sound (hbs _) (sound_append.1 h.1).2) (by simp [isStart])
      · next hc =>
        rw [if_neg hc]
        have h5 := ih1 hf.2.2.1 h.1
        have h6 := ih2 hf.2.2.2 h.2
        have h7 := one (w (.openingTag t as))
        have h8 := one (w (.closingTag c'))
        simp only [Forest.size, Nat.mul_add]
        omega

theorem once_none {s : Selector} {direct : Bool} {b : Forest → Forest} {f : Forest} {level : Nat}
    (h : (selectOnceTree s direct b level f).2 = false) :
    (selectOnceTree s direct b level f).1 = f := by
  induction f generalizing level with
  | nil => rfl
  | fail e => rfl
  | leaf e r ih =>
    rw [selectOnceTree] at h ⊢
    split at h
    · cases h
    · next hm => rw [if_neg hm]; simp only at h ⊢; rw [ih h]
  | elem t as ch c r ih1 ih2 =>
    rw [selectOnceTree] at h ⊢
    split at h
    · cases h
    · next hm =>
      rw [if_neg hm]
      simp only at h ⊢
      split at h
      · cases h
      · next hc =>
        rw [if_neg hc]
        split at h
        · cases h
        · next hd => rw [if_neg hd]; simp only at h ⊢; rw [ih1 (by simpa using hc), ih2 h]

theorem size_once {m c : Nat} (hm : 1 ≤ m) {s : Selector}
    {direct : Bool} {b : Forest → Forest} (hbs : ∀ f, Sound (b f) → Sound f)
    (hb : ∀ f, Single f → f.WF → Sound (b f) → (b f).size w ≤ m * f.size w + c)
    {f : Forest} {level : Nat} (hf : f.WF) (h : Sound (selectOnceTree s direct b level f).1) :
    (selectOnceTree s direct b level f).1.size w ≤ m * f.size w + c := by
  have one : ∀ x : Nat, x ≤ m * x := fun x => Nat.le_mul_of_pos_left x hm
  induction f generalizing level with
  | nil => simp [selectOnceTree, Forest.size]
  | fail e => exact h.elim
  | leaf e r ih =>
    rw [selectOnceTree] at h ⊢
    split at h
    · next hm =>
      rw [if_pos hm]
      obtain ⟨h1, h2⟩ := sound_append.1 h
      have hs := start_of_sound hbs h1
      have h3 := hb _ (single_single e) (single_wf hf.1 hf.2.1 hf.2.2.1) h1
      have h4 : (single e).size w = w e := by rw [single, if_pos hs]; simp [Forest.size]
      rw [h4] at h3
      have h5 := one (r.size w)
      refine Nat.le_trans size_append ?_
      rw [Forest.size, Nat.mul_add]
      omega
    · next hm =>
      rw [if_neg hm]
      have h6 := ih (level := level) hf.2.2.2 h
      simp only [Forest.size, Nat.mul_add]
      have := one (w e)
      omega
  | elem t as ch c' r ih1 ih2 =>
    have h7 := one (w (.openingTag t as))
    have h8 := one (w (.closingTag c'))
    have h9 := one (r.size w)
    have h10 := one (ch.size w)
    rw [selectOnceTree] at h ⊢
    split at h
    · next hm =>
      rw [if_pos hm]
      obtain ⟨h1, h2⟩ := sound_append.1 h
      have h3 := hb _ .elem ⟨hf.1, hf.2.1, hf.2.2.1, trivial⟩ h1
      refine Nat.le_trans size_append ?_
      simp only [Forest.size, Nat.mul_add, Nat.mul_zero] at h3 ⊢
      omega
    · next hm =>
      rw [if_neg hm]
      simp only at h ⊢
      split at h
      · next hc =>
        rw [if_pos hc]
        have h5 := ih1 hf.2.2.1 h.1
        simp only [Forest.size, Nat.mul_add]
        omega
      · next hc =>
        rw [if_neg hc]
        split at h
        · exact absurd (start_of_sound hbs (sound_append.1 h.1).2) (by simp [isStart])
        · next hd =>
          rw [if_neg hd]
          have h5 := once_none (b := b) (by simpa using hc)
          have h6 := ih2 hf.2.2.2 h.2
          rw [h5]
          simp only [Forest.size, Nat.mul_add]
          omega

theorem size_content {c : Content} (hc : PageContent c) {x : Nat}
    (hx : ∀ es, outcome (results c) = .ok es → weight w es ≤ x) (h : Sound (tree (results c))) :
    (tree (results c)).size w ≤ x := by
  obtain ⟨es, he⟩ := sound_iff.1 h
  rw [size_events he]
  exact hx es (tree_events hc ▸ he)

theorem chain_le {m c m₁ c₁ m₂ c₂ x y z : Nat} (hm : m₂ * m₁ ≤ m) (hc : m₂ * c₁ + c₂ ≤ c)
    (hy : y ≤ m₁ * x + c₁) (hz : z ≤ m₂ * y + c₂) : z ≤ m * x + c := by
  have h1 : m₂ * y ≤ m₂ * (m₁ * x + c₁) := Nat.mul_le_mul_left _ hy
  have h2 : m₂ * m₁ * x ≤ m * x := Nat.mul_le_mul_right _ hm
  rw [Nat.mul_add, ← Nat.mul_assoc] at h1
  omega

theorem size_meaning (hw : Fair w) {a k' : Kind} (p : Prog a k') {m c : Nat} (hp : WellNested p)
    (hg : Grows w m c p) {f : Forest} (hs : Shape a f) (hf : f.WF) (h : Sound (meaning p f)) :
    (meaning p f).size w ≤ m * f.size w + c := by
  induction p generalizing f m c with
  | src =>
    have : f.size w ≤ m * f.size w := Nat.le_mul_of_pos_left _ hg
    exact Nat.le_add_right_of_le this
  | forget p ih => exact ih hp hg hs hf h
  | apply p q ih1 ih2 =>
    obtain ⟨m₁, c₁, m₂, c₂, hm, hc, h1, h2⟩ := hg
    obtain ⟨h3, h4⟩ := meaning_ok p hp.1 f hs hf
    exact chain_le hm hc (ih1 hp.1 h1 hs hf (sound_meaning q h)) (ih2 hp.2 h2 h3 h4 h)
  | fallOk p ih => exact ih hp hg hs hf h
  | fallErr e => exact h.elim
  | selectRaw p s direct b ih ihb =>
    obtain ⟨m₁, c₁, m₂, c₂, n, hn, hmc, hm, hc, h1, h2⟩ := hg
    obtain ⟨h3, h4⟩ := meaning_ok p hp.1 f hs hf
    have hbs : ∀ i f, Sound (meaning (b i) f) → Sound f := fun i f h => sound_meaning (b i) h
    exact chain_le (c₂ := 0) hm (by simpa using hc) (ih hp.1 h1 hs hf (sound_select hbs h))
      (size_select hw hn hmc hbs (fun i g hg hwf h => ihb i (hp.2 i) (h2 i) hg hwf h) h4 h)
  | selectOnceRaw p s direct b ih ihb =>
    obtain ⟨m₁, c₁, m₂, c₂, hn, hm, hc, h1, h2⟩ := hg
    obtain ⟨h3, h4⟩ := meaning_ok p hp.1 f hs hf
    have hbs : ∀ f, Sound (meaning b f) → Sound f := fun f h => sound_meaning b h
    exact chain_le hm hc (ih hp.1 h1 hs hf (sound_once hbs h))
      (size_once hn hbs (fun g hg hwf h => ihb hp.2 h2 hg hwf h) h4 h)
  | remove p ih =>
    rw [meaning, removed] at h ⊢
    split
    · simp [Forest.size]
    · next e he => rw [he] at h; exact h.elim
  | prepend p x ih =>
    obtain ⟨c₁, c₂, hc, h1, h2⟩ := hg
    obtain ⟨h3, h4⟩ := sound_append.1 h
    have h5 := ih hp.1 h1 hs hf h4
    have h6 := size_content hp.2 h2 h3
    refine Nat.le_trans size_append ?_
    omega
  | append p x ih =>
    obtain ⟨c₁, c₂, hc, h1, h2⟩ := hg
    obtain ⟨h3, h4⟩ := sound_append.1 h
    have h5 := ih hp.1 h1 hs hf h3
    have h6 := size_content hp.2 h2 h4
    refine Nat.le_trans size_append ?_
    omega
  | «repeat» p n b ih ihb =>
    obtain ⟨m₁, c₁, m₂, c₂, hm, hc, h1, h2⟩ := hg
    obtain ⟨h3, h4⟩ := meaning_ok p hp.1 f hs hf
    have hsd := sound_meaning (.repeat .src n b) (f := meaning p f) h
    have hev := ih hp.1 h1 hs hf hsd
    rw [meaning, repeated] at h ⊢
    split
    · next es hes =>
      rw [hes] at h
      have key : ∀ n i, Sound (copies (fun i => meaning (b i) (meaning p f)) i n) →
          (copies (fun i => meaning (b i) (meaning p f)) i n).size w ≤
            n * (m₂ * (meaning p f).size w + c₂) := by
        intro n
        induction n with
        | zero => intro i _; simp [copies, Forest.size]
        | succ n ihn =>
          intro i hc
          obtain ⟨hc1, hc2⟩ := sound_append.1 hc
          have h5 := ihb i (hp.2 i) (h2 i) h3 h4 hc1
          have h6 := ihn _ hc2
          refine Nat.le_trans size_append (Nat.le_trans (Nat.add_le_add h5 h6) ?_)
          rw [Nat.add_mul, Nat.one_mul, Nat.add_comm]
          exact Nat.le_refl _
      have h5 := key _ _ h
      rw [Nat.mul_add, ← Nat.mul_assoc] at h5
      rw [← Nat.mul_assoc] at hm
      rw [Nat.mul_add, ← Nat.mul_assoc] at hc
      exact chain_le hm hc hev h5
    · next e hes => rw [hes] at h; exact h.elim
  | orElse p n r q ih ihr ihq =>
    obtain ⟨m₁, c₁, m₂, c₂, hm, hc, h1, h2, h2'⟩ := hg
    obtain ⟨h3, h4⟩ := meaning_ok p hp.1 f hs hf
    rw [meaning] at h ⊢
    split
    · next hn =>
      rw [if_pos hn] at h
      exact chain_le hm hc (ih hp.1 h1 hs hf (sound_meaning r h)) (ihr hp.2.1 h2 h3 h4 h)
    · next hn =>
      rw [if_neg hn] at h
      exact chain_le hm hc (ih hp.1 h1 hs hf (sound_meaning q h)) (ihq hp.2.2 h2' h3 h4 h)
  | applyTemplate p g ih =>
    obtain ⟨m₁, c₁, m₂, c₂, hm, hc, h1, h2⟩ := hg
    obtain ⟨h3, h4⟩ := meaning_ok p hp.1 f hs hf
    rw [meaning, applied] at h ⊢
    split
    · next es hes =>
      rw [hes] at h
      simp only at h
      split
      · next t' ht =>
        have hpg := hp.2 ⟨es⟩ t' (wf_page h4 hes) ht
        have h5 := h2 _ _ ht
        rw [size_events (treeOf_events hpg)]
        rw [← size_events hes] at h5
        exact chain_le hm hc (ih hp.1 h1 hs hf (sound_iff.2 ⟨es, hes⟩)) h5
      · next e ht => rw [ht] at h; exact h.elim
    · next e hes => rw [hes] at h; exact h.elim
  | contents p b ih ihb =>
    obtain ⟨m₁, c₁, m₂, c₂, hn, hm, hc, h1, h2⟩ := hg
    obtain ⟨h3, h4⟩ := meaning_ok p hp.1 f hs hf
    have hsd := sound_meaning (.contents .src b) (f := meaning p f) h
    refine chain_le hm hc (ih hp.1 h1 hs hf hsd) ?_
    rw [meaning] at h ⊢
    generalize meaning p f = g at h h3 h4 hsd
    have one : ∀ x : Nat, x ≤ m₂ * x := fun x => Nat.le_mul_of_pos_left x (by omega)
    cases h3 with
    | @leaf e hst =>
      cases e with
      | selfClosedTag t as =>
        have h5 := ihb hp.2 h2 (f := .nil) trivial trivial h.1
        have h6 := hw.2 t as
        have h7 : 2 * w (.selfClosedTag t as) ≤ m₂ * w (.selfClosedTag t as) :=
          Nat.mul_le_mul_right _ hn
        simp only [onChildren, Forest.size, Nat.mul_add, Nat.mul_zero] at h5 ⊢
        omega
      | _ => exact Nat.le_add_right_of_le (one _)
    | @elem t as ch cl =>
      have h5 := ihb hp.2 h2 (f := ch) trivial h4.2.2.1 h.1
      have h7 := one (w (.openingTag t as))
      have h8 := one (w (.closingTag cl))
      simp only [onChildren, Forest.size, Nat.mul_add, Nat.mul_zero] at h5 ⊢
      omega
    | fail => exact h.elim
  | attr p op ih =>
    obtain ⟨c₁, c₂, hc, h1, h2⟩ := hg
    have hsd := sound_meaning (.attr .src op) (f := meaning p f) h
    have hev := ih hp h1 hs hf hsd
    rw [meaning] at h ⊢
    generalize meaning p f = g at h hev hsd
    cases g with
    | nil => simp [onAttributes, Forest.size]
    | fail e => exact h.elim
    | elem t as g c r =>
      have h3 := h2 (.openingTag t as) rfl
      simp only [onAttributes, withAttributes, Forest.size] at h3 hev ⊢
      omega
    | leaf e r =>
      have h3 := h2 e
      cases e <;> simp only [onAttributes, withAttributes, Forest.size, isStart] at h3 hev ⊢ <;>
        first
        | omega
        | (have h3 := h3 trivial; omega)

end Fuser
