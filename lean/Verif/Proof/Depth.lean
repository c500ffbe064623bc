import Verif.Proof.Keep
import Verif.Spec.Depth

/-!
# Lemmas on the depth of pages
-/

namespace Fuser

open Spec

/-- At most this deep, and no errors. -/
def Within : Nat → Forest → Prop
  | _, .nil => True
  | _, .fail _ => False
  | n, .leaf _ rest => Within n rest
  | n, .elem _ _ children _ rest => 0 < n ∧ Within (n - 1) children ∧ Within n rest

theorem within_mono {n m : Nat} (h : n ≤ m) {f : Forest} (hf : Within n f) : Within m f := by
  induction f generalizing n m with
  | nil => trivial
  | fail e => exact hf
  | leaf e r ih => exact ih h hf
  | elem t as ch c r ih1 ih2 =>
    exact ⟨by have := hf.1; omega, ih1 (by omega) hf.2.1, ih2 h hf.2.2⟩

theorem within_append {n : Nat} {f g : Forest} (hf : Within n f) (hg : Within n g) :
    Within n (f.append g) := by
  induction f with
  | nil => exact hg
  | fail e => exact hf.elim
  | leaf e r ih => exact ih hf
  | elem t as ch c r _ ih => exact ⟨hf.1, hf.2.1, ih hf.2.2⟩

theorem within_single {n : Nat} {e : Event} (hs : isStart e = true) : Within n (single e) := by
  rw [single, if_pos hs]
  trivial

theorem within_nests {f : Forest} (hw : f.WF) {n : Nat} {es : List Event} (h : f.events = .ok es) :
    Within n f ↔ Nests n es := by
  induction f generalizing es n with
  | nil => cases h; exact ⟨fun _ => .nil, fun _ => trivial⟩
  | fail e => cases h
  | leaf e r ih =>
    rw [events_leaf] at h
    cases hr : r.events with
    | error e => rw [hr] at h; cases h
    | ok es' =>
      rw [hr] at h
      cases h
      have ih := ih hw.2.2.2 (n := n) hr
      constructor
      · exact fun h => .leaf hw.1 (ih.1 h)
      · intro h
        generalize hl : [e] ++ es' = l at h
        cases h with
        | nil => cases hl
        | leaf _ h => cases hl; exact ih.2 h
        | element => cases hl; exact hw.1.elim
  | elem t as ch c r ih1 ih2 =>
    rw [events_elem] at h
    cases hc : ch.events with
    | error e => rw [hc] at h; cases h
    | ok cs =>
      rw [hc] at h
      cases hr : r.events with
      | error e => rw [hr] at h; cases h
      | ok rs =>
        rw [hr] at h
        cases h
        have ih1 := fun n => ih1 hw.2.2.1 (n := n) hc
        have ih2 := ih2 hw.2.2.2 (n := n) hr
        constructor
        · rintro ⟨h1, h2, h3⟩
          obtain ⟨m, rfl⟩ : ∃ m, n = m + 1 := ⟨n - 1, by omega⟩
          exact .element hw.1 ((ih1 m).1 h2) (ih2.1 h3)
        · intro h
          generalize hl : [Event.openingTag t as] ++ (cs ++ ([Event.closingTag c] ++ rs)) = l at h
          cases h with
          | nil => cases hl
          | leaf h => obtain ⟨rfl, -⟩ := List.cons.inj hl; exact h.elim
          | @element n t' as' c' inner es' _ h1 h2 =>
            have hl := (List.cons.inj hl).2
            obtain ⟨n', hb⟩ := (wf_balanced hw.2.2.1 hc).1
            obtain ⟨rfl, rfl, rfl⟩ := nests_prefix hb h1 hl
            exact ⟨by omega, (ih1 n).2 h1, ih2.2 h2⟩

theorem within_select {k : Nat} {s : Selector} {direct : Bool} {b : Nat → Forest → Forest}
    (hbs : ∀ i f, Sound (b i f) → Sound f)
    (hb : ∀ i f n, Single f → f.WF → Within n f → Sound (b i f) → Within (n + k) (b i f))
    {f : Forest} {n level count : Nat} (hw : f.WF) (hf : Within n f)
    (h : Sound (selectTree s direct b level count f).1) :
    Within (n + k) (selectTree s direct b level count f).1 := by
  induction f generalizing n level count with
  | nil => trivial
  | fail e => exact h
  | leaf e r ih =>
    rw [selectTree] at h ⊢
    split at h
    · next hm =>
      rw [if_pos hm]
      obtain ⟨h1, h2⟩ := sound_append.1 h
      have hs := start_of_sound (hbs _) h1
      exact within_append (hb _ _ _ (single_single e) (single_wf hw.1 hw.2.1 hw.2.2.1)
        (within_single hs) h1) (ih hw.2.2.2 hf h2)
    · next hm =>
      rw [if_neg hm]
      exact ih (n := n) hw.2.2.2 hf h
  | elem t as ch c r ih1 ih2 =>
    rw [selectTree] at h ⊢
    split at h
    · next hm =>
      rw [if_pos hm]
      obtain ⟨h1, h2⟩ := sound_append.1 h
      exact within_append (hb _ _ _ .elem ⟨hw.1, hw.2.1, hw.2.2.1, trivial⟩
        ⟨hf.1, hf.2.1, trivial⟩ h1) (ih2 hw.2.2.2 hf.2.2 h2)
    · next hm =>
      rw [if_neg hm]
      simp only at h ⊢
      split at h
      · exact absurd (start_of_sound (hbs _) (sound_append.1 h.1).2) (by simp [isStart])
      · next hc =>
        rw [if_neg hc]
        refine ⟨by have := hf.1; omega, ?_, ih2 hw.2.2.2 hf.2.2 h.2⟩
        have := ih1 hw.2.2.1 hf.2.1 h.1
        rwa [show n - 1 + k = n + k - 1 by have := hf.1; omega] at this

theorem within_once {k : Nat} {s : Selector} {direct : Bool} {b : Forest → Forest}
    (hbs : ∀ f, Sound (b f) → Sound f)
    (hb : ∀ f n, Single f → f.WF → Within n f → Sound (b f) → Within (n + k) (b f))
    {f : Forest} {n level : Nat} (hw : f.WF) (hf : Within n f)
    (h : Sound (selectOnceTree s direct b level f).1) :
    Within (n + k) (selectOnceTree s direct b level f).1 := by
  have up : ∀ {n : Nat} {g : Forest}, Within n g → Within (n + k) g :=
    fun h => within_mono (by omega) h
  induction f generalizing n level with
  | nil => trivial
  | fail e => exact h
  | leaf e r ih =>
    rw [selectOnceTree] at h ⊢
    split at h
    · next hm =>
      rw [if_pos hm]
      obtain ⟨h1, h2⟩ := sound_append.1 h
      have hs := start_of_sound hbs h1
      exact within_append (hb _ _ (single_single e) (single_wf hw.1 hw.2.1 hw.2.2.1)
        (within_single hs) h1) (up hf)
    · next hm =>
      rw [if_neg hm]
      exact ih (n := n) hw.2.2.2 hf h
  | elem t as ch c r ih1 ih2 =>
    have pos := hf.1
    rw [selectOnceTree] at h ⊢
    split at h
    · next hm =>
      rw [if_pos hm]
      obtain ⟨h1, h2⟩ := sound_append.1 h
      exact within_append (hb _ _ .elem ⟨hw.1, hw.2.1, hw.2.2.1, trivial⟩
        ⟨hf.1, hf.2.1, trivial⟩ h1) (up hf.2.2)
    · next hm =>
      rw [if_neg hm]
      simp only at h ⊢
      have inner : ∀ h : Sound (selectOnceTree s direct b (level + 1) ch).1,
          Within (n + k - 1) (selectOnceTree s direct b (level + 1) ch).1 := by
        intro h
        have := ih1 hw.2.2.1 hf.2.1 h
        rwa [show n - 1 + k = n + k - 1 by omega] at this
      split at h
      · next hc =>
        rw [if_pos hc]
        exact ⟨by omega, inner h.1, up hf.2.2⟩
      · next hc =>
        rw [if_neg hc]
        split at h
        · exact absurd (start_of_sound hbs (sound_append.1 h.1).2) (by simp [isStart])
        · next hd =>
          rw [if_neg hd]
          exact ⟨by omega, inner h.1, ih2 hw.2.2.2 hf.2.2 h.2⟩

theorem within_content {c : Content} (hc : PageContent c) {k : Nat}
    (hk : ∀ es, outcome (results c) = .ok es → Nests k es) (h : Sound (tree (results c))) :
    Within k (tree (results c)) := by
  obtain ⟨es, he⟩ := sound_iff.1 h
  exact (within_nests (tree_spec hc.1 hc.2).1 he).2 (hk es (tree_events hc ▸ he))

theorem within_meaning {a k' : Kind} (p : Prog a k') {k n : Nat} (hp : WellNested p)
    (hk : Deepens k p) {f : Forest} (hs : Shape a f) (hf : f.WF) (he : Within n f)
    (h : Sound (meaning p f)) : Within (n + k) (meaning p f) := by
  induction p generalizing f n k with
  | src => exact within_mono (by omega) he
  | forget p ih => exact ih hp hk hs hf he h
  | apply p q ih1 ih2 =>
    obtain ⟨i, j, hij, hi, hj⟩ := hk
    obtain ⟨h1, h2⟩ := meaning_ok p hp.1 f hs hf
    exact within_mono (by omega)
      (ih2 hp.2 hj h1 h2 (ih1 hp.1 hi hs hf he (sound_meaning q h)) h)
  | fallOk p ih => exact ih hp hk hs hf he h
  | fallErr e => exact h.elim
  | selectRaw p s direct b ih ihb =>
    obtain ⟨i, j, hij, hi, hj⟩ := hk
    obtain ⟨h1, h2⟩ := meaning_ok p hp.1 f hs hf
    have hbs : ∀ i f, Sound (meaning (b i) f) → Sound f := fun i f h => sound_meaning (b i) h
    exact within_mono (by omega)
      (within_select hbs (fun i g y hg hw hev h => ihb i (hp.2 i) (hj i) hg hw hev h) h2
        (ih hp.1 hi hs hf he (sound_select hbs h)) h)
  | selectOnceRaw p s direct b ih ihb =>
    obtain ⟨i, j, hij, hi, hj⟩ := hk
    obtain ⟨h1, h2⟩ := meaning_ok p hp.1 f hs hf
    have hbs : ∀ f, Sound (meaning b f) → Sound f := fun f h => sound_meaning b h
    exact within_mono (by omega)
      (within_once hbs (fun g y hg hw hev h => ihb hp.2 hj hg hw hev h) h2
        (ih hp.1 hi hs hf he (sound_once hbs h)) h)
  | remove p ih =>
    rw [meaning, removed] at h ⊢
    split
    · trivial
    · next e he => rw [he] at h; exact h
  | prepend p c ih =>
    obtain ⟨h1, h2⟩ := sound_append.1 h
    exact within_append (within_mono (by omega) (within_content hp.2 hk.2 h1))
      (ih hp.1 hk.1 hs hf he h2)
  | append p c ih =>
    obtain ⟨h1, h2⟩ := sound_append.1 h
    exact within_append (ih hp.1 hk.1 hs hf he h1)
      (within_mono (by omega) (within_content hp.2 hk.2 h2))
  | «repeat» p m b ih ihb =>
    obtain ⟨i, j, hij, hi, hj⟩ := hk
    obtain ⟨h1, h2⟩ := meaning_ok p hp.1 f hs hf
    have hsd := sound_meaning (.repeat .src m b) (f := meaning p f) h
    have hev := ih hp.1 hi hs hf he hsd
    rw [meaning, repeated] at h ⊢
    split
    · next es hes =>
      rw [hes] at h
      have : ∀ m i, Sound (copies (fun i => meaning (b i) (meaning p f)) i m) →
          Within (n + k) (copies (fun i => meaning (b i) (meaning p f)) i m) := by
        intro m
        induction m with
        | zero => intro i _; trivial
        | succ m ihm =>
          intro i hc
          obtain ⟨hc1, hc2⟩ := sound_append.1 hc
          exact within_append (within_mono (by omega) (ihb i (hp.2 i) (hj i) h1 h2 hev hc1))
            (ihm _ hc2)
      exact this _ _ h
    · next e hes => rw [hes] at h; exact h
  | orElse p m r q ih ihr ihq =>
    obtain ⟨i, j, hij, hi, hj1, hj2⟩ := hk
    obtain ⟨h1, h2⟩ := meaning_ok p hp.1 f hs hf
    rw [meaning] at h ⊢
    split
    · next hn =>
      rw [if_pos hn] at h
      exact within_mono (by omega)
        (ihr hp.2.1 hj1 h1 h2 (ih hp.1 hi hs hf he (sound_meaning r h)) h)
    · next hn =>
      rw [if_neg hn] at h
      exact within_mono (by omega)
        (ihq hp.2.2 hj2 h1 h2 (ih hp.1 hi hs hf he (sound_meaning q h)) h)
  | applyTemplate p g ih =>
    obtain ⟨i, j, hij, hi, hj⟩ := hk
    obtain ⟨h1, h2⟩ := meaning_ok p hp.1 f hs hf
    have hsd : Sound (meaning p f) := by
      rw [meaning, applied] at h
      cases hr : (meaning p f).events with
      | ok es => exact sound_iff.2 ⟨es, hr⟩
      | error e => rw [hr] at h; exact h.elim
    have hev := ih hp.1 hi hs hf he hsd
    rw [meaning, applied] at h ⊢
    split
    · next es hes =>
      rw [hes] at h
      simp only at h
      split
      · next t' ht =>
        have hpg := hp.2 ⟨es⟩ t' (wf_page h2 hes) ht
        exact within_mono (by omega) ((within_nests (treeOf_spec hpg).1 (treeOf_events hpg)).2
          (hj _ ⟨es⟩ t' ((within_nests h2 hes).1 hev) ht))
      · next e ht => rw [ht] at h; exact h
    · next e hes => rw [hes] at h; exact h
  | contents p b ih ihb =>
    obtain ⟨i, j, hij, hi, hj⟩ := hk
    obtain ⟨h1, h2⟩ := meaning_ok p hp.1 f hs hf
    have hsd := sound_meaning (.contents .src b) (f := meaning p f) h
    have hev := ih hp.1 hi hs hf he hsd
    rw [meaning] at h ⊢
    generalize meaning p f = g at h h1 h2 hev hsd
    cases h1 with
    | @leaf e hst =>
      cases e with
      | selfClosedTag t as =>
        exact ⟨by omega, within_mono (by omega)
          (ihb (n := 0) hp.2 hj trivial trivial trivial h.1), trivial⟩
      | _ => trivial
    | elem =>
      have := hev.1
      exact ⟨by omega, within_mono (by omega)
        (ihb hp.2 hj trivial h2.2.2.1 hev.2.1 h.1), trivial⟩
    | fail => exact h
  | attr p op ih =>
    have hsd := sound_meaning (.attr .src op) (f := meaning p f) h
    have hev := ih hp hk hs hf he hsd
    rw [meaning] at h ⊢
    generalize meaning p f = g at h hev hsd
    cases g with
    | nil => trivial
    | fail e => exact h
    | elem t as g c r => exact hev
    | leaf e r => cases e <;> exact hev

end Fuser
