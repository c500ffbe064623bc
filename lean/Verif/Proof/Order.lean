import Verif.Proof.Size
import Verif.Proof.Laws
import Verif.Spec.Order

/-!
# Lemmas on what calls keep in its order
-/

namespace Fuser

open Spec

variable {α : Type} {v : Event → List α} {R : List α → List α → Prop}

/-- What is seen of a forest. -/
def Spec.Forest.seen (v : Event → List α) : Forest → List α
  | .nil => []
  | .fail _ => []
  | .leaf e rest => v e ++ rest.seen v
  | .elem t as children c rest =>
    v (.openingTag t as) ++ (children.seen v ++ (v (.closingTag c) ++ rest.seen v))

theorem seen_append (es es' : List Event) :
    Spec.seen v (es ++ es') = Spec.seen v es ++ Spec.seen v es' := by
  simp [Spec.seen]

theorem forest_seen_append {f g : Forest} (h : Sound f) :
    (f.append g).seen v = f.seen v ++ g.seen v := by
  induction f with
  | nil => rfl
  | fail e => exact h.elim
  | leaf e r ih => simp only [Forest.append, Forest.seen, ih h, List.append_assoc]
  | elem t as ch c r _ ih => simp only [Forest.append, Forest.seen, ih h.2, List.append_assoc]

theorem seen_events {f : Forest} {es : List Event} (h : f.events = .ok es) :
    f.seen v = Spec.seen v es := by
  induction f generalizing es with
  | nil => cases h; rfl
  | fail e => cases h
  | leaf e r ih =>
    rw [events_leaf] at h
    cases hr : r.events with
    | error e => rw [hr] at h; cases h
    | ok es' =>
      rw [hr] at h
      cases h
      rw [Forest.seen, ih hr, seen_append]
      simp [Spec.seen]
  | elem t as ch c r ih1 ih2 =>
    rw [events_elem] at h
    cases hc : ch.events with
    | error e => rw [hc] at h; cases h
    | ok cs =>
      rw [hc] at h
      cases hr : r.events with
      | error e => rw [hr] at h; cases h
      | ok rs =>
        rw [hr] at h
        cases h
        rw [Forest.seen, ih1 hc, ih2 hr]
        simp [Spec.seen]

theorem Spec.Piecewise.elem (hR : Piecewise R) {t c as as'} {x y x' y' : List α}
    (h0 : R (v (.openingTag t as)) (v (.openingTag t as'))) (h1 : R x y) (h2 : R x' y') :
    R (v (.openingTag t as) ++ (x ++ (v (.closingTag c) ++ x')))
      (v (.openingTag t as') ++ (y ++ (v (.closingTag c) ++ y'))) :=
  hR.append h0 (hR.append h1 (hR.append (hR.same _) h2))

theorem seen_select (hR : Piecewise R) {s : Selector}
    {direct : Bool} {b : Nat → Forest → Forest} (hbs : ∀ i f, Sound (b i f) → Sound f)
    (hb : ∀ i f, Single f → f.WF → Sound (b i f) → R (f.seen v) ((b i f).seen v))
    {f : Forest} {level count : Nat} (hf : f.WF) (h : Sound (selectTree s direct b level count f).1) :
    R (f.seen v) ((selectTree s direct b level count f).1.seen v) := by
  induction f generalizing level count with
  | nil => exact hR.same _
  | fail e => exact h.elim
  | leaf e r ih =>
    rw [selectTree] at h ⊢
    split at h
    · next hm =>
      rw [if_pos hm]
      obtain ⟨h1, h2⟩ := sound_append.1 h
      have hs := start_of_sound (hbs _) h1
      have h3 := hb _ _ (single_single e) (single_wf hf.1 hf.2.1 hf.2.2.1) h1
      have h4 : (single e).seen v = v e := by rw [single, if_pos hs]; simp [Forest.seen]
      rw [h4] at h3
      rw [forest_seen_append h1]
      exact hR.append h3 (ih (count := count + 1) hf.2.2.2 h2)
    · next hm =>
      rw [if_neg hm]
      exact hR.append (hR.same _) (ih (level := level) (count := count) hf.2.2.2 h)
  | elem t as ch c' r ih1 ih2 =>
    rw [selectTree] at h ⊢
    split at h
    · next hm =>
      rw [if_pos hm]
      obtain ⟨h1, h2⟩ := sound_append.1 h
      have h3 := hb _ _ .elem ⟨hf.1, hf.2.1, hf.2.2.1, trivial⟩ h1
      have h6 := ih2 (count := count + 1) hf.2.2.2 h2
      rw [forest_seen_append h1]
      have h7 := hR.append h3 h6
      simpa [Forest.seen] using h7
    · next hm =>
      rw [if_neg hm]
      simp only at h ⊢
      split at h
      · exact absurd (start_of_sound (hbs _) (sound_append.1 h.1).2) (by simp [isStart])
      · next hc =>
        rw [if_neg hc]
        exact hR.elem (hR.same _) (ih1 hf.2.2.1 h.1) (ih2 hf.2.2.2 h.2)

theorem seen_once (hR : Piecewise R) {s : Selector}
    {direct : Bool} {b : Forest → Forest} (hbs : ∀ f, Sound (b f) → Sound f)
    (hb : ∀ f, Single f → f.WF → Sound (b f) → R (f.seen v) ((b f).seen v))
    {f : Forest} {level : Nat} (hf : f.WF) (h : Sound (selectOnceTree s direct b level f).1) :
    R (f.seen v) ((selectOnceTree s direct b level f).1.seen v) := by
  induction f generalizing level with
  | nil => exact hR.same _
  | fail e => exact h.elim
  | leaf e r ih =>
    rw [selectOnceTree] at h ⊢
    split at h
    · next hm =>
      rw [if_pos hm]
      obtain ⟨h1, h2⟩ := sound_append.1 h
      have hs := start_of_sound hbs h1
      have h3 := hb _ (single_single e) (single_wf hf.1 hf.2.1 hf.2.2.1) h1
      have h4 : (single e).seen v = v e := by rw [single, if_pos hs]; simp [Forest.seen]
      rw [h4] at h3
      rw [forest_seen_append h1]
      exact hR.append h3 (hR.same _)
    · next hm =>
      rw [if_neg hm]
      exact hR.append (hR.same _) (ih (level := level) hf.2.2.2 h)
  | elem t as ch c' r ih1 ih2 =>
    rw [selectOnceTree] at h ⊢
    split at h
    · next hm =>
      rw [if_pos hm]
      obtain ⟨h1, h2⟩ := sound_append.1 h
      have h3 := hb _ .elem ⟨hf.1, hf.2.1, hf.2.2.1, trivial⟩ h1
      rw [forest_seen_append h1]
      have h7 := hR.append h3 (hR.same (r.seen v))
      simpa [Forest.seen] using h7
    · next hm =>
      rw [if_neg hm]
      simp only at h ⊢
      split at h
      · next hc =>
        rw [if_pos hc]
        exact hR.elem (hR.same _) (ih1 hf.2.2.1 h.1) (hR.same _)
      · next hc =>
        rw [if_neg hc]
        split at h
        · exact absurd (start_of_sound hbs (sound_append.1 h.1).2) (by simp [isStart])
        · next hd =>
          rw [if_neg hd]
          have h5 := once_none (b := b) (by simpa using hc)
          rw [h5]
          exact hR.elem (hR.same _) (hR.same _) (ih2 hf.2.2.2 h.2)

theorem seen_content {c : Content} (hc : PageContent c)
    (hx : ∀ es, outcome (results c) = .ok es → R [] (Spec.seen v es))
    (h : Sound (tree (results c))) : R [] ((tree (results c)).seen v) := by
  obtain ⟨es, he⟩ := sound_iff.1 h
  rw [seen_events he]
  exact hx es (tree_events hc ▸ he)

theorem seen_meaning (hv : OneOrTwo v R) (hR : Piecewise R) {a k' : Kind} (p : Prog a k')
    (hp : WellNested p) (hg : KeepsTo v R p) {f : Forest} (hs : Shape a f) (hf : f.WF)
    (h : Sound (meaning p f)) : R (f.seen v) ((meaning p f).seen v) := by
  induction p generalizing f with
  | src => exact hR.same _
  | forget p ih => exact ih hp hg hs hf h
  | apply p q ih1 ih2 =>
    obtain ⟨h3, h4⟩ := meaning_ok p hp.1 f hs hf
    exact hR.trans (ih1 hp.1 hg.1 hs hf (sound_meaning q h)) (ih2 hp.2 hg.2 h3 h4 h)
  | fallOk p ih => exact ih hp hg hs hf h
  | fallErr e => exact h.elim
  | selectRaw p s direct b ih ihb =>
    obtain ⟨h3, h4⟩ := meaning_ok p hp.1 f hs hf
    have hbs : ∀ i f, Sound (meaning (b i) f) → Sound f := fun i f h => sound_meaning (b i) h
    exact hR.trans (ih hp.1 hg.1 hs hf (sound_select hbs h))
      (seen_select hR hbs (fun i g hs' hwf h => ihb i (hp.2 i) (hg.2 i) hs' hwf h) h4 h)
  | selectOnceRaw p s direct b ih ihb =>
    obtain ⟨h3, h4⟩ := meaning_ok p hp.1 f hs hf
    have hbs : ∀ f, Sound (meaning b f) → Sound f := fun f h => sound_meaning b h
    exact hR.trans (ih hp.1 hg.1 hs hf (sound_once hbs h))
      (seen_once hR hbs (fun g hs' hwf h => ihb hp.2 hg.2 hs' hwf h) h4 h)
  | remove p ih =>
    rw [meaning, removed] at h ⊢
    split
    · exact hg _
    · next e he => rw [he] at h; exact h.elim
  | prepend p x ih =>
    obtain ⟨h3, h4⟩ := sound_append.1 h
    rw [meaning, forest_seen_append h3]
    exact hR.append (x := []) (seen_content hp.2 hg.2 h3) (ih hp.1 hg.1 hs hf h4)
  | append p x ih =>
    obtain ⟨h3, h4⟩ := sound_append.1 h
    rw [meaning, forest_seen_append h3, ← List.append_nil (f.seen v)]
    exact hR.append (ih hp.1 hg.1 hs hf h3) (seen_content hp.2 hg.2 h4)
  | «repeat» p n b ih ihb =>
    obtain ⟨h1, h2, hn⟩ := hg
    obtain ⟨h3, h4⟩ := meaning_ok p hp.1 f hs hf
    have hsd := sound_meaning (.repeat .src n b) (f := meaning p f) h
    refine hR.trans (ih hp.1 h1 hs hf hsd) ?_
    rw [meaning, repeated] at h ⊢
    split
    · next es hes =>
      rw [hes] at h
      have key : ∀ n i, Sound (copies (fun i => meaning (b i) (meaning p f)) i n) →
          ∃ ys : List (List α), ys.length = n ∧ (∀ y ∈ ys, R ((meaning p f).seen v) y) ∧
          (copies (fun i => meaning (b i) (meaning p f)) i n).seen v = ys.flatten := by
        intro n
        induction n with
        | zero => intro i _; exact ⟨[], rfl, by simp, rfl⟩
        | succ n ihn =>
          intro i hc
          obtain ⟨hc1, hc2⟩ := sound_append.1 hc
          have h5 := ihb i (hp.2 i) (h2 i) h3 h4 hc1
          obtain ⟨ys, h6, h7, h8⟩ := ihn _ hc2
          refine ⟨_ :: ys, by rw [List.length_cons, h6], List.forall_mem_cons.2 ⟨h5, h7⟩, ?_⟩
          rw [copies, forest_seen_append hc1, h8, List.flatten_cons]
      obtain ⟨ys, h6, h7, h8⟩ := key _ _ h
      rw [h8]
      exact hn _ ys h6 h7
    · next e hes => rw [hes] at h; exact h.elim
  | orElse p n r q ih ihr ihq =>
    obtain ⟨h3, h4⟩ := meaning_ok p hp.1 f hs hf
    rw [meaning] at h ⊢
    split
    · next hn =>
      rw [if_pos hn] at h
      exact hR.trans (ih hp.1 hg.1 hs hf (sound_meaning r h)) (ihr hp.2.1 hg.2.1 h3 h4 h)
    · next hn =>
      rw [if_neg hn] at h
      exact hR.trans (ih hp.1 hg.1 hs hf (sound_meaning q h)) (ihq hp.2.2 hg.2.2 h3 h4 h)
  | applyTemplate p g ih =>
    obtain ⟨h3, h4⟩ := meaning_ok p hp.1 f hs hf
    rw [meaning, applied] at h ⊢
    split
    · next es hes =>
      rw [hes] at h
      simp only at h
      split
      · next t' ht =>
        have hpg := hp.2 ⟨es⟩ t' (wf_page h4 hes) ht
        have h5 := hg.2 _ _ ht
        rw [seen_events (treeOf_events hpg)]
        rw [← seen_events hes] at h5
        exact hR.trans (ih hp.1 hg.1 hs hf (sound_iff.2 ⟨es, hes⟩)) h5
      · next e ht => rw [ht] at h; exact h.elim
    · next e hes => rw [hes] at h; exact h.elim
  | contents p b ih ihb =>
    obtain ⟨h3, h4⟩ := meaning_ok p hp.1 f hs hf
    have hsd := sound_meaning (.contents .src b) (f := meaning p f) h
    refine hR.trans (ih hp.1 hg.1 hs hf hsd) ?_
    rw [meaning] at h ⊢
    generalize meaning p f = g at h h3 h4 hsd
    cases h3 with
    | @leaf e hst =>
      cases e with
      | selfClosedTag t as =>
        have h5 := ihb hp.2 hg.2 (f := .nil) trivial trivial h.1
        have h6 := hR.elem (v := v) (t := t) (c := t) (hR.same (v (.openingTag t as))) h5
          (hR.same [])
        simp only [onChildren, Forest.seen, List.nil_append, List.append_nil] at h6 ⊢
        exact hR.trans (hv t as) h6
      | _ => exact hR.same _
    | @elem t as ch cl =>
      exact hR.elem (hR.same _) (ihb hp.2 hg.2 (f := ch) trivial h4.2.2.1 h.1) (hR.same _)
    | fail => exact h.elim
  | attr p op ih =>
    have hsd := sound_meaning (.attr .src op) (f := meaning p f) h
    refine hR.trans (ih hp hg.1 hs hf hsd) ?_
    have h2 := hg.2
    rw [meaning] at h ⊢
    generalize meaning p f = g at h hsd
    cases g with
    | nil => exact hR.same _
    | fail e => exact h.elim
    | elem t as g c r => exact hR.elem (h2 (.openingTag t as) rfl) (hR.same _) (hR.same _)
    | leaf e r =>
      cases e <;> first
        | exact hR.same _
        | exact hR.append (h2 _ rfl) (hR.same _)

/-! ## Instances -/

theorem opens_tags (part : Attributes → Attributes) {R : List Event → List Event → Prop}
    (hR : Piecewise R) : OneOrTwo (tags part) R := fun _ _ => hR.same _

theorem piecewise_sublist : Piecewise (α := α) fun x y => x.Sublist y :=
  ⟨fun _ => .refl _, fun h h' => h.trans h', fun h h' => h.append h'⟩

theorem piecewise_superlist : Piecewise (α := α) fun x y => y.Sublist x :=
  ⟨fun _ => .refl _, fun h h' => h'.trans h, fun h h' => h.append h'⟩

theorem piecewise_eq : Piecewise (α := α) fun x y => x = y :=
  ⟨fun _ => rfl, fun h h' => h.trans h', fun h h' => by rw [h, h']⟩

theorem tags_withAttributes {part f : Attributes → Attributes} (h : ∀ as, part (f as) = part as)
    (e : Event) : tags part e = tags part (withAttributes f e) := by
  cases e <;> simp [tags, withAttributes, h]

theorem keepsTo_inserts {a k : Kind} {p : Prog a k} (h : OnlyInserts p) :
    KeepsTo (tags fun _ => []) (fun x y => x.Sublist y) p := by
  induction p with
  | src => trivial
  | forget p ih => exact ih h
  | apply p q ih1 ih2 => exact ⟨ih1 h.1, ih2 h.2⟩
  | fallOk p ih => exact ih h
  | fallErr e => trivial
  | selectRaw p s direct b ih ihb => exact ⟨ih h.1, fun i => ihb i (h.2 i)⟩
  | selectOnceRaw p s direct b ih ihb => exact ⟨ih h.1, ihb h.2⟩
  | remove p ih => exact h.elim
  | prepend p x ih => exact ⟨ih h, fun _ _ => List.nil_sublist _⟩
  | append p x ih => exact ⟨ih h, fun _ _ => List.nil_sublist _⟩
  | «repeat» p n b ih ihb =>
    refine ⟨ih h.1, fun i => ihb i (h.2.1 i), fun x ys hn hy => ?_⟩
    cases ys with
    | nil => have := h.2.2; simp at hn; omega
    | cons y ys =>
      exact (hy y (by simp)).trans (List.sublist_append_left _ _)
  | orElse p n r q ih ihr ihq => exact ⟨ih h.1, ihr h.2.1, ihq h.2.2⟩
  | applyTemplate p g ih => exact ⟨ih h.1, h.2⟩
  | contents p b ih ihb => exact ⟨ih h.1, ihb h.2⟩
  | attr p op ih =>
    refine ⟨ih h, fun e _ => ?_⟩
    simp only [← tags_withAttributes (part := fun _ => []) (f := op.apply) (fun _ => rfl) e]
    exact .refl _

theorem keepsTo_removes {a k : Kind} {p : Prog a k} (h : OnlyRemoves p) :
    KeepsTo (tags fun _ => []) (fun x y => y.Sublist x) p := by
  induction p with
  | src => trivial
  | forget p ih => exact ih h
  | apply p q ih1 ih2 => exact ⟨ih1 h.1, ih2 h.2⟩
  | fallOk p ih => exact ih h
  | fallErr e => trivial
  | selectRaw p s direct b ih ihb => exact ⟨ih h.1, fun i => ihb i (h.2 i)⟩
  | selectOnceRaw p s direct b ih ihb => exact ⟨ih h.1, ihb h.2⟩
  | remove p ih => exact fun _ => List.nil_sublist _
  | prepend p x ih => exact h.elim
  | append p x ih => exact h.elim
  | «repeat» p n b ih ihb =>
    refine ⟨ih h.1, fun i => ihb i (h.2.1 i), fun x ys hn hy => ?_⟩
    cases ys with
    | nil => exact List.nil_sublist _
    | cons y ys =>
      have h3 := h.2.2
      have : ys = [] := by
        rw [← List.length_eq_zero_iff]
        simp at hn
        omega
      subst this
      simpa using hy y (by simp)
  | orElse p n r q ih ihr ihq => exact ⟨ih h.1, ihr h.2.1, ihq h.2.2⟩
  | applyTemplate p g ih => exact ⟨ih h.1, h.2⟩
  | contents p b ih ihb => exact ⟨ih h.1, ihb h.2⟩
  | attr p op ih =>
    refine ⟨ih h, fun e _ => ?_⟩
    simp only [← tags_withAttributes (part := fun _ => []) (f := op.apply) (fun _ => rfl) e]
    exact .refl _

theorem notOfName_congr {n m : Str} (h : SameName n m) : notOfName n = notOfName m := by
  funext as
  unfold notOfName
  refine List.filter_congr fun a _ => ?_
  have : Named n a ↔ Named m a := ⟨fun h' => h'.trans h, fun h' => h'.trans h.symm⟩
  simp [this]

theorem keepsTo_about {n : Str} {a k : Kind} {p : Prog a k} (h : OnlyAbout n p) :
    KeepsTo (tags (notOfName n)) (fun x y => x = y) p := by
  induction p with
  | src => trivial
  | forget p ih => exact ih h
  | apply p q ih1 ih2 => exact ⟨ih1 h.1, ih2 h.2⟩
  | fallOk p ih => exact ih h
  | fallErr e => trivial
  | selectRaw p s direct b ih ihb => exact ⟨ih h.1, fun i => ihb i (h.2 i)⟩
  | selectOnceRaw p s direct b ih ihb => exact ⟨ih h.1, ihb h.2⟩
  | orElse p n r q ih ihr ihq => exact ⟨ih h.1, ihr h.2.1, ihq h.2.2⟩
  | contents p b ih ihb => exact ⟨ih h.1, ihb h.2⟩
  | attr p op ih =>
    refine ⟨ih h.1, fun e _ => tags_withAttributes (fun as => ?_) e⟩
    rw [← notOfName_congr h.2.2]
    exact notOfName_apply op h.2.1 as
  | _ => exact h.elim

end Fuser
