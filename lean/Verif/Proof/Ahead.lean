import Verif.Proof.Order

/-!
# Lemmas on pages that begin alike
-/

namespace Fuser

open Spec

variable {α : Type} {v : Event → List α} {R : List α → List α → Prop}

/-- The events of a forest before its first failure. -/
def Spec.Forest.all (f : Forest) : List Event := f.seen fun e => [e]

/-- Both forests begin with the events `x`. -/
inductive Cut : List Event → Forest → Forest → Prop
  | zero {f g} : Cut [] f g
  | leaf {x e r r'} : Cut x r r' → Cut (e :: x) (.leaf e r) (.leaf e r')
  | inside {x t as c c' k k' r r'} : Cut x c c' →
      Cut (.openingTag t as :: x) (.elem t as c k r) (.elem t as c' k' r')
  | after {x t as c k r r'} : Sound c → Cut x r r' →
      Cut (.openingTag t as :: (c.all ++ .closingTag k :: x)) (.elem t as c k r) (.elem t as c k r')

theorem seen_single (es : List Event) : Spec.seen (fun e => [e]) es = es := by
  induction es with
  | nil => rfl
  | cons e es ih => exact congrArg (e :: ·) ih

theorem all_events {f : Forest} {es : List Event} (h : f.events = .ok es) : f.all = es := by
  rw [Forest.all, seen_events h, seen_single]

theorem all_append {f g : Forest} (h : Sound f) : (f.append g).all = f.all ++ g.all :=
  forest_seen_append h

theorem seen_all (f : Forest) : Spec.seen v f.all = f.seen v := by
  induction f with
  | nil => rfl
  | fail e => rfl
  | leaf e r ih =>
    change Spec.seen v ([e] ++ r.all) = _
    rw [seen_append, ih, Forest.seen]
    simp [Spec.seen]
  | elem t as c k r ih1 ih2 =>
    change Spec.seen v ([.openingTag t as] ++ (c.all ++ ([.closingTag k] ++ r.all))) = _
    rw [seen_append, seen_append, seen_append, ih1, ih2, Forest.seen]
    simp [Spec.seen]

theorem seen_cons (e : Event) (es : List Event) : Spec.seen v (e :: es) = v e ++ Spec.seen v es :=
  rfl

theorem Cut.prefixes {x : List Event} {f g : Forest} (h : Cut x f g) : x <+: f.all ∧ x <+: g.all := by
  induction h with
  | zero => exact ⟨List.nil_prefix, List.nil_prefix⟩
  | leaf _ ih => exact ⟨List.prefix_cons_inj _ |>.2 ih.1, List.prefix_cons_inj _ |>.2 ih.2⟩
  | @inside x t as c c' k k' r r' _ ih =>
    refine ⟨(List.prefix_cons_inj _).2 (ih.1.trans (List.prefix_append _ _)),
      (List.prefix_cons_inj _).2 (ih.2.trans (List.prefix_append _ _))⟩
  | @after x t as c k r r' _ _ ih =>
    exact ⟨(List.prefix_cons_inj _).2 ((List.prefix_append_right_inj _).2
        ((List.prefix_cons_inj _).2 ih.1)),
      (List.prefix_cons_inj _).2 ((List.prefix_append_right_inj _).2
        ((List.prefix_cons_inj _).2 ih.2))⟩

theorem Cut.append {x : List Event} {f g : Forest} (h : Cut x f g) (f' g' : Forest) :
    Cut x (f.append f') (g.append g') := by
  induction h with
  | zero => exact .zero
  | leaf _ ih => exact .leaf ih
  | inside h _ => exact .inside h
  | after hc _ ih => exact .after hc ih

theorem Cut.before {x : List Event} {f g g' : Forest} (hf : Sound f) (h : Cut x g g') :
    Cut (f.all ++ x) (f.append g) (f.append g') := by
  induction f with
  | nil => exact h
  | fail e => exact hf.elim
  | leaf e r ih => exact .leaf (ih hf)
  | elem t as c k r _ ih =>
    have := Cut.after (t := t) (as := as) (k := k) hf.1 (ih hf.2)
    simpa [Forest.all, Forest.seen, Forest.append] using this

/-- Equal sound forests begin with all their events. -/
theorem Cut.full {f : Forest} (hf : Sound f) : Cut f.all f f := by
  have := Cut.before (g := .nil) (g' := .nil) hf .zero
  rwa [List.append_nil, append_nil] at this

/-- A forest and another one begin alike, and no less than `x` is kept of the first. -/
def Begins (v : Event → List α) (R : List α → List α → Prop) (x : List Event) (f g : Forest) : Prop :=
  ∃ x', R (Spec.seen v x) (Spec.seen v x') ∧ Cut x' f g

theorem cut_select (hR : Piecewise R) {s : Selector} {direct : Bool} {b : Nat → Forest → Forest}
    (hbs : ∀ i f, Sound (b i f) → Sound f)
    (hb : ∀ i f, Single f → f.WF → Sound (b i f) → R (f.seen v) ((b i f).seen v))
    (hc : ∀ i x f g, Single f → Single g → f.WF → g.WF → Sound (b i f) → Sound (b i g) →
      Cut x f g → Begins v R x (b i f) (b i g))
    {x : List Event} {f g : Forest} (h : Cut x f g) : ∀ {level count : Nat}, f.WF → g.WF →
    Sound (selectTree s direct b level count f).1 → Sound (selectTree s direct b level count g).1 →
    Begins v R x (selectTree s direct b level count f).1 (selectTree s direct b level count g).1 := by
  induction h with
  | zero => exact fun _ _ _ _ => ⟨[], hR.same _, .zero⟩
  | @leaf x e r r' h ih =>
    intro level count hf hg h1 h2
    rw [selectTree] at h1 h2 ⊢
    conv => rhs; rw [selectTree]
    split at h1
    · next hm =>
      rw [if_pos hm] at h2 ⊢
      rw [if_pos hm]
      obtain ⟨h3, h4⟩ := sound_append.1 h1
      have hs := start_of_sound (hbs _) h3
      have h5 := hb _ _ (single_single e) (single_wf hf.1 hf.2.1 hf.2.2.1) h3
      have h6 : (single e).seen v = v e := by rw [single, if_pos hs]; simp [Forest.seen]
      obtain ⟨x', h7, h8⟩ := ih hf.2.2.2 hg.2.2.2 h4 (sound_append.1 h2).2
      refine ⟨_, ?_, h8.before h3⟩
      rw [seen_append, seen_all, seen_cons]
      exact hR.append (h6 ▸ h5) h7
    · next hm =>
      rw [if_neg hm] at h2 ⊢
      rw [if_neg hm]
      obtain ⟨x', h7, h8⟩ := ih hf.2.2.2 hg.2.2.2 h1 h2
      exact ⟨e :: x', hR.append (hR.same _) h7, .leaf h8⟩
  | @inside x t as c c' k k' r r' h ih =>
    intro level count hf hg h1 h2
    rw [selectTree] at h1 h2 ⊢
    conv => rhs; rw [selectTree]
    split at h1
    · next hm =>
      rw [if_pos hm] at h2 ⊢
      rw [if_pos hm]
      obtain ⟨x', h7, h8⟩ := hc _ _ _ _ .elem .elem ⟨hf.1, hf.2.1, hf.2.2.1, trivial⟩
        ⟨hg.1, hg.2.1, hg.2.2.1, trivial⟩ (sound_append.1 h1).1 (sound_append.1 h2).1
        (Cut.inside (t := t) (as := as) (k := k) (k' := k') (r := .nil) (r' := .nil) h)
      exact ⟨x', h7, h8.append _ _⟩
    · next hm =>
      rw [if_neg hm] at h2 ⊢
      rw [if_neg hm]
      simp only at h1 h2 ⊢
      split at h1
      · exact absurd (start_of_sound (hbs _) (sound_append.1 h1.1).2) (by simp [isStart])
      · next hcl =>
        split at h2
        · exact absurd (start_of_sound (hbs _) (sound_append.1 h2.1).2) (by simp [isStart])
        · next hcl' =>
          rw [if_neg hcl, if_neg hcl']
          obtain ⟨x', h7, h8⟩ := ih hf.2.2.1 hg.2.2.1 h1.1 h2.1
          exact ⟨_, hR.append (hR.same _) h7, .inside h8⟩
  | @after x t as c k r r' hsc h ih =>
    intro level count hf hg h1 h2
    rw [selectTree] at h1 h2 ⊢
    conv => rhs; rw [selectTree]
    split at h1
    · next hm =>
      rw [if_pos hm] at h2 ⊢
      rw [if_pos hm]
      obtain ⟨h3, h4⟩ := sound_append.1 h1
      have h5 := hb _ _ .elem ⟨hf.1, hf.2.1, hf.2.2.1, trivial⟩ h3
      obtain ⟨x', h7, h8⟩ := ih hf.2.2.2 hg.2.2.2 h4 (sound_append.1 h2).2
      refine ⟨_, ?_, h8.before h3⟩
      have h9 := hR.append h5 h7
      rw [seen_append, seen_all, seen_cons, seen_append, seen_cons, seen_all]
      simpa [Forest.seen] using h9
    · next hm =>
      rw [if_neg hm] at h2 ⊢
      rw [if_neg hm]
      simp only at h1 h2 ⊢
      split at h1
      · exact absurd (start_of_sound (hbs _) (sound_append.1 h1.1).2) (by simp [isStart])
      · next hcl =>
        rw [if_neg hcl] at h2 ⊢
        rw [if_neg hcl]
        obtain ⟨x', h7, h8⟩ := ih hf.2.2.2 hg.2.2.2 h1.2 h2.2
        refine ⟨_, ?_, .after h1.1 h8⟩
        have h5 := seen_select (v := v) hR hbs hb hf.2.2.1 h1.1
        rw [seen_cons, seen_cons, seen_append, seen_append, seen_cons, seen_cons, seen_all, seen_all]
        exact hR.elem (hR.same _) h5 h7

theorem cut_once (hR : Piecewise R) {s : Selector} {direct : Bool} {b : Forest → Forest}
    (hbs : ∀ f, Sound (b f) → Sound f)
    (hb : ∀ f, Single f → f.WF → Sound (b f) → R (f.seen v) ((b f).seen v))
    (hc : ∀ x f g, Single f → Single g → f.WF → g.WF → Sound (b f) → Sound (b g) →
      Cut x f g → Begins v R x (b f) (b g))
    {x : List Event} {f g : Forest} (h : Cut x f g) : ∀ {level : Nat}, f.WF → g.WF →
    Sound (selectOnceTree s direct b level f).1 → Sound (selectOnceTree s direct b level g).1 →
    Begins v R x (selectOnceTree s direct b level f).1 (selectOnceTree s direct b level g).1 := by
  induction h with
  | zero => exact fun _ _ _ _ => ⟨[], hR.same _, .zero⟩
  | @leaf x e r r' h ih =>
    intro level hf hg h1 h2
    rw [selectOnceTree] at h1 h2 ⊢
    conv => rhs; rw [selectOnceTree]
    split at h1
    · next hm =>
      rw [if_pos hm] at h2 ⊢
      rw [if_pos hm]
      obtain ⟨h3, h4⟩ := sound_append.1 h1
      have hs := start_of_sound hbs h3
      have h5 := hb _ (single_single e) (single_wf hf.1 hf.2.1 hf.2.2.1) h3
      have h6 : (single e).seen v = v e := by rw [single, if_pos hs]; simp [Forest.seen]
      refine ⟨_, ?_, h.before h3⟩
      rw [seen_append, seen_all, seen_cons]
      exact hR.append (h6 ▸ h5) (hR.same _)
    · next hm =>
      rw [if_neg hm] at h2 ⊢
      rw [if_neg hm]
      obtain ⟨x', h7, h8⟩ := ih hf.2.2.2 hg.2.2.2 h1 h2
      exact ⟨e :: x', hR.append (hR.same _) h7, .leaf h8⟩
  | @inside x t as c c' k k' r r' h ih =>
    intro level hf hg h1 h2
    have shape : ∀ c k r, Sound (selectOnceTree s direct b level (.elem t as c k r)).1 →
        (inScope direct level && s.matches (.openingTag t as)) = false →
        ∃ r1, (selectOnceTree s direct b level (.elem t as c k r)).1 =
          .elem t as (selectOnceTree s direct b (level + 1) c).1 k r1 := by
      intro c k r hs hm
      rw [selectOnceTree, if_neg (by simp [hm])] at hs ⊢
      simp only at hs ⊢
      split
      · exact ⟨_, rfl⟩
      · next hn =>
        rw [if_neg hn] at hs
        split
        · next hcl =>
          rw [if_pos hcl] at hs
          exact absurd (start_of_sound hbs (sound_append.1 hs.1).2) (by simp [isStart])
        · exact ⟨_, rfl⟩
    cases hm : (inScope direct level && s.matches (.openingTag t as)) with
    | true =>
      rw [selectOnceTree, if_pos hm] at h1 h2 ⊢
      conv => rhs; rw [selectOnceTree, if_pos hm]
      obtain ⟨x', h7, h8⟩ := hc _ _ _ .elem .elem ⟨hf.1, hf.2.1, hf.2.2.1, trivial⟩
        ⟨hg.1, hg.2.1, hg.2.2.1, trivial⟩ (sound_append.1 h1).1 (sound_append.1 h2).1
        (Cut.inside (t := t) (as := as) (k := k) (k' := k') (r := .nil) (r' := .nil) h)
      exact ⟨x', h7, h8.append _ _⟩
    | false =>
      obtain ⟨r1, e1⟩ := shape c k r h1 hm
      obtain ⟨r2, e2⟩ := shape c' k' r' h2 hm
      rw [e1] at h1 ⊢
      rw [e2] at h2 ⊢
      obtain ⟨x', h7, h8⟩ := ih hf.2.2.1 hg.2.2.1 h1.1 h2.1
      exact ⟨_, hR.append (hR.same _) h7, .inside h8⟩
  | @after x t as c k r r' hsc h ih =>
    intro level hf hg h1 h2
    rw [selectOnceTree] at h1 h2 ⊢
    conv => rhs; rw [selectOnceTree]
    split at h1
    · next hm =>
      rw [if_pos hm] at h2 ⊢
      rw [if_pos hm]
      obtain ⟨h3, h4⟩ := sound_append.1 h1
      have h5 := hb _ .elem ⟨hf.1, hf.2.1, hf.2.2.1, trivial⟩ h3
      refine ⟨_, ?_, h.before h3⟩
      have h9 := hR.append h5 (hR.same (Spec.seen v x))
      rw [seen_append, seen_all, seen_cons, seen_append, seen_cons, seen_all]
      simpa [Forest.seen] using h9
    · next hm =>
      rw [if_neg hm] at h2 ⊢
      rw [if_neg hm]
      simp only at h1 h2 ⊢
      split at h1
      · next hn =>
        rw [if_pos hn] at h2 ⊢
        rw [if_pos hn]
        refine ⟨_, ?_, .after h1.1 h⟩
        have h5 := seen_once (v := v) hR hbs hb hf.2.2.1 h1.1
        rw [seen_cons, seen_cons, seen_append, seen_append, seen_cons, seen_all, seen_all]
        exact hR.elem (hR.same _) h5 (hR.same _)
      · next hn =>
        rw [if_neg hn] at h2 ⊢
        rw [if_neg hn]
        split at h1
        · exact absurd (start_of_sound hbs (sound_append.1 h1.1).2) (by simp [isStart])
        · next hcl =>
          rw [if_neg hcl] at h2 ⊢
          rw [if_neg hcl]
          obtain ⟨x', h7, h8⟩ := ih hf.2.2.2 hg.2.2.2 h1.2 h2.2
          refine ⟨_, ?_, .after h1.1 h8⟩
          have h5 := seen_once (v := v) hR hbs hb hf.2.2.1 h1.1
          rw [seen_cons, seen_cons, seen_append, seen_append, seen_cons, seen_cons, seen_all,
            seen_all]
          exact hR.elem (hR.same _) h5 h7

theorem cut_nil {x : List Event} {g : Forest} (h : Cut x .nil g) : x = [] := by
  cases h; rfl

/-- What a chain makes of pages that begin alike begins alike. -/
theorem cut_meaning (hv : OneOrTwo v R) (hR : Piecewise R) {a k' : Kind} (p : Prog a k')
    (hp : WellNested p) (hg : KeepsTo v R p) (hn : NoFunctions p) {x : List Event} {f g : Forest}
    (hs : Shape a f) (hs' : Shape a g) (hf : f.WF) (hf' : g.WF) (h : Sound (meaning p f))
    (h' : Sound (meaning p g)) (hc : Cut x f g) : Begins v R x (meaning p f) (meaning p g) := by
  induction p generalizing f g x with
  | src => exact ⟨x, hR.same _, hc⟩
  | forget p ih => exact ih hp hg hn hs hs' hf hf' h h' hc
  | apply p q ih1 ih2 =>
    obtain ⟨h3, h4⟩ := meaning_ok p hp.1 f hs hf
    obtain ⟨h5, h6⟩ := meaning_ok p hp.1 g hs' hf'
    obtain ⟨y, r1, c1⟩ := ih1 hp.1 hg.1 hn.1 hs hs' hf hf' (sound_meaning q h) (sound_meaning q h') hc
    obtain ⟨z, r2, c2⟩ := ih2 hp.2 hg.2 hn.2 h3 h5 h4 h6 h h' c1
    exact ⟨z, hR.trans r1 r2, c2⟩
  | fallOk p ih => exact ih hp hg hn hs hs' hf hf' h h' hc
  | fallErr e => exact h.elim
  | selectRaw p s direct b ih ihb =>
    obtain ⟨h3, h4⟩ := meaning_ok p hp.1 f hs hf
    obtain ⟨h5, h6⟩ := meaning_ok p hp.1 g hs' hf'
    have hbs : ∀ i f, Sound (meaning (b i) f) → Sound f := fun i f h => sound_meaning (b i) h
    obtain ⟨y, r1, c1⟩ := ih hp.1 hg.1 hn.1 hs hs' hf hf' (sound_select hbs h) (sound_select hbs h') hc
    obtain ⟨z, r2, c2⟩ := cut_select hR hbs
      (fun i g hs' hwf h => seen_meaning hv hR (b i) (hp.2 i) (hg.2 i) hs' hwf h)
      (fun i x f g s1 s2 w1 w2 d1 d2 c => ihb i (hp.2 i) (hg.2 i) (hn.2 i) s1 s2 w1 w2 d1 d2 c)
      c1 h4 h6 h h'
    exact ⟨z, hR.trans r1 r2, c2⟩
  | selectOnceRaw p s direct b ih ihb =>
    obtain ⟨h3, h4⟩ := meaning_ok p hp.1 f hs hf
    obtain ⟨h5, h6⟩ := meaning_ok p hp.1 g hs' hf'
    have hbs : ∀ f, Sound (meaning b f) → Sound f := fun f h => sound_meaning b h
    obtain ⟨y, r1, c1⟩ := ih hp.1 hg.1 hn.1 hs hs' hf hf' (sound_once hbs h) (sound_once hbs h') hc
    obtain ⟨z, r2, c2⟩ := cut_once hR hbs
      (fun g hs' hwf h => seen_meaning hv hR b hp.2 hg.2 hs' hwf h)
      (fun x f g s1 s2 w1 w2 d1 d2 c => ihb hp.2 hg.2 hn.2 s1 s2 w1 w2 d1 d2 c)
      c1 h4 h6 h h'
    exact ⟨z, hR.trans r1 r2, c2⟩
  | remove p ih => exact ⟨[], hg _, .zero⟩
  | prepend p c ih =>
    obtain ⟨h3, h4⟩ := sound_append.1 h
    obtain ⟨y, r1, c1⟩ := ih hp.1 hg.1 hn hs hs' hf hf' h4 (sound_append.1 h').2 hc
    refine ⟨_, ?_, c1.before h3⟩
    rw [seen_append, seen_all]
    exact hR.append (x := []) (seen_content hp.2 hg.2 h3) r1
  | append p c ih =>
    obtain ⟨y, r1, c1⟩ := ih hp.1 hg.1 hn hs hs' hf hf' (sound_append.1 h).1 (sound_append.1 h').1 hc
    exact ⟨y, r1, c1.append _ _⟩
  | «repeat» p n b ih ihb =>
    obtain ⟨h1, h2, hN⟩ := hg
    obtain ⟨h3, h4⟩ := meaning_ok p hp.1 f hs hf
    obtain ⟨h5, h6⟩ := meaning_ok p hp.1 g hs' hf'
    have hsd := sound_meaning (.repeat .src n b) (f := meaning p f) h
    have hsd' := sound_meaning (.repeat .src n b) (f := meaning p g) h'
    obtain ⟨y, r1, c1⟩ := ih hp.1 h1 hn.1 hs hs' hf hf' hsd hsd' hc
    obtain ⟨es, he⟩ := sound_iff.1 hsd
    obtain ⟨es', he'⟩ := sound_iff.1 hsd'
    rw [meaning, repeated, he] at h ⊢
    rw [meaning, repeated, he'] at h'
    conv => rhs; rw [meaning, repeated, he']
    cases n with
    | zero => exact ⟨[], hN _ [] rfl (by simp), .zero⟩
    | succ n =>
      obtain ⟨z, r2, c2⟩ := ihb 0 (hp.2 0) (h2 0) (hn.2 0) h3 h5 h4 h6 (sound_append.1 h).1
        (sound_append.1 h').1 c1
      exact ⟨z, hR.trans r1 r2, c2.append _ _⟩
  | orElse p n r q ih ihr ihq =>
    obtain ⟨h3, h4⟩ := meaning_ok p hp.1 f hs hf
    obtain ⟨h5, h6⟩ := meaning_ok p hp.1 g hs' hf'
    simp only [meaning] at h h' ⊢
    split
    · next hn0 =>
      rw [if_pos hn0] at h h'
      obtain ⟨y, r1, c1⟩ := ih hp.1 hg.1 hn.1 hs hs' hf hf' (sound_meaning r h) (sound_meaning r h') hc
      obtain ⟨z, r2, c2⟩ := ihr hp.2.1 hg.2.1 hn.2.1 h3 h5 h4 h6 h h' c1
      exact ⟨z, hR.trans r1 r2, c2⟩
    · next hn0 =>
      rw [if_neg hn0] at h h'
      obtain ⟨y, r1, c1⟩ := ih hp.1 hg.1 hn.1 hs hs' hf hf' (sound_meaning q h) (sound_meaning q h') hc
      obtain ⟨z, r2, c2⟩ := ihq hp.2.2 hg.2.2 hn.2.2 h3 h5 h4 h6 h h' c1
      exact ⟨z, hR.trans r1 r2, c2⟩
  | applyTemplate p q ih => exact hn.elim
  | contents p b ih ihb =>
    obtain ⟨h3, h4⟩ := meaning_ok p hp.1 f hs hf
    obtain ⟨h5, h6⟩ := meaning_ok p hp.1 g hs' hf'
    have hsd := sound_meaning (.contents .src b) (f := meaning p f) h
    have hsd' := sound_meaning (.contents .src b) (f := meaning p g) h'
    obtain ⟨y, r1, c1⟩ := ih hp.1 hg.1 hn.1 hs hs' hf hf' hsd hsd' hc
    suffices hgoal : Begins v R y (meaning (.contents p b) f) (meaning (.contents p b) g) by
      obtain ⟨z, r2, c2⟩ := hgoal
      exact ⟨z, hR.trans r1 r2, c2⟩
    simp only [meaning] at h h' ⊢
    generalize meaning p f = F at h h3 h4 hsd c1
    generalize meaning p g = G at h' h5 h6 hsd' c1
    clear r1 hc
    cases c1 with
    | zero => exact ⟨[], hR.same _, .zero⟩
    | @leaf y e r r' c2 =>
      cases h3 with
      | @leaf e hst =>
        cases h5 with
        | @leaf e hst' =>
          have := cut_nil c2
          subst this
          cases e with
          | selfClosedTag t as =>
            refine ⟨_, ?_, .full h⟩
            have h7 := seen_meaning hv hR b hp.2 hg.2 (f := .nil) trivial trivial h.1
            have h8 := hR.elem (v := v) (t := t) (c := t) (hR.same (v (.openingTag t as))) h7
              (hR.same [])
            rw [seen_all]
            simp only [onChildren, Spec.seen, Forest.seen, List.nil_append, List.append_nil,
              List.flatMap_cons, List.flatMap_nil] at h8 ⊢
            exact hR.trans (hv t as) h8
          | _ => exact ⟨_, hR.same _, .leaf .zero⟩
    | @inside y t as c c' k k' r r' c2 =>
      obtain ⟨z, r2, c3⟩ := ihb hp.2 hg.2 hn.2 (f := c) (g := c') trivial trivial h4.2.2.1 h6.2.2.1
        h.1 h'.1 c2
      exact ⟨_, hR.append (hR.same _) r2, .inside c3⟩
    | @after y t as c k r r' hsc c2 =>
      refine ⟨_, ?_, .after h.1 c2⟩
      rw [seen_cons, seen_cons, seen_append, seen_append, seen_cons, seen_all, seen_all]
      exact hR.elem (hR.same _)
        (seen_meaning hv hR b hp.2 hg.2 (f := c) trivial h4.2.2.1 h.1) (hR.same _)
  | attr p op ih =>
    have hsd := sound_meaning (.attr .src op) (f := meaning p f) h
    have hsd' := sound_meaning (.attr .src op) (f := meaning p g) h'
    obtain ⟨y, r1, c1⟩ := ih hp hg.1 hn hs hs' hf hf' hsd hsd' hc
    suffices hgoal : Begins v R y (meaning (.attr p op) f) (meaning (.attr p op) g) by
      obtain ⟨z, r2, c2⟩ := hgoal
      exact ⟨z, hR.trans r1 r2, c2⟩
    have h2 := hg.2
    simp only [meaning] at h h' ⊢
    generalize meaning p f = F at h hsd c1
    generalize meaning p g = G at h' hsd' c1
    clear r1 hc
    cases c1 with
    | zero => exact ⟨[], hR.same _, .zero⟩
    | @leaf y e r r' c2 =>
      cases e <;> first
        | exact ⟨_, hR.append (hR.same _) (hR.same _), .leaf c2⟩
        | exact ⟨_, hR.append (h2 _ rfl) (hR.same _), .leaf c2⟩
    | @inside y t as c c' k k' r r' c2 =>
      exact ⟨_, hR.append (h2 (.openingTag t as) rfl) (hR.same _), .inside c2⟩
    | @after y t as c k r r' hsc c2 =>
      exact ⟨_, hR.append (h2 (.openingTag t as) rfl) (hR.same _), .after hsc c2⟩

/-- The list is empty or begins with a closing tag. -/
def Closed : List Event → Prop
  | .closingTag _ :: _ => True
  | [] => True
  | _ => False

theorem cut_or_same {f : Forest} : ∀ {g : Forest} {x u u' : List Event}, f.WF → g.WF → Sound f →
    Sound g → Closed u → Closed u' → x <+: f.all ++ u → x <+: g.all ++ u' →
    Cut x f g ∨ f = g ∧ ∃ x2, x = f.all ++ x2 ∧ x2 <+: u ∧ x2 <+: u' := by
  induction f with
  | nil =>
    intro g x u u' _ hg _ hs' hu _ h h'
    cases x with
    | nil => exact .inl .zero
    | cons e x =>
      have h0 : e :: x <+: u := h
      cases u with
      | nil => simp at h0
      | cons e' u =>
        obtain ⟨rfl, _⟩ := List.cons_prefix_cons.1 h0
        cases g with
        | nil => exact .inr ⟨rfl, _, rfl, h, h'⟩
        | fail e => exact hs'.elim
        | leaf e1 r =>
          obtain ⟨rfl, _⟩ := List.cons_prefix_cons.1 h'
          have := hg.1
          cases e <;> first | exact hu.elim | exact this.elim
        | elem t as c k r =>
          obtain ⟨rfl, _⟩ := List.cons_prefix_cons.1 h'
          exact hu.elim
  | fail e => exact fun _ _ h => h.elim
  | leaf e r ih =>
    intro g x u u' hf hg hs hs' hu hu' h h'
    cases x with
    | nil => exact .inl .zero
    | cons e' x =>
      obtain ⟨rfl, h1⟩ := List.cons_prefix_cons.1 h
      cases g with
      | nil =>
        have h0 : e' :: x <+: u' := h'
        cases u' with
        | nil => simp at h0
        | cons e1 u' =>
          obtain ⟨rfl, _⟩ := List.cons_prefix_cons.1 h0
          have := hf.1
          cases e' <;> first | exact hu'.elim | exact this.elim
      | fail e => exact hs'.elim
      | leaf e1 r' =>
        obtain ⟨rfl, h2⟩ := List.cons_prefix_cons.1 h'
        rcases ih hf.2.2.2 hg.2.2.2 hs hs' hu hu' h1 h2 with h3 | ⟨rfl, x2, rfl, h3⟩
        · exact .inl (.leaf h3)
        · exact .inr ⟨rfl, x2, rfl, h3⟩
      | elem t as c k r' =>
        obtain ⟨rfl, h2⟩ := List.cons_prefix_cons.1 h'
        exact hf.1.elim
  | elem t as c k r ih1 ih2 =>
    intro g x u u' hf hg hs hs' hu hu' h h'
    cases x with
    | nil => exact .inl .zero
    | cons e' x =>
      obtain ⟨rfl, h1⟩ := List.cons_prefix_cons.1 h
      cases g with
      | nil =>
        have h0 : _ :: x <+: u' := h'
        cases u' with
        | nil => simp at h0
        | cons e1 u' =>
          obtain ⟨rfl, _⟩ := List.cons_prefix_cons.1 h0
          exact hu'.elim
      | fail e => exact hs'.elim
      | leaf e1 r' =>
        obtain ⟨rfl, h2⟩ := List.cons_prefix_cons.1 h'
        exact hg.1.elim
      | elem t' as' c' k' r' =>
        obtain ⟨he, h2⟩ := List.cons_prefix_cons.1 h'
        cases he
        have h3 : x <+: c.all ++ (.closingTag k :: (r.all ++ u)) := by
          simpa [Forest.all] using h1
        have h4 : x <+: c'.all ++ (.closingTag k' :: (r'.all ++ u')) := by
          simpa [Forest.all] using h2
        rcases ih1 hf.2.2.1 hg.2.2.1 hs.1 hs'.1 (by trivial) (by trivial) h3 h4 with
          h5 | ⟨rfl, x2, rfl, h5, h6⟩
        · exact .inl (.inside h5)
        · cases x2 with
          | nil => rw [List.append_nil]; exact .inl (.inside (.full hs.1))
          | cons e2 x2 =>
            obtain ⟨rfl, h7⟩ := List.cons_prefix_cons.1 h5
            obtain ⟨he, h8⟩ := List.cons_prefix_cons.1 h6
            cases he
            rcases ih2 hf.2.2.2 hg.2.2.2 hs.2 hs'.2 hu hu' h7 h8 with h9 | ⟨rfl, x3, rfl, h9⟩
            · exact .inl (.after hs.1 h9)
            · refine .inr ⟨rfl, x3, ?_, h9⟩
              simp [Forest.all, Forest.seen]

/-- Forests whose events begin alike. -/
theorem cut_of_events {f g : Forest} {x y z : List Event} (hf : f.WF) (hg : g.WF)
    (h : f.events = .ok (x ++ y)) (h' : g.events = .ok (x ++ z)) : Cut x f g := by
  have hs := sound_iff.2 ⟨_, h⟩
  rcases cut_or_same (u := []) (u' := []) hf hg hs (sound_iff.2 ⟨_, h'⟩) trivial trivial
    (by rw [List.append_nil, all_events h]; exact List.prefix_append _ _)
    (by rw [List.append_nil, all_events h']; exact List.prefix_append _ _) with
    h1 | ⟨rfl, x2, rfl, h1, _⟩
  · exact h1
  · rw [List.prefix_nil.1 h1, List.append_nil]
    exact .full hs

end Fuser
