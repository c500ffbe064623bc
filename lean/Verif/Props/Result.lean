import Verif.Props.Inject
import Verif.Proof.Depth
import Verif.Proof.Result

/-!
# Properties C74 to C76: results of transforms
-/

namespace Fuser

open Spec

/-! ## Depth -/

/-- C74. A transform makes a page at most as much deeper as its contents and calls on contents of
elements allow. -/
theorem C74_depth {k' : Kind} (t t' : Template) (p : Prog .gen k') (n k : Nat) (ht : Page t.events)
    (hp : WellNested p) (hk : Deepens k p) (hn : Nests n t.events)
    (h : t.transform p = some (.ok t')) : Nests (n + k) t'.events := by
  rw [transform_eq p hp t ht] at h
  have hw := treeOf_spec ht
  cases hr : (meaning p (treeOf t.events)).events with
  | error e => rw [hr] at h; cases h
  | ok es =>
    rw [hr] at h
    cases h
    exact (within_nests (meaning_ok p hp _ trivial hw.1).2 hr).1
      (within_meaning p hp hk trivial hw.1 ((within_nests hw.1 (treeOf_events ht)).2 hn)
        (sound_iff.2 ⟨es, hr⟩))

/-- C74, the bound is reached: opening a self-closed element takes one level, contents take theirs. -/
theorem C74_tight : ∃ t t' : Template, Page t.events ∧ Nests 0 t.events ∧
    Deepens 2 (Prog.select .src (.ok (.tag li)) fun _ =>
      Prog.appendContents .src (.template ⟨sampleElement⟩) : Prog .gen .gen) ∧
    t.transform (Prog.select .src (.ok (.tag li)) fun _ =>
      Prog.appendContents .src (.template ⟨sampleElement⟩)) = some (.ok t') ∧
    Nests 2 t'.events ∧ ¬ Nests 1 t'.events := by
  have h : Template.fromStr "<li/>".toList {} = .ok (.ok ⟨[.selfClosedTag li []]⟩) := rfl
  have hpc : PageContent (.template ⟨sampleElement⟩) := page_nested sampleElement_page
  have hw : WellNested (Prog.select .src (.ok (.tag li)) fun _ =>
      Prog.appendContents .src (.template ⟨sampleElement⟩) : Prog .gen .gen) :=
    by exact ⟨trivial, fun _ => ⟨trivial, trivial, hpc⟩⟩
  have hd : Deepens 2 (Prog.select .src (.ok (.tag li)) fun _ =>
      Prog.appendContents .src (.template ⟨sampleElement⟩) : Prog .gen .gen) := by
    refine ⟨0, 2, by omega, trivial, fun _ => ⟨0, 1, by omega, trivial, trivial, ?_⟩⟩
    intro es he
    have : es = sampleElement := by
      have h' : outcome (results (.template ⟨sampleElement⟩)) = .ok sampleElement := rfl
      rw [h'] at he
      cases he
      rfl
    subst this
    exact .element (inner := [_]) (sameName_refl _) (.leaf trivial .nil) .nil
  have hr : Template.transform ⟨[.selfClosedTag li []]⟩ (Prog.select .src (.ok (.tag li)) fun _ =>
      Prog.appendContents .src (.template ⟨sampleElement⟩)) = some (.ok ⟨[.openingTag li [],
        .openingTag li [], .data (.actual ['x']), .closingTag li, .closingTag li]⟩) := by
    rw [C37_transform_parsed _ _ _ _ h hw]
    rfl
  have hpg : Page [.selfClosedTag li []] := parsed_page h
  have h0 : Nests 0 [.selfClosedTag li []] := .leaf trivial .nil
  refine ⟨⟨[.selfClosedTag li []]⟩, _, hpg, h0, hd, hr, C74_depth _ _ _ 0 2 hpg hw hd h0 hr, ?_⟩
  intro h1
  have hpg' := C38_transform_nested _ _ _ hpg hw hr
  have hw' := (within_nests (treeOf_spec hpg').1 (treeOf_events hpg')).2 h1
  exact absurd hw'.2.1.1 (by omega)

/-- C74 with C72: what the depth limit of the parser must be to read the result. -/
theorem C74_reparse {k' : Kind} (x : Str) (o : Options) (t t' : Template) (p : Prog .gen k') (k n : Nat)
    (ht : Template.fromStr x o = .ok (.ok t)) (ho : o.maxStackDepth = some n)
    (hr : ∀ e ∈ t.events, ∀ n, startName e = some n → ¬ RawName n.str ∧ n.str.head? ≠ some '!')
    (hp : WellNested p) (hk : PlainCalls p) (hd : Deepens k p)
    (h : t.transform p = some (.ok t')) :
    Template.fromStr t'.render ⟨some (n + k), none⟩ = .ok (.ok ⟨joined t'.events⟩) := by
  refine (C72_no_injection x o t t' p ht hr hp hk h).2 _ (by simp [Fits]) ?_
  rintro _ ⟨⟩
  refine C74_depth t t' p n k (parsed_page ht) hp hd ?_ h
  rw [fromStr_ok, parseEvents_ok] at ht
  obtain ⟨-, d, -, he, -, hop⟩ := ht
  rw [he]
  exact (opens_iff.1 hop).2 n ho

/-! ## What a selection establishes -/

/-- C75. A property of events that the events the selector does not match have, and that the builder
gives to every event of its results, holds in the whole result of a selection. -/
theorem C75_established {k' : Kind} (P : Event → Prop) (t t' : Template) (ht : Page t.events)
    (s : Selector) (hs : OnlyStarts s) (b : Nat → Prog .elem k') (hw : ∀ i, WellNested (b i))
    (hP : ∀ e ∈ t.events, s.matches e = false → P e)
    (hb : ∀ i m r, Element m → (∀ e ∈ m.head?, s.matches e = true) →
      run (b i) m = some (.ok r) → ∀ e ∈ r, P e)
    (h : t.transform (Prog.select .src (.ok s) b) = some (.ok t')) : ∀ e ∈ t'.events, P e := by
  obtain ⟨⟨r, hr⟩, heq⟩ := C42_select t ht s hs b hw
  rw [heq r hr] at h
  cases r with
  | error x => cases h
  | ok rs =>
    cases h
    exact rewrites_all (b := fun i m => run (b i) m) hb hr hP rfl

/-- C75, removing: after `select` with `remove` no event of the result matches, nothing new is in
the result and the order is kept, and removing again changes nothing. -/
theorem C75_removed (t : Template) (ht : Page t.events) (s : Selector) (hs : OnlyStarts s) :
    ∃ t', t.transform (Prog.select .src (.ok s) fun _ => .remove .src) = some (.ok t') ∧
      (∀ e ∈ t'.events, s.matches e = false) ∧ t'.events.Sublist t.events ∧
      t'.transform (Prog.select .src (.ok s) fun _ => .remove .src) = some (.ok t') := by
  have hw : ∀ i : Nat, WellNested (.remove .src : Prog .elem .gen) := fun _ => trivial
  have hrun : ∀ m : List Event, ∃ r, run (.src : Prog .elem .elem) m = some (.ok r) := by
    intro m
    exact ⟨_, run_src m⟩
  have hrm : ∀ m : List Event, run (.remove .src : Prog .elem .gen) m = some (.ok []) := by
    intro m
    obtain ⟨r, hr⟩ := hrun m
    exact ((C46_prepend_append .src (text "") m _ hr).2.2.1).trans rfl
  obtain ⟨⟨r, hr⟩, heq⟩ := C42_select t ht s hs (fun _ => .remove .src) hw
  obtain ⟨rs, rfl, hsub⟩ := rewrites_sub (fun _ m _ => hrm m) hr
  have h := heq _ hr
  have hnone := C75_established (fun e => s.matches e = false) t ⟨rs⟩ ht s hs _ hw (fun _ _ h => h)
    (fun i m r _ _ hr => by rw [hrm] at hr; cases hr; simp) h
  have hpg := C38_transform_nested t ⟨rs⟩ _ ht (by exact ⟨trivial, hw⟩) h
  exact ⟨⟨rs⟩, h, hnone, hsub,
    (C41_no_match ⟨rs⟩ hpg.1 hpg.2.2 s hnone _ (.remove .src)).1⟩

example : ∃ t, Template.fromStr "<ul><li>a<li>b</li></li><br><li/></ul>".toList {} = .ok (.ok t) ∧
    shown (t.transform (Prog.select .src (.ok (.tag li)) fun _ => .remove .src)) =
      some "<ul><br></ul>".toList :=
  shown_parsed (by exact ⟨trivial, fun _ => trivial⟩) (by decide +kernel)

/-! ## Stability -/

/-- C76. After one round of rendering and parsing, a page that can be written does not change any
more: what was read renders to a text that is read as the same, and so does the result of every
transform of C72. -/
theorem C76_stable (es ms : List Event) (o : Options) (h : Normal es ms) (hb : Balanced es)
    (hn : ∀ n, o.maxStackDepth = some n → Nests n es) :
    Template.fromStr (Template.render ⟨es⟩) ⟨o.maxStackDepth, none⟩ = .ok (.ok ⟨ms⟩) ∧
    Template.fromStr (Template.render ⟨ms⟩) ⟨o.maxStackDepth, none⟩ = .ok (.ok ⟨ms⟩) := by
  have h1 := (C70_render_parse_normal es ms ⟨o.maxStackDepth, none⟩ h hb (by simp [Fits]) hn).1
  exact ⟨h1, (C20_round_trip_partial _ _ _ h1).2 (normal_confusing h)⟩

example : ∃ t, Template.fromStr (Template.render ⟨looseEvents⟩) {} = .ok (.ok t) ∧
    t.render = "<p class=\"x\">a&lt;</P><title>b<</title>".toList ∧
    Template.render ⟨looseEvents⟩ ≠ t.render ∧ Template.fromStr t.render {} = .ok (.ok t) :=
  ⟨_, rfl, rfl, by decide +kernel, rfl⟩

end Fuser
