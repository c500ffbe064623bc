import Verif.Proof.Ahead
import Verif.Props.Order

/-!
# Properties of pages that begin alike
-/

namespace Fuser

open Spec

/-- C103, in general. If two pages begin with the same events, and each call alone keeps to a comparison
of what is seen of the events, then both results begin with the same events, and these keep to the
comparison with the common beginning of the pages. -/
theorem C103_keeps_to {α : Type} {v : Event → List α} {R : List α → List α → Prop}
    (hv : OneOrTwo v R) (hR : Piecewise R) {k : Kind} (x y z : List Event) (t' u' : Template)
    (p : Prog .gen k) (ht : Page (x ++ y)) (hu : Page (x ++ z)) (hp : WellNested p)
    (hk : KeepsTo v R p) (hn : NoFunctions p) (h : (Template.mk (x ++ y)).transform p = some (.ok t'))
    (h' : (Template.mk (x ++ z)).transform p = some (.ok u')) :
    ∃ x', R (seen v x) (seen v x') ∧ x' <+: t'.events ∧ x' <+: u'.events := by
  rw [transform_eq p hp _ ht] at h
  rw [transform_eq p hp _ hu] at h'
  cases hr : (meaning p (treeOf (x ++ y))).events with
  | error e => rw [hr] at h; cases h
  | ok es =>
    rw [hr] at h
    cases h
    cases hr' : (meaning p (treeOf (x ++ z))).events with
    | error e => rw [hr'] at h'; cases h'
    | ok es' =>
      rw [hr'] at h'
      cases h'
      obtain ⟨x', h1, h2⟩ := cut_meaning hv hR p hp hk hn (f := treeOf (x ++ y))
        (g := treeOf (x ++ z)) trivial trivial (treeOf_spec ht).1 (treeOf_spec hu).1
        (sound_iff.2 ⟨es, hr⟩) (sound_iff.2 ⟨es', hr'⟩)
        (cut_of_events (treeOf_spec ht).1 (treeOf_spec hu).1 (treeOf_events ht) (treeOf_events hu))
      have h3 := h2.prefixes
      rw [all_events hr, all_events hr'] at h3
      exact ⟨x', h1, h3⟩

/-- C103. No call looks ahead: what calls that remove nothing make of the beginning of a page does not
depend on how the page goes on. Where two pages begin with the same events, both results begin with the
same events, and all tags, texts, comments and doctypes of the common beginning are among them, in their
order. -/
theorem C103_no_look_ahead {k : Kind} (x y z : List Event) (t' u' : Template) (p : Prog .gen k)
    (ht : Page (x ++ y)) (hu : Page (x ++ z)) (hp : WellNested p) (hi : OnlyInserts p)
    (hn : NoFunctions p) (h : (Template.mk (x ++ y)).transform p = some (.ok t'))
    (h' : (Template.mk (x ++ z)).transform p = some (.ok u')) :
    ∃ x', (bare x).Sublist (bare x') ∧ x' <+: t'.events ∧ x' <+: u'.events :=
  C103_keeps_to (opens_tags _ piecewise_sublist) piecewise_sublist x y z t' u' p ht hu hp
    (keepsTo_inserts hi) hn h h'

theorem noFunctions_about {n : Str} {a k : Kind} {p : Prog a k} (h : OnlyAbout n p) :
    NoFunctions p := by
  induction p with
  | src => trivial
  | forget p ih => exact ih h
  | apply p q ih1 ih2 => exact ⟨ih1 h.1, ih2 h.2⟩
  | fallOk p ih => exact ih h
  | fallErr e => trivial
  | selectRaw p s direct b ih ihb => exact ⟨ih h.1, fun i => ihb i (h.2 i)⟩
  | selectOnceRaw p s direct b ih ihb => exact ⟨ih h.1, ihb h.2⟩
  | orElse p n r q ih ihr ihq => exact ⟨ih h.1, ihr h.2.1, ihq h.2.2⟩
  | contents p b ih ihb => exact ⟨ih h.1, ihb h.2⟩
  | attr p op ih => exact ih h.1
  | _ => exact h.elim

/-- C103, for calls about one attribute: both results begin with exactly the events of the common
beginning, but for attributes of that name, which are the same in both. -/
theorem C103_attributes (n : Str) {k : Kind} (x y z : List Event) (t' u' : Template)
    (p : Prog .gen k) (ht : Page (x ++ y)) (hu : Page (x ++ z)) (hp : WellNested p)
    (ha : OnlyAbout n p) (h : (Template.mk (x ++ y)).transform p = some (.ok t'))
    (h' : (Template.mk (x ++ z)).transform p = some (.ok u')) :
    ∃ x', seen (tags (notOfName n)) x' = seen (tags (notOfName n)) x ∧
      x' <+: t'.events ∧ x' <+: u'.events := by
  obtain ⟨x', h1, h2⟩ := C103_keeps_to (opens_tags _ piecewise_eq) piecewise_eq x y z t' u' p ht hu hp
    (keepsTo_about ha) (noFunctions_about ha) h h'
  exact ⟨x', h1.symm, h2⟩

/-! ## Cases -/

/-- An item is the first of the page, and a text ends the first list. -/
def firsts : Prog .gen .gen :=
  Prog.selectOnce (Prog.selectOnce .src (.ok (.tag li))
    (Prog.prependContents (Prog.addClass .src (.ok ⟨.static ['x']⟩)) (text "y")))
    (.ok (.tag ul)) (Prog.appendContents .src (text "z"))

example : OnlyInserts firsts := ⟨⟨trivial, trivial, trivial⟩, trivial, trivial⟩

example : NoFunctions firsts := ⟨⟨trivial, trivial, trivial⟩, trivial, trivial⟩

theorem firsts_nested : WellNested firsts :=
  ⟨⟨trivial, trivial, trivial, text_page _⟩, trivial, trivial, text_page _⟩

example : ∃ t t', Template.fromStr "<ul><li>1</li><li>2</li></ul>".toList {} = .ok (.ok t) ∧
    t.transform firsts = some (.ok t') ∧
    t'.render = "<ul><li class=\"x\">y1</li><li>2</li>z</ul>".toList :=
  have h : Template.fromStr "<ul><li>1</li><li>2</li></ul>".toList {} = .ok (.ok _) := rfl
  ⟨_, _, h, (C37_transform_parsed _ _ _ firsts h firsts_nested).trans rfl, rfl⟩

example : ∃ t t', Template.fromStr "<ul><li>1</li>a</ul><ul/>".toList {} = .ok (.ok t) ∧
    t.transform firsts = some (.ok t') ∧
    t'.render = "<ul><li class=\"x\">y1</li>az</ul><ul />".toList :=
  have h : Template.fromStr "<ul><li>1</li>a</ul><ul/>".toList {} = .ok (.ok _) := rfl
  ⟨_, _, h, (C37_transform_parsed _ _ _ firsts h firsts_nested).trans rfl, rfl⟩

/-- A function on templates can look ahead: this one puts a text before pages of one event only. -/
def peeks : Prog .gen .gen :=
  .applyTemplate .src fun t => match t.events with
    | [e] => .ok ⟨[.rawData (.static ['y']), e]⟩
    | es => .ok ⟨es⟩

example : ∃ t u t' u', Template.fromStr "<li/>".toList {} = .ok (.ok t) ∧
    Template.fromStr "<li/><li/>".toList {} = .ok (.ok u) ∧
    t.transform peeks = some (.ok t') ∧ u.transform peeks = some (.ok u') ∧
    t'.render = "y<li />".toList ∧ u'.render = "<li /><li />".toList := by
  have hw : WellNested peeks := by
    refine ⟨trivial, fun t t' ht h => ?_⟩
    simp only at h
    split at h
    · next e he =>
      cases h
      rw [he] at ht
      obtain ⟨⟨n, h1⟩, h2, h3⟩ := ht
      refine ⟨⟨n, .leaf trivial h1⟩, ?_, by simpa using h3⟩
      intro e' he'
      rcases List.mem_cons.1 he' with rfl | he'
      · intro t h; cases h
      · exact h2 e' he'
    · cases h; exact ht
  have h : Template.fromStr "<li/>".toList {} = .ok (.ok _) := rfl
  have h' : Template.fromStr "<li/><li/>".toList {} = .ok (.ok _) := rfl
  exact ⟨_, _, _, _, h, h', (C37_transform_parsed _ _ _ peeks h hw).trans rfl,
    (C37_transform_parsed _ _ _ peeks h' hw).trans rfl, rfl, rfl⟩

end Fuser
