import Verif.Proof.Order
import Verif.Props.Size

/-!
# Properties of what calls keep in its order
-/

namespace Fuser

open Spec

/-- C97, in general. If each call alone keeps to a comparison of what is seen of the events, so do all
calls together. -/
theorem C97_keeps_to {α : Type} {v : Event → List α} {R : List α → List α → Prop} (hv : OneOrTwo v R)
    (hR : Piecewise R) {k : Kind} (t t' : Template) (p : Prog .gen k) (ht : Page t.events)
    (hp : WellNested p) (hk : KeepsTo v R p) (h : t.transform p = some (.ok t')) :
    R (seen v t.events) (seen v t'.events) := by
  rw [transform_eq p hp t ht] at h
  cases hr : (meaning p (treeOf t.events)).events with
  | error e => rw [hr] at h; cases h
  | ok es =>
    rw [hr] at h
    cases h
    have := seen_meaning hv hR p hp hk (f := treeOf t.events) trivial (treeOf_spec ht).1
      (sound_iff.2 ⟨es, hr⟩)
    rwa [seen_events hr, seen_events (treeOf_events ht)] at this

/-- C97. Calls that remove nothing keep all tags, texts, comments and doctypes, in their order. -/
theorem C97_inserts {k : Kind} (t t' : Template) (p : Prog .gen k) (ht : Page t.events)
    (hp : WellNested p) (hi : OnlyInserts p) (h : t.transform p = some (.ok t')) :
    (bare t.events).Sublist (bare t'.events) :=
  C97_keeps_to (opens_tags _ piecewise_sublist) piecewise_sublist t t' p ht hp (keepsTo_inserts hi) h

/-- C98. Calls that insert nothing leave a part of the page, in its order. -/
theorem C98_removes {k : Kind} (t t' : Template) (p : Prog .gen k) (ht : Page t.events)
    (hp : WellNested p) (hi : OnlyRemoves p) (h : t.transform p = some (.ok t')) :
    (bare t'.events).Sublist (bare t.events) :=
  C97_keeps_to (opens_tags _ piecewise_superlist) piecewise_superlist t t' p ht hp (keepsTo_removes hi) h

/-- C99. Calls about one attribute change nothing but attributes of that name: all tags, texts,
comments and doctypes and all other attributes stay, in their order. -/
theorem C99_about (n : Str) {k : Kind} (t t' : Template) (p : Prog .gen k) (ht : Page t.events)
    (hp : WellNested p) (ha : OnlyAbout n p) (h : t.transform p = some (.ok t')) :
    seen (tags (notOfName n)) t'.events = seen (tags (notOfName n)) t.events :=
  (C97_keeps_to (opens_tags _ piecewise_eq) piecewise_eq t t' p ht hp (keepsTo_about ha) h).symm

/-! ## Cases -/

/-- A text in each item, and a text after two copies of the page. -/
def insertions : Prog .gen .gen :=
  Prog.append (Prog.repeat (Prog.select .src (.ok (.tag li)) fun _ =>
    Prog.appendContents (Prog.setId .src (.ok ⟨.static ['x']⟩)) (text "y")) 2 fun _ => .src) (text "z")

example : OnlyInserts insertions :=
  ⟨⟨trivial, fun _ => ⟨trivial, trivial⟩⟩, fun _ => trivial, by decide⟩

example : WellNested insertions :=
  ⟨⟨⟨trivial, fun _ => ⟨trivial, trivial, text_page _⟩⟩, fun _ => trivial⟩, text_page _⟩

example : ∃ t t', Template.fromStr "<li/><!--a--><li>1</li>".toList {} = .ok (.ok t) ∧
    t.transform insertions = some (.ok t') ∧
    t'.render = ("<li id=\"x\">y</li><!--a--><li id=\"x\">1y</li>" ++
      "<li id=\"x\">y</li><!--a--><li id=\"x\">1y</li>z").toList :=
  have h : Template.fromStr "<li/><!--a--><li>1</li>".toList {} = .ok (.ok _) := rfl
  ⟨_, _, h, (C37_transform_parsed _ _ _ insertions h
    (show WellNested insertions from
      ⟨⟨⟨trivial, fun _ => ⟨trivial, trivial, text_page _⟩⟩, fun _ => trivial⟩, text_page _⟩)).trans rfl,
    rfl⟩

/-- Items are removed, and contents and classes of what is left. -/
def removals : Prog .gen .gen :=
  Prog.select (Prog.select .src (.ok (.tag li)) fun _ => .remove .src) (.ok (.tag ul)) fun _ =>
    Prog.removeContents (Prog.removeClass .src (.ok ⟨.static ['x']⟩))

example : OnlyRemoves removals := ⟨⟨trivial, fun _ => trivial⟩, fun _ => ⟨trivial, trivial⟩⟩

example : ∃ t t', Template.fromStr "<li/>a<ul class=\"x z\">b<!--c--></ul>".toList {} = .ok (.ok t) ∧
    t.transform removals = some (.ok t') ∧ t'.render = "a<ul class=\"z\"></ul>".toList :=
  have h : Template.fromStr "<li/>a<ul class=\"x z\">b<!--c--></ul>".toList {} = .ok (.ok _) := rfl
  ⟨_, _, h, (C37_transform_parsed _ _ _ removals h
    (show WellNested removals from ⟨⟨trivial, fun _ => trivial⟩, fun _ => ⟨trivial, trivial⟩⟩)).trans
      rfl, rfl⟩

/-- Classes of items in lists. -/
def classes : Prog .gen .gen :=
  Prog.select .src (.ok (.tag ul)) fun _ => Prog.subselect (Prog.addClass .src (.ok ⟨.static ['x']⟩))
    (.ok (.tag li)) fun _ => Prog.removeAttribute .src (.ok ⟨.static "CLASS".toList⟩)

example : OnlyAbout "class".toList classes := by
  refine ⟨trivial, fun _ => ⟨⟨trivial, ?_, SameName.refl _⟩, trivial, fun _ => ⟨trivial, ?_, ?_⟩⟩⟩
  · exact (by decide : ValidIdent "class".toList)
  · exact (by decide : ValidIdent "CLASS".toList)
  · exact (by decide : SameName "CLASS".toList "class".toList)

example : ∃ t t', Template.fromStr "<ul id=\"a\"><li class=\"b\" id=\"c\">d</li></ul>".toList {} =
      .ok (.ok t) ∧
    t.transform classes = some (.ok t') ∧
    t'.render = "<ul id=\"a\" class=\"x\"><li id=\"c\">d</li></ul>".toList :=
  have h : Template.fromStr "<ul id=\"a\"><li class=\"b\" id=\"c\">d</li></ul>".toList {} =
    .ok (.ok _) := rfl
  ⟨_, _, h, (C37_transform_parsed _ _ _ classes h
    (show WellNested classes from ⟨trivial, fun _ => ⟨trivial, trivial, fun _ => trivial⟩⟩)).trans
      rfl, rfl⟩

end Fuser
