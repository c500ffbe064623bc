import Verif.Proof.Bytes
import Verif.Props.Parse
import Verif.Props.Show
import Verif.Props.Transform

/-!
# Properties of the size of templates
-/

namespace Fuser

open Spec

/-! ## Parsed texts -/

/-- C95. A parsed template has at most as many events as the text has bytes, and its own text is at
most a quarter longer than the text it was parsed from. So the limit for the length of the input
limits both. -/
theorem C95_parsed_size (s : Str) (o : Options) (t : Template)
    (h : Template.fromStr s o = .ok (.ok t)) :
    t.events.length ≤ bytes s ∧ 4 * bytes t.render ≤ 5 * bytes s ∧
    ∀ n, o.maxInputLen = some n → t.events.length ≤ n ∧ 4 * bytes t.render ≤ 5 * n := by
  obtain ⟨hl, d, rfl, h2, hr, -⟩ := (C58_accepted_iff s o t).1 h
  have h3 := reads_bytes hr
  have h4 : bytes t.render = weight (fun e => bytes (eventText e)) t.events := by
    rw [C87_template_text, bytes_flatten, List.map_map]
    rfl
  have h5 : t.events.length = d.length := by rw [← h2]; simp [Doc.events]
  rw [← h2] at h4
  refine ⟨by omega, by omega, fun n hn => ?_⟩
  have h6 : bytes d.text ≤ n := hl n hn
  omega

/-- C95, the bound is reached. -/
theorem C95_tight : ∃ t, Template.fromStr "<a/>".toList {} = .ok (.ok t) ∧
    4 * bytes t.render = 5 * bytes "<a/>".toList := ⟨_, rfl, by decide⟩

example : ∃ t, Template.fromStr "<a  b = \" 1\"c=\"\"d><script></script>é</a >".toList
      { maxInputLen := some 45 } = .ok (.ok t) ∧
    t.render = "<a b=\"1\" c=\"\" d><script></script>é</a>".toList := ⟨_, rfl, rfl⟩

/-! ## Transforms -/

/-- C96. A transform makes a page larger at most by what its calls allow, for every fair measure of
the size of events. -/
theorem C96_size {w : Event → Nat} (hw : Fair w) {k : Kind} (t t' : Template) (p : Prog .gen k)
    (m c : Nat) (ht : Page t.events) (hp : WellNested p) (hg : Grows w m c p)
    (h : t.transform p = some (.ok t')) : weight w t'.events ≤ m * weight w t.events + c := by
  rw [transform_eq p hp t ht] at h
  cases hr : (meaning p (treeOf t.events)).events with
  | error e => rw [hr] at h; cases h
  | ok es =>
    rw [hr] at h
    cases h
    have := size_meaning hw p hp hg (f := treeOf t.events) trivial (treeOf_spec ht).1
      (sound_iff.2 ⟨es, hr⟩)
    rwa [size_events hr, size_events (treeOf_events ht)] at this

/-- C96, for the number of events. -/
theorem C96_events {k : Kind} (t t' : Template) (p : Prog .gen k) (m c : Nat) (ht : Page t.events)
    (hp : WellNested p) (hg : Grows (fun _ => 1) m c p) (h : t.transform p = some (.ok t')) :
    t'.events.length ≤ m * t.events.length + c := by
  simpa [weight] using C96_size fair_count t t' p m c ht hp hg h

/-- C96, for the length of the text in bytes. -/
theorem C96_text {k : Kind} (t t' : Template) (p : Prog .gen k) (m c : Nat) (ht : Page t.events)
    (hp : WellNested p) (hg : Grows (fun e => bytes (eventText e)) m c p)
    (h : t.transform p = some (.ok t')) : bytes t'.render ≤ m * bytes t.render + c := by
  have := C96_size fair_bytes t t' p m c ht hp hg h
  rw [C87_template_text, C87_template_text, bytes_flatten, bytes_flatten, List.map_map, List.map_map]
  exact this

/-- C96, what changes of attributes add to the text of a tag. -/
theorem C96_attributes (op : AttrOp) (e : Event) :
    bytes (eventText (withAttributes op.apply e)) ≤ bytes (eventText e) + attributeCost op :=
  attribute_step_bytes op e

/-- C96 with C95: the length of the result in terms of the limit for the length of the input. -/
theorem C96_limit {k : Kind} (s : Str) (o : Options) (t t' : Template) (p : Prog .gen k)
    (m c n : Nat) (hn : o.maxInputLen = some n) (ht : Template.fromStr s o = .ok (.ok t))
    (hp : WellNested p) (hg : Grows (fun e => bytes (eventText e)) m c p)
    (h : t.transform p = some (.ok t')) : 4 * bytes t'.render ≤ 5 * (m * n) + 4 * c := by
  have h1 := C96_text t t' p m c (parsed_page ht) hp hg h
  have h2 := ((C95_parsed_size s o t ht).2.2 n hn).2
  have h3 : m * (4 * bytes t.render) ≤ m * (5 * n) := Nat.mul_le_mul_left _ h2
  rw [Nat.mul_left_comm, Nat.mul_left_comm m 5 n] at h3
  omega

/-- C96, the bound is reached: a text in each of some empty elements. -/
theorem C96_tight : ∃ t t' : Template, Page t.events ∧
    Grows (fun _ => 1) 3 0 (Prog.select .src (.ok (.tag li)) fun _ =>
      Prog.appendContents .src (text "y") : Prog .gen .gen) ∧
    t.transform (Prog.select .src (.ok (.tag li)) fun _ => Prog.appendContents .src (text "y")) =
      some (.ok t') ∧
    t.events.length = 2 ∧ t'.events.length = 3 * 2 := by
  have h : Template.fromStr "<li/><li/>".toList {} =
    .ok (.ok ⟨[.selfClosedTag li [], .selfClosedTag li []]⟩) := rfl
  have hw : WellNested (Prog.select .src (.ok (.tag li)) fun _ =>
      Prog.appendContents .src (text "y") : Prog .gen .gen) :=
    ⟨trivial, fun _ => ⟨trivial, trivial, text_page _⟩⟩
  refine ⟨_, _, parsed_page h, ?_, (C37_transform_parsed _ _ _ _ h hw).trans rfl, rfl, rfl⟩
  refine ⟨1, 0, 2, 1, 3, by omega, by omega, by omega, by omega, Nat.le_refl 1, fun _ => ?_⟩
  refine ⟨1, 0, 2, 1, by omega, by omega, by omega, Nat.le_refl 1, 0, 1, by omega, Nat.le_succ 1, ?_⟩
  intro es he
  cases he
  exact Nat.le_refl 1

/-- Setting an id of one letter on all items makes a page at most eight times as long. -/
example : Grows (fun e => bytes (eventText e)) 8 0 (Prog.select .src (.ok (.tag li)) fun _ =>
    Prog.setId .src (.ok ⟨.static ['x']⟩) : Prog .gen .gen) := by
  refine ⟨1, 0, 1, 7, 8, by omega, by omega, by omega, by omega, Nat.le_refl 1, fun _ => ?_⟩
  refine ⟨0, 7, by omega, Nat.le_refl 1, fun e _ => ?_⟩
  exact C96_attributes (.setId ⟨.static ['x']⟩) e

/-- Two copies of a page, and a text before them. -/
example : Grows (fun _ => 1) 2 1 (Prog.prepend (Prog.repeat .src 2 fun _ => .src) (text "y") :
    Prog .gen .gen) :=
  ⟨0, 1, by omega, ⟨1, 0, 1, 0, by omega, by omega, Nat.le_refl 1, fun _ => Nat.le_refl 1⟩,
    by intro es he; cases he; exact Nat.le_refl 1⟩

end Fuser
