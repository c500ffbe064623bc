import Verif.Proof.Hidden
import Verif.Props.Alike
import Verif.Props.Inject

/-!
# Properties of pages that differ in contents and values only
-/

namespace Fuser

open Spec

/-- C101. What texts, comments and values of attributes say decides nothing: if templates, contents
and attribute changes differ only in the words of texts and comments, and in the values of attributes
that are neither ids nor classes, then the results differ only there, or both fail with errors
alike. The selectors of the crate are fit for this. -/
theorem C101_outline {k : Kind} (t u : Template) (p q : Prog .gen k)
    (h : LikeTemplate .outline t u) (hc : LikeCalls .outline p q) :
    (∃ t' u', t.transform p = some (.ok t') ∧ u.transform q = some (.ok u') ∧
      LikeTemplate .outline t' u') ∨
    ∃ e f, t.transform p = some (.error e) ∧ u.transform q = some (.error f) ∧
      LikeError .outline e f := by
  obtain ⟨r, r', hr, hr', ho⟩ := C78_alike outline_proper t u p q h hc
  cases ho with
  | error h => exact .inr ⟨_, _, hr, hr', h⟩
  | ok h => exact .inl ⟨_, _, hr, hr', h⟩

/-- C101, the selectors of the crate only see what is not hidden. -/
theorem C101_selectors (s : Selector) (hs : ∀ f, s ≠ .custom f) : LikeSelector .outline s s :=
  C78_selectors outline_proper s hs

/-- C101 for the reader of the rendered pages: if both templates and all that is inserted is ordinary
(text without `<`, values without quotes), then without limits both pages are readable or none is,
and readers with any limits find the same markup, up to the words of comments and doctypes and the
hidden values. -/
theorem C101_reread {k : Kind} (t u t' u' : Template) (p q : Prog .gen k)
    (h : LikeTemplate .outline t u) (hc : LikeCalls .outline p q)
    (ht : ∀ e ∈ t.events, Plain e) (hu : ∀ e ∈ u.events, Plain e)
    (hp : PlainCalls p) (hq : PlainCalls q)
    (h1 : t.transform p = some (.ok t')) (h2 : u.transform q = some (.ok u')) :
    ((∃ r, Template.fromStr t'.render ⟨none, none⟩ = .ok (.ok r)) ↔
      ∃ s, Template.fromStr u'.render ⟨none, none⟩ = .ok (.ok s)) ∧
    ∀ o o' r s, Template.fromStr t'.render o = .ok (.ok r) →
      Template.fromStr u'.render o' = .ok (.ok s) →
      List.Forall₂ (LikeEvent .outline) (r.events.filter notText) (s.events.filter notText) := by
  have hl : LikeTemplate .outline t' u' := by
    rcases C101_outline t u p q h hc with ⟨a, b, ha, hb, hl⟩ | ⟨_, _, ha, -⟩
    · rw [h1] at ha
      rw [h2] at hb
      cases ha
      cases hb
      exact hl
    · rw [h1] at ha
      cases ha
  obtain ⟨p1, r1⟩ := C72_only_reading t t' p ht hp h1
  obtain ⟨p2, r2⟩ := C72_only_reading u u' q hu hq h2
  have hm := outline_markup hl
  rw [← (C70_joined _ p1).2.1, ← (C70_joined _ p2).2.1] at hm
  constructor
  · simp only [r1, r2]
    have hb : Balanced (joined t'.events) ↔ Balanced (joined u'.events) :=
      exists_congr fun _ => outline_nests hm
    constructor
    · rintro ⟨_, rfl, -, hx, -⟩
      exact ⟨_, rfl, (fun _ h => nomatch h), hb.1 hx, (fun _ h => nomatch h)⟩
    · rintro ⟨_, rfl, -, hx, -⟩
      exact ⟨_, rfl, (fun _ h => nomatch h), hb.2 hx, (fun _ h => nomatch h)⟩
  · intro o o' r s hr hs
    rw [r1] at hr
    rw [r2] at hs
    obtain ⟨rfl, -⟩ := hr
    obtain ⟨rfl, -⟩ := hs
    exact hm

/-- Calls for the example: a text from outside as contents of each `p`, and another as its title. -/
def fillIn (x y : Str) : Prog .gen .gen :=
  Prog.select .src (.ok (.tag (owned ['p']))) fun _ =>
    .forget (.attr (Prog.replaceContents .src (.data (.actual x)))
      (.setAttribute (owned "title".toList) (some (.actual y))))

/-- Calls that fill in different texts are alike. -/
theorem fillIn_alike (x y x' y' : Str) : LikeCalls .outline (fillIn x y) (fillIn x' y') :=
  .fallOk (.select .src (C101_selectors (.tag (owned ['p'])) (by simp)) fun _ =>
    .forget (.attr (.contents .src (.prepend (.remove .src) (.cons (.ok (.data trivial)) .nil)))
      (.setAttribute rfl (.some fun hs => absurd hs (by decide)))))

/-- C101: whatever is filled in, the outline of the result is the same. -/
example (t : Template) (x y x' y' : Str) :
    (∃ t' u', t.transform (fillIn x y) = some (.ok t') ∧
      t.transform (fillIn x' y') = some (.ok u') ∧ LikeTemplate .outline t' u') ∨
    ∃ e f, t.transform (fillIn x y) = some (.error e) ∧
      t.transform (fillIn x' y') = some (.error f) ∧ LikeError .outline e f :=
  C101_outline t t _ _ (List.forall₂_same.2 fun e _ =>
    like_event_refl outline_proper (fun _ => rfl) e) (fillIn_alike x y x' y')

/-- C101: filling in ordinary texts is ordinary. -/
theorem fillIn_plain {x y : Str} (hx : '<' ∉ x) (hy : '"' ∉ y) : PlainCalls (fillIn x y) := by
  refine ⟨trivial, fun _ => ⟨⟨trivial, trivial, ?_⟩, by decide, ?_⟩⟩
  · intro e he
    simp only [results, List.mem_singleton, Except.ok.injEq] at he
    subst he
    exact hx
  · rintro v ⟨⟩
    exact hy

/-- The page of the examples. -/
def fillPage : Template :=
  ⟨[.openingTag (owned "div".toList) [], .data (.actual ['a']), .openingTag (owned ['p']) [],
    .data (.actual ['b']), .closingTag (owned ['p']), .closingTag (owned "div".toList)]⟩

theorem fillIn_nested (x y : Str) : WellNested (fillIn x y) :=
  ⟨trivial, fun _ => ⟨trivial, trivial, data_page _⟩⟩

theorem fillPage_parsed :
    Template.fromStr "<div>a<p>b</p></div>".toList {} = .ok (.ok fillPage) := rfl

/-- C101: the hypotheses of `C101_reread` hold for escaped texts. -/
example : LikeTemplate .outline fillPage fillPage ∧ (∀ e ∈ fillPage.events, Plain e) ∧
    PlainCalls (fillIn "&lt;/p>".toList ">".toList) ∧ PlainCalls (fillIn [] ['c']) ∧
    shown (fillPage.transform (fillIn "&lt;/p>".toList ">".toList)) =
      some "<div>a<p title=\">\">&lt;/p></p></div>".toList ∧
    shown (fillPage.transform (fillIn [] ['c'])) =
      some "<div>a<p title=\"c\"></p></div>".toList := by
  refine ⟨List.forall₂_same.2 fun e _ => like_event_refl outline_proper (fun _ => rfl) e, by decide,
    fillIn_plain (by decide) (by decide), fillIn_plain (by decide) (by decide), ?_, ?_⟩
  · rw [C37_transform_parsed _ _ _ _ fillPage_parsed (fillIn_nested _ _)]
    decide +kernel
  · rw [C37_transform_parsed _ _ _ _ fillPage_parsed (fillIn_nested _ _)]
    decide +kernel

/-- C101: values of ids are not hidden. Calls that set different ids are not alike. -/
example : ¬ LikeChange .outline (.setAttribute (owned "id".toList) (some (.actual ['a'])))
    (.setAttribute (owned "id".toList) (some (.actual ['b']))) := by
  intro h
  cases h with
  | setAttribute _ hv =>
    cases hv with
    | some h => exact absurd (h (.inl (by decide))) (by decide)

end Fuser
