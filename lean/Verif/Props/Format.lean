import Verif.Proof.Format
import Verif.Props.Show
import Verif.Props.Parse
import Verif.Props.Inject

/-!
# Property C102: format parameters
-/

namespace Fuser

open Spec

/-- C102. Texts and names take format parameters like strings: they are cut to the precision and
filled up to the width. -/
theorem C102_texts (f : FormatSpec) (d : Deferred) (i : Identifier) :
    (∀ r, Padded f d.str r ↔ r = d.format f) ∧ ∀ r, Padded f i.str r ↔ r = i.format f := by
  have key : ∀ (d : Deferred) r, Padded f d.str r ↔ r = d.format f := by
    intro d r
    rw [format_pad]
    exact ⟨fun h => padded_unique h (padded_pad f d.str), fun h => h ▸ padded_pad f d.str⟩
  exact ⟨key d, key i.text⟩

/-- C102 for templates: the parameters are for each text in the page by itself, and not for tags,
comments and doctypes, nor for the page as a whole. -/
theorem C102_template (f : FormatSpec) (t : Template) (r : Str) :
    r = t.format f ↔ ∃ xs : List Str, r = xs.flatten ∧ List.Forall₂ (ShownAs f) t.events xs := by
  unfold Template.format
  rw [List.flatMap_def]
  generalize t.events = es
  constructor
  · rintro rfl
    refine ⟨_, rfl, ?_⟩
    rw [List.forall₂_map_right_iff, List.forall₂_same]
    exact fun e _ => event_shown f e
  · rintro ⟨xs, rfl, h⟩
    congr 1
    induction h with
    | nil => rfl
    | cons h _ ih => rw [List.map_cons, ← ih, shown_unique h (event_shown f _)]

/-- C102, without width and precision a template is shown as with `{}`. -/
theorem C102_plain (f : FormatSpec) (hw : f.width = none) (hp : f.precision = none)
    (t : Template) : t.format f = t.render := by
  rw [template_format]
  unfold Template.render
  rw [List.flatMap_map]
  congr 1
  funext e
  cases e with
  | data c => exact (pad_plain f hw hp c.str).trans (render_str c).symm
  | rawData c => exact (pad_plain f hw hp c.str).trans (render_str c).symm
  | _ => rfl

/-- C102, format parameters do not damage the markup: if all events are ordinary and the fill
character is not `<`, the page shown with parameters is readable if it is well nested, and whoever
reads it finds the same markup. -/
theorem C102_markup (f : FormatSpec) (hf : f.fill ≠ '<') (t : Template)
    (ht : ∀ e ∈ t.events, Plain e) :
    ((∃ u, Template.fromStr (t.format f) ⟨none, none⟩ = .ok (.ok u)) ↔ Balanced t.events) ∧
    ∀ o u, Template.fromStr (t.format f) o = .ok (.ok u) →
      u.events.filter notText = (t.events.filter notText).map stripEvent := by
  have hp : ∀ e ∈ t.events.map (padEvent f), Plain e := by
    intro e he
    obtain ⟨e', he', rfl⟩ := List.mem_map.1 he
    exact pad_plainEvent hf (ht e' he')
  have hb : Balanced (joined (t.events.map (padEvent f))) ↔ Balanced t.events :=
    exists_congr fun n => by
      rw [joined_nests hp, ← nests_markup, pad_markup, nests_markup]
  rw [template_format]
  simp only [plain_reading hp]
  constructor
  · constructor
    · rintro ⟨_, rfl, -, h, -⟩
      exact hb.1 h
    · exact fun h => ⟨_, rfl, (fun _ h => nomatch h), hb.2 h, fun _ h => nomatch h⟩
  · rintro o u ⟨rfl, -⟩
    rw [normal_markup (plain_normal hp), pad_markup]

/-- A page for the examples. -/
def formatPage : Template :=
  ⟨[.openingTag (owned ['p']) [⟨owned ['a'], some (.actual ['b'])⟩], .data (.actual "xyz".toList),
    .comment (.static "long".toList), .data (.static ['é']), .closingTag (owned ['p'])]⟩

/-- C102: width, fill, alignment and precision. -/
example : formatPage.format {} = "<p a=\"b\">xyz<!--long-->é</p>".toList ∧
    formatPage.format { width := some 4 } = "<p a=\"b\">xyz <!--long-->é   </p>".toList ∧
    formatPage.format { width := some 4, align := some .right, fill := '*' } =
      "<p a=\"b\">*xyz<!--long-->***é</p>".toList ∧
    formatPage.format { width := some 4, align := some .center, fill := '*', precision := some 1 } =
      "<p a=\"b\">*x**<!--long-->*é**</p>".toList ∧
    (Deferred.static "abc".toList).format { width := some 5, precision := some 2 } =
      "ab   ".toList ∧ (∀ e ∈ formatPage.events, Plain e) ∧ Balanced formatPage.events := by
  refine ⟨by decide, by decide, by decide, by decide, by decide, by decide, ?_⟩
  exact ⟨1, nests_iff_walk.2 (.opening (by decide) (.leaf trivial (.leaf trivial (.leaf trivial
    (.closing (by decide) .nil)))))⟩

/-- C102, the parameters are not those of the page as a whole: with a width that the page has
already, texts in it are filled up. -/
theorem C102_not_whole : formatPage.render.length = 28 ∧
    ¬ Padded { width := some 4 } formatPage.render (formatPage.format { width := some 4 }) := by
  refine ⟨by decide, fun h => ?_⟩
  have := padded_unique h (padded_pad _ _)
  revert this
  decide

end Fuser
