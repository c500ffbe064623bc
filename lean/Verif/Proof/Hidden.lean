import Verif.Proof.Respell
import Verif.Proof.Normal

/-!
# Lemmas on pages that differ in contents and values only
-/

namespace Fuser

open Spec

theorem outline_proper : Likeness.outline.Proper where
  name h := by rw [show _ = _ from h]; exact .refl _
  seen hs h := congrArg Deferred.str (h hs)
  text _ := trivial
  refl _ _ _ := rfl
  join h h' hs := by rw [h hs, h' hs]
  anyCase hn h hs := h (hs.imp hn.trans hn.trans)

theorem outline_attributes_symm {as bs : Attributes}
    (h : List.Forall₂ (LikeAttribute .outline) as bs) :
    List.Forall₂ (LikeAttribute .outline) bs as := by
  refine List.Forall₂.flip (h.imp ?_)
  rintro ⟨an, av⟩ ⟨bn, bv⟩ ⟨h1, h2⟩
  have h1 : an = bn := h1
  subst h1
  refine ⟨rfl, ?_⟩
  cases (show LikeValue .outline an av bv from h2) with
  | none => exact .none
  | some h => exact .some fun hs => (h hs).symm

theorem outline_symm {e f : Event} (h : LikeEvent .outline e f) : LikeEvent .outline f e := by
  cases h with
  | noop => exact .noop
  | doctype h => exact .doctype trivial
  | comment h => exact .comment trivial
  | data h => exact .data trivial
  | rawData h => exact .rawData trivial
  | opening h h' => exact .opening (Eq.symm h) (outline_attributes_symm h')
  | closing h => exact .closing (Eq.symm h)
  | selfClosed h h' => exact .selfClosed (Eq.symm h) (outline_attributes_symm h')
  | void h h' => exact .void (Eq.symm h) (outline_attributes_symm h')

theorem outline_strip_attributes {as bs : Attributes}
    (h : List.Forall₂ (LikeAttribute .outline) as bs) :
    List.Forall₂ (LikeAttribute .outline) (stripAttributes as) (stripAttributes bs) := by
  unfold stripAttributes
  induction h with
  | nil => exact .nil
  | @cons a b _ _ h _ ih =>
    refine .cons ?_ ih
    obtain ⟨an, av⟩ := a
    obtain ⟨bn, bv⟩ := b
    obtain ⟨h1, h2⟩ := h
    have h1 : an = bn := h1
    subst h1
    refine ⟨rfl, ?_⟩
    cases (show LikeValue .outline an av bv from h2) with
    | none => exact .none
    | some h => exact .some fun hs => congrArg stripText (h hs)

theorem outline_strip {e f : Event} (h : LikeEvent .outline e f) :
    LikeEvent .outline (stripEvent e) (stripEvent f) := by
  cases h with
  | noop => exact .noop
  | doctype h => exact .doctype trivial
  | comment h => exact .comment trivial
  | data h => exact .data trivial
  | rawData h => exact .rawData trivial
  | opening h h' => exact .opening (congrArg ownName h) (outline_strip_attributes h')
  | closing h => exact .closing (congrArg ownName h)
  | selfClosed h h' => exact .selfClosed (congrArg ownName h) (outline_strip_attributes h')
  | void h h' => exact .void (congrArg ownName h) (outline_strip_attributes h')

theorem outline_markup {es fs : List Event} (h : List.Forall₂ (LikeEvent .outline) es fs) :
    List.Forall₂ (LikeEvent .outline) ((es.filter notText).map stripEvent)
      ((fs.filter notText).map stripEvent) := by
  induction h with
  | nil => exact .nil
  | @cons e f es fs h _ ih =>
    have hn : notText e = notText f := by cases h <;> rfl
    rw [List.filter_cons, List.filter_cons, hn]
    split
    · exact .cons (outline_strip h) ih
    · exact ih

theorem walk_markup {L : Nat} {es : List Event} :
    ∀ {st : List Str}, Walk L st (es.filter notText) ↔ Walk L st es := by
  induction es with
  | nil => exact Iff.rfl
  | cons e es ih =>
    intro st
    rw [List.filter_cons]
    cases e with
    | data c => exact ih.trans ⟨.leaf trivial, fun h => by cases h with | leaf _ h => exact h⟩
    | rawData c => exact ih.trans ⟨.leaf trivial, fun h => by cases h with | leaf _ h => exact h⟩
    | openingTag t as =>
      constructor
      · intro h
        cases h with
        | leaf h => cases h
        | opening hl h => exact .opening hl (ih.1 h)
      · intro h
        cases h with
        | leaf h => cases h
        | opening hl h => exact .opening hl (ih.2 h)
    | closingTag t =>
      constructor
      · intro h
        cases h with
        | leaf h => cases h
        | closing hl h => exact .closing hl (ih.1 h)
      · intro h
        cases h with
        | leaf h => cases h
        | closing hl h => exact .closing hl (ih.2 h)
    | _ =>
      exact ⟨fun h => by cases h with | leaf _ h => exact .leaf trivial (ih.1 h),
        fun h => by cases h with | leaf _ h => exact .leaf trivial (ih.2 h)⟩

/-- Nesting is a matter of markup alone. -/
theorem nests_markup {n : Nat} {es : List Event} : Nests n (es.filter notText) ↔ Nests n es := by
  rw [nests_iff_walk, nests_iff_walk, walk_markup]

theorem outline_nests {n : Nat} {es fs : List Event}
    (h : List.Forall₂ (LikeEvent .outline) (es.filter notText) (fs.filter notText)) :
    Nests n es ↔ Nests n fs := by
  rw [← nests_markup, ← nests_markup (es := fs)]
  exact ⟨fun hn => nests_like outline_proper hn h, fun hn => nests_like outline_proper hn
    (List.Forall₂.flip (h.imp fun _ _ h => outline_symm h))⟩

end Fuser
