import Verif.Spec.Source
import Verif.Proof.Bytes

/-!
# Lemmas on the texts a template holds
-/

namespace Fuser

open Spec

theorem Spec.Lies.gap {xs : List Str} {s : Str} (h : Lies xs s) (g : Str) : Lies xs (g ++ s) := by
  cases h with
  | nil => exact .nil
  | @cons gap x rest xs h =>
    have := Lies.cons (gap := g ++ gap) (x := x) h
    simpa using this

theorem Spec.Lies.append {xs ys : List Str} {s r : Str} (h : Lies xs s) (h' : Lies ys r) :
    Lies (xs ++ ys) (s ++ r) := by
  induction h with
  | nil => exact h'.gap _
  | @cons gap x rest xs h ih =>
    have := Lies.cons (gap := gap) (x := x) ih
    simpa using this

theorem Spec.Lies.one (g x r : Str) : Lies [x] (g ++ x ++ r) := .cons .nil

theorem Spec.Lies.infix {xs : List Str} {s : Str} (h : Lies xs s) : ∀ x ∈ xs, x <:+: s := by
  induction h with
  | nil => simp
  | @cons gap x rest xs h ih =>
    intro y hy
    rcases List.mem_cons.1 hy with rfl | hy
    · exact ⟨gap, rest, rfl⟩
    · obtain ⟨a, b, rfl⟩ := ih y hy
      exact ⟨gap ++ x ++ a, b, by simp⟩

theorem Spec.Lies.bytes {xs : List Str} {s : Str} (h : Lies xs s) :
    (xs.map bytes).sum ≤ bytes s := by
  induction h with
  | nil => simp
  | @cons gap x rest xs h ih =>
    simp only [List.map_cons, List.sum_cons, bytes_append]
    omega

theorem tail_lies {as : Attributes} {sc : Bool} {r : Str} (h : TagTail as sc r) :
    Lies (as.flatMap attributeTexts) r := by
  induction h with
  | «open» => exact .nil
  | selfClose => exact .nil
  | @bare n w r as sc hn hw he ht ih =>
    have := (Lies.one [] n w).append ih
    simpa [attributeTexts, owned, Identifier.str, Deferred.str] using this
  | @valued n w₁ w₂ w₃ v w₄ r as sc hn _ _ _ _ _ _ _ ht ih =>
    have := ((Lies.one [] n (w₁ ++ '=' :: w₂ ++ '"' :: w₃)).append (Lies.one [] v ('"' :: w₄))).append ih
    simpa [attributeTexts, owned, Identifier.str, Deferred.str] using this

theorem start_texts {t : Identifier} {as : Attributes} {sc : Bool} {e : Event}
    (h : StartEvent t as sc e) : heldTexts e = t.str :: as.flatMap attributeTexts := by
  cases h <;> rfl

theorem piece_lies {e : Event} {p : Str} (h : Piece e p) : Lies (heldTexts e) p := by
  cases h with
  | @data s hs _ => simpa [heldTexts, Deferred.str] using Lies.one [] p []
  | @comment s _ => exact Lies.one _ s _
  | @doctype w₁ d w₂ c w₃ _ hd _ he hc _ =>
    have := Lies.one ("<!".toList ++ w₁ ++ d ++ w₂) c (w₃ ++ ['>'])
    rw [← List.append_assoc] at this
    exact this
  | @closing w₁ w₂ n w₃ _ _ hn _ _ =>
    have := Lies.one ('<' :: w₁ ++ '/' :: w₂) n (w₃ ++ ['>'])
    rw [← List.append_assoc] at this
    exact this
  | @start w₁ n w₂ as sc r e _ hn _ he ht _ _ hse =>
    rw [start_texts hse]
    exact (Lies.one ('<' :: w₁) n w₂).append (tail_lies ht)

theorem reads_lies {d : Doc} {b : Str} (h : Reads d b) :
    Lies (d.events.flatMap heldTexts) d.text := by
  induction h with
  | nil => exact .nil
  | @plain e p d b hp _ _ _ ih =>
    rw [doc_cons]
    exact (piece_lies hp).append ih
  | @rawStart e p t b hp ho =>
    rw [doc_cons]
    exact (piece_lies hp).append .nil
  | @raw e p t c d b hp ho _ _ _ _ ih =>
    rw [doc_cons, doc_cons]
    have h1 : Lies (heldTexts (.rawData (.actual c))) c := by
      simpa [heldTexts, Deferred.str] using Lies.one [] c []
    exact (piece_lies hp).append (h1.append ih)

/-! ## Rendered texts -/

theorem attributes_lie (as : Attributes) :
    Lies (as.flatMap attributeTexts) (as.map attributeText).flatten := by
  induction as with
  | nil => exact .nil
  | cons a as ih =>
    refine Lies.append (xs := attributeTexts a) (s := attributeText a) ?_ ih
    obtain ⟨n, o⟩ := a
    cases o with
    | none => simpa [attributeTexts, attributeText] using Lies.one [' '] n.str []
    | some v =>
      have := (Lies.one [' '] n.str ['=', '"']).append (Lies.one [] v.str ['"'])
      simpa [attributeTexts, attributeText] using this

theorem start_lies (t : Identifier) (as : Attributes) (r : Str) :
    Lies (t.str :: as.flatMap attributeTexts) (startText t as ++ r) := by
  have := ((Lies.one ['<'] t.str []).append (attributes_lie as)).append (Lies.nil (s := r))
  simpa [startText] using this

theorem event_lies (e : Event) : Lies (heldTexts e) (eventText e) := by
  cases e with
  | noop => exact .nil
  | doctype c => exact Lies.one _ c.str _
  | comment c => exact Lies.one _ c.str _
  | data c =>
    have := Lies.one [] c.str []
    rw [List.nil_append, List.append_nil] at this
    exact this
  | rawData c =>
    have := Lies.one [] c.str []
    rw [List.nil_append, List.append_nil] at this
    exact this
  | openingTag t as => exact start_lies t as _
  | voidTag t as => exact start_lies t as _
  | selfClosedTag t as => exact start_lies t as _
  | closingTag t => exact Lies.one _ t.str _

theorem events_lie (es : List Event) :
    Lies (es.flatMap heldTexts) (es.map eventText).flatten := by
  induction es with
  | nil => exact .nil
  | cons e es ih => exact (event_lies e).append ih

end Fuser
