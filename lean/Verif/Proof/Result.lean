import Verif.Proof.Normal
import Verif.Proof.Rewrite

/-!
# Lemmas on results of selections and on stability
-/

namespace Fuser

open Spec

theorem rewrites_all {P : Event → Prop} {s : Selector} {b : Nat → List Event → Option Outcome}
    (hb : ∀ i m r, Element m → (∀ e ∈ m.head?, s.matches e = true) → b i m = some (.ok r) →
      ∀ e ∈ r, P e) {i : Nat} {es : List Event} {r : Outcome} (h : Rewrites s b i es r)
    (hP : ∀ e ∈ es, s.matches e = false → P e) {rs : List Event} (hr : r = .ok rs) :
    ∀ e ∈ rs, P e := by
  induction h generalizing rs with
  | nil => cases hr; simp
  | @keep i e es r hm _ ih =>
    cases r with
    | error x => cases hr
    | ok ms =>
      cases hr
      intro x hx
      rcases List.mem_cons.1 hx with rfl | hx
      · exact hP x (by simp) hm
      · exact ih (fun e he => hP e (by simp [he])) rfl x hx
  | @swap i e m es r r' hel hm hbr _ ih =>
    cases r with
    | error x => cases hr
    | ok ms =>
      cases r' with
      | error x => cases hr
      | ok ms' =>
        cases hr
        intro x hx
        rcases List.mem_append.1 hx with hx | hx
        · exact hb i _ ms hel (by simpa using hm) hbr x hx
        · exact ih (fun e he => hP e (by simp [he])) rfl x hx

theorem rewrites_sub {s : Selector} {b : Nat → List Event → Option Outcome}
    (hb : ∀ i m, Element m → b i m = some (.ok [])) {i : Nat} {es : List Event} {r : Outcome}
    (h : Rewrites s b i es r) : ∃ rs, r = .ok rs ∧ rs.Sublist es := by
  induction h with
  | nil => exact ⟨[], rfl, .refl _⟩
  | @keep i e es r hm _ ih =>
    obtain ⟨rs, rfl, h⟩ := ih
    exact ⟨e :: rs, rfl, h.cons_cons e⟩
  | @swap i e m es r r' hel hm hbr _ ih =>
    obtain ⟨rs, rfl, h⟩ := ih
    rw [hb i _ hel] at hbr
    cases hbr
    exact ⟨rs, rfl, h.trans (List.sublist_append_right _ _)⟩

theorem confusing_strip {e : Event} : Confusing (stripEvent e) ↔ Confusing e := by
  have key : ∀ t as, LooksLikeDirective (ownName t) (stripAttributes as) ↔ LooksLikeDirective t as := by
    intro t as
    have hh : (∃ a, (stripAttributes as).head? = some a ∧ SameName a.name.str "doctype".toList) ↔
        ∃ a, as.head? = some a ∧ SameName a.name.str "doctype".toList := by
      cases as with
      | nil => simp [stripAttributes]
      | cons a as => simp [stripAttributes, ownName, ownText, Identifier.str, Deferred.str]
    exact or_congr Iff.rfl (or_congr Iff.rfl (and_congr Iff.rfl hh))
  cases e <;> first | exact key _ _ | exact Iff.rfl

theorem normal_confusing {es ms : List Event} (h : Normal es ms) : ∀ e ∈ ms, ¬ Confusing e := by
  induction h with
  | nil => simp
  | @data c es ms _ _ ih =>
    intro e he
    rw [addText.eq_def] at he
    split at he
    · rcases List.mem_cons.1 he with rfl | he
      · exact id
      · exact ih e (by simp [he])
    · split at he
      · exact ih e he
      · rcases List.mem_cons.1 he with rfl | he
        · exact id
        · exact ih e he
  | plain _ hc _ _ ih =>
    intro e he
    rcases List.mem_cons.1 he with rfl | he
    · rwa [confusing_strip]
    · exact ih e he
  | @raw t as ts s n es ms _ hc _ _ _ _ _ _ ih =>
    intro e he
    rcases List.mem_cons.1 he with rfl | he
    · exact (confusing_strip (e := .openingTag t as)).not.2 hc
    · rcases List.mem_cons.1 he with rfl | he
      · exact id
      · rcases List.mem_cons.1 he with rfl | he
        · exact id
        · exact ih e he

end Fuser
