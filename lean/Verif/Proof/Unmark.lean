import Verif.Proof.AttrOps

/-!
# Taking away a class that was added
-/

namespace Fuser

open Spec

theorem keep_others {x : Str} (hx : Ascii x) {as : Attributes} (h : ∀ a ∈ as, ¬ CarriesClass x a) :
    (as.filterMap fun a => a.removeClass x) = as := by
  induction as with
  | nil => rfl
  | cons a as ih =>
    rcases attribute_removeClass (a := a) hx with ⟨_, h2⟩ | ⟨h1, _⟩
    · rw [List.filterMap_cons_some (f := fun a => Attribute.removeClass a x) h2,
        ih fun b hb => h b (List.mem_cons_of_mem _ hb)]
    · exact absurd h1 (h a List.mem_cons_self)

/-- One class attribute to whose words `x` was added. -/
theorem removeClass_added {x : Str} (hx : ValidIdent x) {n : Identifier} {w : Value} {ws : List Str}
    (hn : Named "class".toList ⟨n, some w⟩) (hw : splitWhitespace w.str = ws ++ [x])
    (h : ∀ v ∈ ws, ¬ SameName v x) :
    (ws = [] → Attribute.removeClass ⟨n, some w⟩ x = none) ∧
    (ws ≠ [] → ∃ u : Value, Attribute.removeClass ⟨n, some w⟩ x = some ⟨n, some u⟩ ∧
      u.str = [' '].intercalate ws) := by
  have hf : ((ws ++ [x]).filter fun v => !identifierEq x v) = ws := by
    rw [← otherWords_eq hx.ascii]
    classical
    unfold otherWords
    rw [List.filter_append, List.filter_eq_self.2 fun v hv => by simpa using h v hv]
    simp [SameName.refl]
  have hc : CarriesClass x ⟨n, some w⟩ :=
    ⟨hn, w, rfl, x, mem_splitWhitespace.1 (by rw [hw]; simp), SameName.refl _⟩
  rcases attribute_removeClass (a := ⟨n, some w⟩) hx.ascii with
    ⟨h1, _⟩ | ⟨_, v, hv, ⟨h2, h3⟩ | ⟨v', h2, _, h4, h5⟩⟩
  · exact absurd hc h1
  · cases hv
    refine ⟨fun _ => h2, fun hne => ?_⟩
    obtain ⟨v, hv⟩ := List.exists_mem_of_ne_nil _ hne
    exact absurd (h3 v (by rw [hw]; simp [hv])) (h v hv)
  · cases hv
    rw [hw, hf] at h4 h5
    exact ⟨fun h => absurd h h4, fun _ => ⟨v', h2, by rw [h5, joinWords_intercalate]⟩⟩

/-- Attributes are written by the text of their values. -/
theorem renderLoop_replace {pre post : Attributes} {a b : Attribute} (h : a.render = b.render) :
    ∀ f, Attributes.renderLoop f (pre ++ a :: post) = Attributes.renderLoop f (pre ++ b :: post) := by
  induction pre with
  | nil => intro f; simp [Attributes.renderLoop, h]
  | cons c pre ih => intro f; simp [Attributes.renderLoop, ih]

theorem tagDisplay_replace (t : Identifier) {pre post : Attributes} {a b : Attribute}
    (h : a.render = b.render) : tagDisplay t (pre ++ a :: post) = tagDisplay t (pre ++ b :: post) := by
  have := renderLoop_replace (pre := pre) (post := post) h true
  simp [tagDisplay, Attributes.render, this]

end Fuser
