import Verif.Proof.Unmark
import Verif.Props.Attr

/-!
# Taking away a class that was added
-/

namespace Fuser

open Spec

/-- C121. Adding a class that an element does not have and removing it again changes at most the first
class attribute: if there is none, nothing changes; if it has no words, it goes; otherwise it has the
same words as before, with single spaces between. -/
theorem C121_unmark (as : Attributes) (x : Identifier) (hx : ValidIdent x.str)
    (h : ¬ HasClass x.str as) :
    let bs := (AttrOp.removeClass x).apply ((AttrOp.addClass x).apply as)
    ((∀ a ∈ as, ¬ Named "class".toList a) → bs = as) ∧
    ∀ pre a post, as = pre ++ a :: post → (∀ b ∈ pre, ¬ Named "class".toList b) →
      Named "class".toList a →
      ((∀ v, a.value = some v → ∀ w, ¬ IsWord w v.str) → bs = pre ++ post) ∧
      ∀ v, a.value = some v → (∃ w, IsWord w v.str) →
        ∃ ws u, Words v.str ws ∧ bs = pre ++ ⟨a.name, some u⟩ :: post ∧
          u.str = [' '].intercalate ws := by
  intro bs
  have heq : bs = ((AttrOp.addClass x).apply as).filterMap fun a => a.removeClass x.str :=
    attributes_removeClass_eq hx.ascii
  obtain ⟨_, _, _, _, h5, h6⟩ := C12_add_class as x hx
  have hword : splitWhitespace x.str = [x.str] := splitWhitespace_word hx.1 hx.2.2.1
  have hno : ∀ a ∈ as, ¬ CarriesClass x.str a := fun a ha hc => h ⟨a, ha, hc⟩
  refine ⟨fun hn => ?_, fun pre a post has hpre ha => ?_⟩
  · obtain ⟨⟨n, o⟩, v, e1, e2, e3, e4⟩ := h5 hn
    cases e3
    rw [heq, e1, List.filterMap_append, keep_others hx.ascii hno,
      List.filterMap_cons_none (f := fun a => Attribute.removeClass a x.str)
      ((removeClass_added hx (ws := []) (by rw [Named, e2]; exact SameName.refl _)
        (by rw [e4, hword]; rfl) (by simp)).1 rfl)]
    simp
  · obtain ⟨w, e1, e2⟩ := h6 pre a post has hpre ha
    subst has
    have k1 := keep_others (as := pre) hx.ascii fun b hb => hno b (by simp [hb])
    have k2 := keep_others (as := post) hx.ascii fun b hb => hno b (by simp [hb])
    have hca := hno a (by simp)
    have hn : Named "class".toList ⟨a.name, some w⟩ := ha
    refine ⟨fun hv => ?_, fun v hv hw => ?_⟩
    · have hs : splitWhitespace w.str = [] ++ [x.str] := by
        cases hav : a.value with
        | none => rw [hav] at e2; rw [e2, hword]; rfl
        | some v =>
          rw [hav] at e2
          have : splitWhitespace v.str = [] := List.eq_nil_iff_forall_not_mem.2 fun y hy =>
            hv v hav y (mem_splitWhitespace.1 hy)
          rw [e2]
          simp only
          rw [splitWhitespace_append_space, hword, this]
      rw [heq, e1, List.filterMap_append, k1,
        List.filterMap_cons_none (f := fun a => Attribute.removeClass a x.str)
        ((removeClass_added hx hn hs (by simp)).1 rfl), k2]
    · rw [hv] at e2
      have hs : splitWhitespace w.str = splitWhitespace v.str ++ [x.str] := by
        rw [e2]
        simp only
        rw [splitWhitespace_append_space, hword]
      obtain ⟨y, hy⟩ := hw
      obtain ⟨u, u1, u2⟩ := (removeClass_added hx hn hs fun z hz hs' =>
        hca ⟨ha, v, hv, z, mem_splitWhitespace.1 hz, hs'⟩).2
          (List.ne_nil_of_mem (mem_splitWhitespace.2 hy))
      refine ⟨_, u, words_splitWhitespace _, ?_, u2⟩
      rw [heq, e1, List.filterMap_append, k1,
        List.filterMap_cons_some (f := fun a => Attribute.removeClass a x.str) u1, k2]

/-- C121. If the first class attribute is some words with single spaces between, or there is none, the
tag is written as before. -/
theorem C121_no_trace (as : Attributes) (x : Identifier) (hx : ValidIdent x.str)
    (h : ¬ HasClass x.str as)
    (ht : ∀ pre a post, as = pre ++ a :: post → (∀ b ∈ pre, ¬ Named "class".toList b) →
      Named "class".toList a → ∃ v ws, a.value = some v ∧ ws ≠ [] ∧
        (∀ w ∈ ws, w ≠ [] ∧ ∀ c ∈ w, ¬ Space c) ∧ v.str = [' '].intercalate ws) (t : Identifier) :
    tagDisplay t ((AttrOp.removeClass x).apply ((AttrOp.addClass x).apply as)) = tagDisplay t as := by
  have hword : splitWhitespace x.str = [x.str] := splitWhitespace_word hx.1 hx.2.2.1
  rcases named_split as "class".toList with hn | ⟨pre, a, post, has, h1, h2⟩
  · rw [(C121_unmark as x hx h).1 hn]
  · obtain ⟨v, ws, hv, hne, hws, hj⟩ := ht pre a post has h1 h2
    obtain ⟨_, _, _, _, _, h6⟩ := C12_add_class as x hx
    obtain ⟨w, e1, e2⟩ := h6 pre a post has h1 h2
    rw [hv] at e2
    have hsv : splitWhitespace v.str = ws := by
      rw [hj, ← joinWords_intercalate]
      exact splitWhitespace_joinWords (fun w hw => (hws w hw).1) fun w hw => (hws w hw).2
    have hs : splitWhitespace w.str = ws ++ [x.str] := by
      rw [e2]
      simp only
      rw [splitWhitespace_append_space, hword, hsv]
    have hno : ∀ a ∈ as, ¬ CarriesClass x.str a := fun a ha hc => h ⟨a, ha, hc⟩
    subst has
    obtain ⟨u, u1, u2⟩ := (removeClass_added (n := a.name) hx h2 hs fun z hz hs' =>
      hno a (by simp) ⟨h2, v, hv, z, mem_splitWhitespace.1 (by rw [hsv]; exact hz), hs'⟩).2 hne
    have heq : (AttrOp.removeClass x).apply ((AttrOp.addClass x).apply (pre ++ a :: post)) =
        ((AttrOp.addClass x).apply (pre ++ a :: post)).filterMap fun a => a.removeClass x.str :=
      attributes_removeClass_eq hx.ascii
    rw [heq, e1, List.filterMap_append,
      keep_others (as := pre) hx.ascii fun b hb => hno b (by simp [hb]),
      List.filterMap_cons_some (f := fun a => Attribute.removeClass a x.str) u1,
      keep_others (as := post) hx.ascii fun b hb => hno b (by simp [hb])]
    refine tagDisplay_replace t ?_
    have : u.render = v.render := by
      change u.str = v.str
      rw [u2, hj]
    simp [Attribute.render, hv, this]

/-! ## Cases -/

private def attr (n v : String) : Attribute := ⟨⟨.actual n.toList⟩, some (.actual v.toList)⟩

private def m : Identifier := ⟨.static ['m']⟩

/-- C121: words with single spaces stay, also beside another class attribute. -/
example : (AttrOp.removeClass m).apply ((AttrOp.addClass m).apply
    [attr "id" "i", attr "class" "a b", attr "class" " c"]) =
    [attr "id" "i", attr "class" "a b", attr "class" " c"] := by decide

/-- C121: other spaces do not stay, and a class attribute without words goes. -/
example : (AttrOp.removeClass m).apply ((AttrOp.addClass m).apply [attr "class" " a  b"]) =
      [attr "class" "a b"] ∧
    (AttrOp.removeClass m).apply ((AttrOp.addClass m).apply [attr "class" " ", attr "id" "i"]) =
      [attr "id" "i"] ∧
    (AttrOp.removeClass m).apply ((AttrOp.addClass m).apply [⟨⟨.actual "class".toList⟩, none⟩]) = [] := by
  decide

/-- C121: a class that the element had before is lost. -/
example : (AttrOp.removeClass m).apply ((AttrOp.addClass m).apply [attr "class" "a M"]) =
    [attr "class" "a"] := by decide

end Fuser
