import Verif.Proof.Calls

/-!
# Lemmas on the normal form of pages
-/

namespace Fuser

open Spec

/-! ## Nesting, one event at a time -/

/-- Well nested when elements with the names `st` are open, with at most `L` open elements. -/
inductive Walk (L : Nat) : List Str → List Event → Prop
  | nil : Walk L [] []
  | leaf {st e es} : Leaf e → Walk L st es → Walk L st (e :: es)
  | opening {st t as es} : st.length < L → Walk L (t.str :: st) es →
      Walk L st (.openingTag t as :: es)
  | closing {st n c es} : SameName c.str n → Walk L st es → Walk L (n :: st) (.closingTag c :: es)

theorem nests_walk {n : Nat} {es : List Event} (h : Nests n es) :
    ∀ {L st rest}, st.length + n ≤ L → Walk L st rest → Walk L st (es ++ rest) := by
  induction h with
  | nil => intro L st rest _ h; exact h
  | leaf he _ ih => intro L st rest hl h; exact .leaf he (ih hl h)
  | @element n t as c inner es hc _ _ ih1 ih2 =>
    intro L st rest hl h
    have h2 := ih2 hl h
    have h1 := ih1 (L := L) (st := t.str :: st) (by simp; omega) (.closing hc h2)
    have : (Event.openingTag t as :: (inner ++ .closingTag c :: es)) ++ rest =
      .openingTag t as :: (inner ++ .closingTag c :: (es ++ rest)) := by simp
    rw [this]
    exact .opening (by omega) h1

theorem walk_opens {L : Nat} {st : List Str} {es : List Event} (h : Walk L st es) :
    ∀ {a : Str} {so : List Opened}, so.map (fun x => x.1.str) = st →
      Opens (some L) a so (es.map fun e => (e, [])) [] := by
  induction h with
  | nil =>
    intro a so hs
    have : so = [] := by simpa using hs
    subst this
    exact .nil
  | leaf he _ ih => intro a so hs; exact .leaf he (ih hs)
  | opening hl _ ih =>
    intro a so hs
    refine .opening ?_ (ih (by simp [hs]))
    intro h
    cases h
    rw [← hs, List.length_map] at hl
    omega
  | closing hc _ ih =>
    intro a so hs
    cases so with
    | nil => cases hs
    | cons x so =>
      obtain ⟨t, y⟩ := x
      simp only [List.map_cons, List.cons.injEq] at hs
      obtain ⟨rfl, rfl⟩ := hs
      exact .closing hc (ih rfl)

theorem nests_iff_walk {n : Nat} {es : List Event} : Nests n es ↔ Walk n [] es := by
  constructor
  · intro h
    have := nests_walk h (L := n) (st := []) (rest := []) (by simp) .nil
    simpa using this
  · intro h
    have := opens_nests (walk_opens h (a := []) (so := []) rfl)
    simpa [Doc.events, List.map_map, Function.comp_def] using this

theorem walk_texts {L : Nat} {st : List Str} {ts : List Event} {s : Str} (h : Texts ts s)
    {es : List Event} (hw : Walk L st (ts ++ es)) : Walk L st es := by
  induction h with
  | nil => exact hw
  | data _ ih => cases hw with | leaf _ hw => exact ih hw
  | raw _ ih => cases hw with | leaf _ hw => exact ih hw

theorem walk_addText {L : Nat} {st : List Str} {s : Str} {ms : List Event} (h : Walk L st ms) :
    Walk L st (addText s ms) := by
  unfold addText
  split
  · cases h with | leaf _ h => exact .leaf trivial h
  · split
    · exact h
    · exact .leaf trivial h

theorem walk_normal {L : Nat} {es ms : List Event} (h : Normal es ms) :
    ∀ {st}, Walk L st es → Walk L st ms := by
  induction h with
  | nil => intro st h; exact h
  | data _ _ ih => intro st h; cases h with | leaf _ h => exact walk_addText (ih h)
  | @plain e es ms _ _ _ _ ih =>
    intro st h
    cases h with
    | leaf he h => cases e <;> first | exact he.elim | exact .leaf trivial (ih h)
    | opening hl h => exact .opening hl (ih h)
    | closing hc h => exact .closing hc (ih h)
  | raw _ _ _ ht _ _ _ _ ih =>
    intro st h
    cases h with
    | leaf he _ => cases he
    | opening hl h =>
      cases walk_texts ht h with
      | leaf he _ => cases he
      | closing hc h => exact .opening hl (.leaf trivial (.closing hc (ih h)))

/-- The normal form nests like the page. -/
theorem nests_normal {n : Nat} {es ms : List Event} (h : Normal es ms) (hn : Nests n es) :
    Nests n ms := nests_iff_walk.2 (walk_normal h (nests_iff_walk.1 hn))

/-! ## Reading the rendered page -/

theorem texts_render {ts : List Event} {s : Str} (h : Texts ts s) :
    ts.flatMap Event.render = s := by
  induction h with
  | nil => rfl
  | @data c es s _ ih =>
    rw [List.flatMap_cons, ih]
    exact congrArg (· ++ s) (render_str c)
  | @raw c es s _ ih =>
    rw [List.flatMap_cons, ih]
    exact congrArg (· ++ s) (render_str c)

theorem strip_not_data {e : Event} (h : Spelled e) (c : Deferred) : stripEvent e ≠ .data c := by
  cases e <;> first | exact h.elim | simp [stripEvent, ownEvent]

theorem strip_raw {e : Event} {t : Str} (h : OpensRaw (stripEvent e) t) :
    ∃ n as, e = .openingTag n as ∧ RawName n.str := by
  obtain ⟨as, h1, h2⟩ := h
  cases e <;> simp [stripEvent, ownEvent] at h1
  next n bs =>
    refine ⟨n, bs, rfl, ?_⟩
    have := h1.1
    simp only [ownName_eq, owned, Identifier.mk.injEq, Deferred.actual.injEq] at this
    rw [this]
    exact h2

theorem addText_other {s : Str} {ms : List Event} (h : ∀ c, ms.head? ≠ some (.data c)) :
    addText s ms = if s = [] then ms else .data (.actual s) :: ms := by
  unfold addText
  split
  · next c es => exact absurd rfl (h c)
  · rfl

theorem normal_reads {es ms : List Event} (h : Normal es ms) :
    ∃ d, Doc.text d = es.flatMap Event.render ∧ Doc.events d = ms ∧ Reads d [] ∧
      ((∀ c, ms.head? ≠ some (.data c)) → ∀ x, (Doc.text d).head? = some x → x = '<') := by
  induction h with
  | nil => exact ⟨[], rfl, rfl, .nil, by simp [Doc.text]⟩
  | @data c es ms hlt _ ih =>
    obtain ⟨d, h1, rfl, h3, h4⟩ := ih
    have htext : (Event.data c :: es).flatMap Event.render = c.str ++ Doc.text d := by
      rw [List.flatMap_cons, ← h1]
      exact congrArg (· ++ Doc.text d) (render_str c)
    rw [htext]
    by_cases hd : ∃ c', (Doc.events d).head? = some (.data c')
    · obtain ⟨c', hc'⟩ := hd
      cases d with
      | nil => cases hc'
      | cons x d =>
        obtain ⟨e, p⟩ := x
        have he : e = .data c' := by simpa [Doc.events] using hc'
        subst he
        cases h3 with
        | plain hp h5 h6 h3 =>
          cases hp with
          | data hne hlt' =>
            refine ⟨(.data (.actual (c.str ++ p)), c.str ++ p) :: d, by simp [Doc.text], rfl,
              .plain (.data (by simp [hne]) (by simp [hlt, hlt'])) ?_ ?_ h3, ?_⟩
            · rintro ⟨t, as, h, -⟩
              cases h
            · intro s y _ hy
              exact h6 (.actual p) y rfl hy
            · intro h
              exact absurd rfl (h (.actual (c.str ++ p)))
          | start _ _ _ _ _ _ _ hs => cases hs
        | rawStart _ h => obtain ⟨as, h, -⟩ := h; cases h
        | raw _ h => obtain ⟨as, h, -⟩ := h; cases h
    · have hd : ∀ c', (Doc.events d).head? ≠ some (.data c') := fun c' h => hd ⟨c', h⟩
      rw [addText_other hd]
      split
      · next hs => exact ⟨d, by simp [hs], rfl, h3, h4⟩
      · next hs =>
        refine ⟨(.data (.actual c.str), c.str) :: d, rfl, rfl, .plain (.data hs hlt) ?_ ?_ h3, ?_⟩
        · rintro ⟨t, as, h, -⟩
          cases h
        · intro s y _ hy
          exact h4 hd y (by simpa using hy)
        · intro h
          exact absurd rfl (h (.actual c.str))
  | @plain e es ms hw hcf hraw _ ih =>
    obtain ⟨d, h1, rfl, h3, h4⟩ := ih
    have hp := piece_spelled hw hcf
    refine ⟨(stripEvent e, e.render) :: d, by simp [Doc.text, ← h1], rfl, .plain hp ?_ ?_ h3, ?_⟩
    · rintro ⟨t, ht⟩
      obtain ⟨n, as, h, hr⟩ := strip_raw ht
      exact hraw n as h hr
    · intro s c heq
      exact absurd heq (strip_not_data hw s)
    · intro _ x hx
      rcases piece_head hp with ⟨⟨s, hs⟩, -⟩ | ⟨-, h⟩
      · exact absurd hs (strip_not_data hw _)
      · obtain ⟨a, r, har⟩ : ∃ a r, e.render = a :: r := by
          cases h5 : e.render with
          | nil => rw [h5] at h; cases h
          | cons a r => exact ⟨a, r, rfl⟩
        rw [har] at h
        simp only [Doc.text, List.flatMap_cons, har, List.cons_append, List.head?_cons,
          Option.some.injEq] at hx h
        rw [← hx, h]
  | @raw t as ts s n es ms hw hcf ht hts hin hn hname _ ih =>
    obtain ⟨d, h1, rfl, h3, h4⟩ := ih
    have hp := piece_spelled hw hcf
    have hc : Piece (stripEvent (.closingTag n)) (Event.closingTag n).render :=
      piece_spelled (e := .closingTag n) hname (by exact id)
    have hcl : Reads ((.closingTag (ownName n), (Event.closingTag n).render) :: d) [] := by
      refine .plain hc ?_ ?_ h3
      · rintro ⟨t, as, h, -⟩
        cases h
      · intro s c h
        cases h
    have hd1 : ∃ r, Doc.text ((.closingTag (ownName n), (Event.closingTag n).render) :: d) =
      '<' :: r := ⟨_, rfl⟩
    have htext : (Event.openingTag t as :: (ts ++ .closingTag n :: es)).flatMap Event.render =
        (Event.openingTag t as).render ++ (s ++ ((Event.closingTag n).render ++ Doc.text d)) := by
      rw [List.flatMap_cons, List.flatMap_append, List.flatMap_cons, texts_render hts, h1]
    refine ⟨(stripEvent (.openingTag t as), (Event.openingTag t as).render) ::
      (.rawData (.actual s), s) :: (.closingTag (ownName n), (Event.closingTag n).render) :: d,
      ?_, rfl, .raw hp ⟨stripAttributes as, rfl, ht⟩ ?_ ?_ (fun _ => ?_) hcl, ?_⟩
    · rw [htext]; rfl
    · intro x y hxy hy hclose
      obtain ⟨r, hr⟩ := hd1
      obtain ⟨m, p, q, rfl, hp', hm⟩ := closesAt_within hy (by rw [hr]; rfl) hclose
      exact hin x p q m (by rw [hxy]; simp) hp' hm
    · obtain ⟨r, hr⟩ := hd1
      rw [hr]
      intro h
      cases h
    · exact ⟨ownName n, (Event.closingTag n).render, Doc.text d, by simp [Doc.text], hc, hn⟩
    · intro _ x hx
      exact (Option.some.inj hx).symm

/-! ## Markup -/

theorem addText_markup (s : Str) (ms : List Event) :
    (addText s ms).filter notText = ms.filter notText := by
  rw [addText.eq_def]
  split
  · rfl
  · split
    · rfl
    · rfl

theorem texts_markup {ts : List Event} {s : Str} (h : Texts ts s) : ts.filter notText = [] := by
  induction h with
  | nil => rfl
  | data _ ih => exact ih
  | raw _ ih => exact ih

/-- No markup comes or goes by rendering and parsing. -/
theorem normal_markup {es ms : List Event} (h : Normal es ms) :
    ms.filter notText = (es.filter notText).map stripEvent := by
  induction h with
  | nil => rfl
  | data _ _ ih => rw [addText_markup, ih]; rfl
  | @plain e es ms hs _ _ _ ih =>
    cases e with
    | data c => exact hs.elim
    | rawData c => exact hs.elim
    | _ => exact congrArg (List.cons _) ih
  | raw _ _ _ ht _ _ _ _ ih =>
    simp [List.filter_cons, notText, texts_markup ht, ih, stripEvent, ownEvent]

end Fuser
