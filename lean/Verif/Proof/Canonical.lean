import Verif.Proof.Report
import Verif.Spec.Normal

/-!
# Rendering and parsing again: helper lemmas
-/

namespace Fuser
open Spec

theorem words_unique {a b r r' : Str} (ha : ∀ c ∈ a, c ∉ terminators) (hb : ∀ c ∈ b, c ∉ terminators)
    (hr : Ends r) (hr' : Ends r') (h : a ++ r = b ++ r') : a = b ∧ r = r' := by
  have h1 := takeWhile_stop (p := fun c => !terminator c) (a := a) (b := r)
    (fun c hc => by simpa using terminator_false.2 (ha c hc))
    (fun c hc => by simpa using terminator_iff.2 (hr c hc))
  have h2 := takeWhile_stop (p := fun c => !terminator c) (a := b) (b := r')
    (fun c hc => by simpa using terminator_false.2 (hb c hc))
    (fun c hc => by simpa using terminator_iff.2 (hr' c hc))
  rw [h] at h1
  exact ⟨h1.1.symm.trans h2.1, h1.2.symm.trans h2.2⟩

theorem blank_unique {a b r r' : Str} (ha : Blank a) (hb : Blank b)
    (hr : Tight r) (hr' : Tight r') (h : a ++ r = b ++ r') : a = b ∧ r = r' := by
  have h1 := takeWhile_stop (p := fun c => decide (Space c)) (a := a) (b := r)
    (fun c hc => by simpa using ha c hc) (fun c hc => by simpa using hr c hc)
  have h2 := takeWhile_stop (p := fun c => decide (Space c)) (a := b) (b := r')
    (fun c hc => by simpa using hb c hc) (fun c hc => by simpa using hr' c hc)
  rw [h] at h1
  exact ⟨h1.1.symm.trans h2.1, h1.2.symm.trans h2.2⟩

theorem render_str (d : Deferred) : d.render = d.str := by cases d <;> rfl
theorem ident_render (i : Identifier) : i.render = i.str := render_str _
theorem ownName_eq (i : Identifier) : ownName i = owned i.str := rfl
theorem blank_space : Blank [' '] := by intro c hc; simp at hc; subst hc; decide
theorem blank_nil : Blank [] := by simp [Blank]

/-! ## Attributes -/

theorem strip_split (s : Str) :
    s.takeWhile (fun c => decide (Space c)) ++ s.dropWhile (fun c => decide (Space c)) = s ∧
    Blank (s.takeWhile fun c => decide (Space c)) ∧
    Tight (s.dropWhile fun c => decide (Space c)) := by
  refine ⟨List.takeWhile_append_dropWhile, fun c hc => ?_, fun c hc => ?_⟩
  · simpa using List.all_eq_true.1 (List.all_takeWhile (p := fun c => decide (Space c)) (l := s)) c hc
  · have := List.head?_dropWhile_not (fun c => decide (Space c)) s
    rw [hc] at this
    simpa using this

theorem tagTail_render {sc : Bool} {lead T : Str} (hl : Blank lead) (hT : TagTail [] sc T)
    (hE : Ends (lead ++ T)) : ∀ {as : Attributes}, as ≠ [] → SpelledAttributes as →
    TagTail (stripAttributes as) sc (Attributes.renderLoop true as ++ lead ++ T) := by
  intro as
  induction as with
  | nil => intro h; exact absurd rfl h
  | cons a as ih =>
    intro _ hp
    have ha := hp a (by simp)
    -- what follows the attribute
    obtain ⟨w, r, hw, hr, heq, hends⟩ : ∃ w r, Blank w ∧ TagTail (stripAttributes as) sc r ∧
        Attributes.renderLoop true (a :: as) ++ lead ++ T = a.render ++ w ++ r ∧ Ends (w ++ r) := by
      cases as with
      | nil => exact ⟨lead, T, hl, hT, by simp [Attributes.renderLoop], hE⟩
      | cons b bs =>
        refine ⟨[' '], _, blank_space, ih (by simp) fun x hx => hp x (by simp [hx]), ?_, ?_⟩
        · simp [Attributes.renderLoop]
        · exact ends_char (by decide)
    rw [heq]
    obtain ⟨n, v⟩ := a
    cases v with
    | none =>
      simp only [Attribute.render, List.append_nil, ident_render]
      exact .bare ha.1 hw hends hr
    | some v =>
      have h2 := ha.2 v rfl
      obtain ⟨h0, h1, h3⟩ := strip_split v.str
      have := TagTail.valued (n := n.str) (w₁ := []) (w₂ := []) (w₃ := v.str.takeWhile fun c => decide (Space c))
        (v := v.str.dropWhile fun c => decide (Space c)) ha.1 blank_nil
        (ends_char (by decide)) blank_nil h1 h3 (fun h => h2 (h0 ▸ List.mem_append_right _ h)) hw hr
      have e : stripAttributes (⟨n, some v⟩ :: as) =
        ⟨owned n.str, some (stripText v)⟩ :: stripAttributes as := rfl
      rw [e]
      have e2 : n.str ++ [] ++ '=' :: [] ++ '"' :: v.str.takeWhile (fun c => decide (Space c)) ++
          v.str.dropWhile (fun c => decide (Space c)) ++ '"' :: w ++ r =
          n.str ++ '=' :: '"' :: (v.str ++ '"' :: (w ++ r)) := by
        conv_rhs => rw [← h0]
        simp
      rw [e2] at this
      simpa [Attribute.render, ident_render, render_str, stripText] using this

/-- The text of a start tag after its name. -/
theorem tail_render {sc : Bool} {lead T : Str} (hl : Blank lead) (hT : TagTail [] sc T)
    (hE : Ends (lead ++ T)) {as : Attributes} (hp : SpelledAttributes as) :
    ∃ w r, (if as.isEmpty then [] else " ".toList ++ Attributes.render as) ++ lead ++ T = w ++ r ∧
      Blank w ∧ Ends (w ++ r) ∧ TagTail (stripAttributes as) sc r ∧
      (w = [] ∨ Ends w ∧ w ≠ []) ∧
      (∀ a bs, as = a :: bs → w = [' '] ∧ ∃ r', r = a.name.str ++ r' ∧ Ends r') ∧
      (as = [] → w = lead ∧ r = T) := by
  cases as with
  | nil =>
    refine ⟨lead, T, by simp, hl, hE, hT, ?_, by simp, by simp⟩
    by_cases h : lead = []
    · exact .inl h
    · exact .inr ⟨hE.of_append h, h⟩
  | cons a as =>
    refine ⟨[' '], Attributes.renderLoop true (a :: as) ++ lead ++ T, by simp [Attributes.render],
      blank_space, ends_char (by decide),
      by simpa using tagTail_render hl hT hE (by simp) hp, .inr ⟨ends_char (by decide), by simp⟩, ?_,
      by simp⟩
    rintro a' bs ⟨⟩
    refine ⟨rfl, ?_⟩
    obtain ⟨n, v⟩ := a
    have hends : Ends (Attributes.renderLoop false as ++ (lead ++ T)) := by
      cases as with
      | nil => exact hE
      | cons b bs => exact ends_char (by decide)
    cases v with
    | none =>
      exact ⟨_, by simp [Attributes.renderLoop, Attribute.render, ident_render], hends⟩
    | some v =>
      exact ⟨'=' :: '"' :: (v.render ++ '"' :: (Attributes.renderLoop false as ++ (lead ++ T))),
        by simp [Attributes.renderLoop, Attribute.render, ident_render], ends_char (by decide)⟩

/-! ## Tags that look like directives -/

theorem not_comment_render {n rest : Str} (hr : Ends rest) (h : ¬ "!--".toList <+: n) :
    ¬ CommentStart ('<' :: n ++ rest) := by
  rintro ⟨y, hy⟩
  apply h
  have hy : '!' :: '-' :: '-' :: y = n ++ rest := by simpa using hy
  match n, hy with
  | [], hy => exact absurd (hr '!' (by simp at hy; simp [← hy])) (by decide)
  | [a], hy =>
    simp only [List.cons_append, List.nil_append, List.cons.injEq] at hy
    exact absurd (hr '-' (by simp [← hy.2])) (by decide)
  | [a, b], hy =>
    simp only [List.cons_append, List.nil_append, List.cons.injEq] at hy
    exact absurd (hr '-' (by simp [← hy.2.2])) (by decide)
  | a :: b :: c :: n, hy =>
    simp only [List.cons_append, List.cons.injEq] at hy
    obtain ⟨rfl, rfl, rfl, -⟩ := hy
    exact ⟨n, rfl⟩

theorem space_tight {w r : Str} (hw : Blank w) (h : Tight (w ++ r)) : w = [] := by
  cases w with
  | nil => rfl
  | cons c w => exact absurd (hw c (by simp)) (h c rfl)

theorem start_not_directive {n w r : Str} {t : Identifier} {as : Attributes} {sc : Bool}
    (hn : Name n) (ht : t.str = n) (hw : Blank w) (hends : Ends (w ++ r))
    (htt : TagTail (stripAttributes as) sc r)
    (hfirst : ∀ a bs, as = a :: bs → ∃ r', r = a.name.str ++ r' ∧ Ends r')
    (hplain : SpelledAttributes as)
    (hdir : ¬ LooksLikeDirective t as) :
    ¬ CommentStart ('<' :: n ++ w ++ r) ∧ ¬ DoctypeStart ('<' :: n ++ w ++ r) := by
  subst ht
  constructor
  · rw [List.append_assoc]
    exact not_comment_render hends fun h => hdir (.inl h)
  · rintro ⟨w', d, r', heq, hw', hd, hr'⟩
    have hdn := doctype_name hd
    cases hts : t.str with
    | nil => exact hn.ne_nil hts
    | cons c n' =>
      rw [hts] at heq
      simp only [List.cons_append, String.reduceToList, List.nil_append, List.cons.injEq, true_and,
        List.append_assoc] at heq
      obtain ⟨rfl, heq⟩ := heq
      cases n' with
      | nil =>
        simp only [List.nil_append] at heq
        obtain ⟨-, heq⟩ := blank_unique hw hw' (by simpa using htt.tight (r := [])) hdn.tight heq
        cases as with
        | nil =>
          exfalso
          have : r.head? = some '/' ∨ r.head? = some '>' := by
            cases htt with
            | «open» => exact .inr rfl
            | selfClose => exact .inl rfl
          obtain ⟨c, q, h1, h2⟩ := hdn.head (b := r')
          rw [heq, h1] at this
          rcases this with h | h <;> simp at h <;> subst h <;> exact h2 (by decide)
        | cons a bs =>
          obtain ⟨q, rfl, hq⟩ := hfirst a bs rfl
          obtain ⟨h1, -⟩ := words_unique (hplain a (by simp)).1.2 hdn.2 hq hr' heq
          exact hdir (.inr (.inr ⟨hts, a, rfl, h1 ▸ hd⟩))
      | cons c' n' =>
        have hc : ∀ x ∈ c' :: n', x ∉ terminators := fun x hx => hn.2 x (by rw [hts]; simp [hx])
        have hsp : ¬ Space c' := hn.1.2.2.1 c' (by rw [hts]; simp)
        have hw0 : w' = [] := by
          refine space_tight hw' (r := d ++ r') ?_
          rw [← heq]
          exact tight_char hsp
        subst hw0
        obtain ⟨h1, -⟩ := words_unique hc hdn.2 hends hr' heq
        refine hdir (.inr (.inl ?_))
        rw [hts, h1]
        exact .cons (.inl rfl) hd

/-! ## Rendered events -/

theorem sameName_refl (a : Str) : SameName a a := by
  induction a with
  | nil => exact .nil
  | cons c a ih => exact .cons (.inl rfl) ih

theorem start_render {t : Identifier} {as : Attributes} {sc : Bool} {lead T : Str} {e : Event}
    (hn : Name t.str) (hp : SpelledAttributes as) (hd : ¬ LooksLikeDirective t as) (hl : Blank lead)
    (hT : TagTail [] sc T) (hE : Ends (lead ++ T))
    (hs : StartEvent (owned t.str) (stripAttributes as) sc e) :
    Piece e ("<".toList ++ tagDisplay t as ++ (lead ++ T)) := by
  obtain ⟨w, r, heq, hw, hends, htt, -, hfirst, -⟩ := tail_render hl hT hE hp
  obtain ⟨h1, h2⟩ := start_not_directive hn rfl hw hends htt
    (fun a bs h => (hfirst a bs h).2) hp hd
  have := Piece.start (w₁ := []) blank_nil hn hw hends htt (by simpa using h1) (by simpa using h2) hs
  have heq' : "<".toList ++ tagDisplay t as ++ (lead ++ T) = '<' :: [] ++ t.str ++ w ++ r := by
    simp only [tagDisplay, ident_render]
    rw [List.append_assoc _ w r, ← heq]
    simp
  rw [heq']
  exact this

theorem piece_spelled {e : Event} (h : Spelled e) (hc : ¬ Confusing e) :
    Piece (stripEvent e) e.render := by
  cases e with
  | noop => cases h
  | rawData c => cases h
  | doctype c =>
    change SameName c.str "html".toList at h
    have h1 : "<!doctype ".toList = "<!".toList ++ [] ++ "doctype".toList ++ [' '] := rfl
    have heq : (Event.doctype c).render =
        "<!".toList ++ [] ++ "doctype".toList ++ [' '] ++ c.str ++ [] ++ ['>'] := by
      change "<!doctype ".toList ++ c.render ++ ">".toList = _
      rw [h1, render_str, List.append_nil (_ ++ c.str)]
      rfl
    rw [heq]
    exact .doctype blank_nil (sameName_refl _) blank_space (ends_char (by decide)) h blank_nil
  | comment c =>
    change Piece (.comment (.actual c.str)) ("<!--".toList ++ c.render ++ "-->".toList)
    rw [render_str]
    exact .comment h
  | data c => cases h
  | closingTag t =>
    have := Piece.closing (w₁ := []) (w₂ := []) (n := t.str) (w₃ := []) blank_nil blank_nil h
      blank_nil (ends_char (by decide))
    change Piece (.closingTag (owned t.str)) ("</".toList ++ t.render ++ ">".toList)
    rw [ident_render]
    rw [List.append_nil] at this
    exact this
  | openingTag t as =>
    exact start_render (lead := []) (T := ['>']) h.1 h.2.2 hc blank_nil .open
      (ends_char (by decide)) (.opening h.2.1)
  | voidTag t as =>
    exact start_render (lead := []) (T := ['>']) h.1 h.2.2 hc blank_nil .open
      (ends_char (by decide)) (.void h.2.1)
  | selfClosedTag t as =>
    exact start_render (lead := [' ']) (T := ['/', '>']) h.1 h.2.2 hc blank_space
      (.selfClose (w := []) blank_nil) (ends_char (by decide)) (.selfClosed h.2.1)

theorem strip_plain {as : Attributes} (h : PlainAttributes as) :
    SpelledAttributes as ∧ stripAttributes as = ownAttributes as := by
  refine ⟨fun a ha => ⟨(h a ha).1, fun v hv => ((h a ha).2 v hv).2⟩, List.map_congr_left ?_⟩
  rintro ⟨n, v⟩ ha
  cases v with
  | none => rfl
  | some v =>
    have : v.str.dropWhile (fun c => decide (Space c)) = v.str := by
      have ht := ((h _ ha).2 v rfl).1
      cases hs : v.str with
      | nil => rfl
      | cons c r =>
        rw [hs] at ht
        rw [List.dropWhile_cons, if_neg (by simpa using ht c rfl)]
    simp [stripText, this, ownText]

/-- Writable events are texts or spelled without change. -/
theorem writable_spelled {e : Event} (h : Writable e) :
    (∃ c, e = .data c) ∨ Spelled e ∧ stripEvent e = ownEvent e := by
  cases e with
  | data c => exact .inl ⟨c, rfl⟩
  | openingTag t as =>
    obtain ⟨h1, h2⟩ := strip_plain h.2.2
    exact .inr ⟨⟨h.1, h.2.1, h1⟩, by simp [stripEvent, ownEvent, h2]⟩
  | selfClosedTag t as =>
    obtain ⟨h1, h2⟩ := strip_plain h.2.2
    exact .inr ⟨⟨h.1, h.2.1, h1⟩, by simp [stripEvent, ownEvent, h2]⟩
  | voidTag t as =>
    obtain ⟨h1, h2⟩ := strip_plain h.2.2
    exact .inr ⟨⟨h.1, h.2.1, h1⟩, by simp [stripEvent, ownEvent, h2]⟩
  | _ => exact .inr ⟨h, rfl⟩

theorem piece_render {e : Event} (h : Writable e) (hc : ¬ Confusing e) :
    Piece (ownEvent e) e.render := by
  rcases writable_spelled h with ⟨c, rfl⟩ | ⟨h1, h2⟩
  · change Piece (.data (.actual c.str)) c.render
    rw [render_str]
    exact .data h.1 h.2
  · exact h2 ▸ piece_spelled h1 hc

/-! ## Rendered lists -/

theorem closing_piece_tail {n : Identifier} {p : Str} (h : Piece (.closingTag n) p) :
    ∃ q, p = '<' :: q ∧ '<' ∉ q := by
  have hb : ∀ {w : Str}, Blank w → '<' ∉ w := fun hw h => absurd (hw _ h) (by decide)
  cases h with
  | @closing w1 w2 n w3 h1 h2 hn h3 _ =>
    refine ⟨_, rfl, ?_⟩
    have : '<' ∉ n := fun h => hn.2 _ h (by decide)
    simp [hb h1, hb h2, this, hb h3]
  | start _ _ _ _ _ _ _ hs => cases hs

/-- A closing tag that starts in `y` and is followed by markup lies in `y`. -/
theorem closesAt_within {t y r : Str} (hy : y ≠ []) (hr : r.head? = some '<')
    (h : ClosesAt t (y ++ r)) :
    ∃ m p q, y = p ++ q ∧ Piece (.closingTag m) p ∧ SameName m.str t := by
  obtain ⟨m, p, q, heq, hp, hm⟩ := h
  rcases List.append_eq_append_iff.1 heq with ⟨z, rfl, h2⟩ | ⟨z, rfl, h2⟩
  · cases z with
    | nil => exact ⟨m, y, [], by simp, by simpa using hp, hm⟩
    | cons c z =>
      exfalso
      obtain ⟨q', h1, h3⟩ := closing_piece_tail hp
      rw [h2] at hr
      simp only [List.cons_append, List.head?_cons, Option.some.injEq] at hr
      subst hr
      cases y with
      | nil => exact hy rfl
      | cons a y =>
        simp only [List.cons_append, List.cons.injEq] at h1
        apply h3
        rw [← h1.2]
        simp
  · exact ⟨m, p, z, rfl, hp, hm⟩

theorem canonical_reads {es : List Event} (h : Canonical es) (hc : ∀ e ∈ es, ¬ Confusing e) :
    ∃ d, Doc.text d = es.flatMap Event.render ∧ Doc.events d = es.map ownEvent ∧ Reads d [] ∧
      ((∀ c, es.head? ≠ some (.data c)) → ∀ x, (Doc.text d).head? = some x → x = '<') := by
  induction h with
  | nil => exact ⟨[], rfl, rfl, .nil, by simp [Doc.text]⟩
  | @plain e es hw hraw hdata _ ih =>
    obtain ⟨d, h1, h2, h3, h4⟩ := ih fun x hx => hc x (by simp [hx])
    have hp := piece_render hw (hc e (by simp))
    refine ⟨(ownEvent e, e.render) :: d, by simp [Doc.text, ← h1], by simp [Doc.events, ← h2],
      .plain hp ?_ ?_ h3, ?_⟩
    · rintro ⟨t, as, heq, ht⟩
      cases e <;> simp [ownEvent] at heq
      next t' as' =>
      refine hraw t' as' rfl ?_
      have : t'.str = t := by
        have := heq.1
        simp only [ownName_eq, owned, Identifier.mk.injEq, Deferred.actual.injEq] at this
        exact this
      rw [this]; exact ht
    · intro s c heq hhead
      cases e <;> simp [ownEvent] at heq
      next c' =>
      exact h4 (fun c'' => hdata c' c'' rfl) c (by simpa using hhead)
    · intro hhead x hx
      rcases piece_head hp with ⟨⟨s, hs⟩, -⟩ | ⟨-, h⟩
      · cases e <;> simp [ownEvent] at hs
        next c => exact absurd rfl (hhead c)
      · obtain ⟨a, r, har⟩ : ∃ a r, e.render = a :: r := by
          cases h5 : e.render with
          | nil => rw [h5] at h; cases h
          | cons a r => exact ⟨a, r, rfl⟩
        rw [har] at h
        simp only [Doc.text, List.flatMap_cons, har, List.cons_append, List.head?_cons,
          Option.some.injEq] at hx h
        rw [← hx, h]
  | @raw t as c n es hw ht hn hin _ ih =>
    obtain ⟨d, h1, h2, h3, h4⟩ := ih fun x hx => hc x (by
      rcases List.mem_cons.1 hx with rfl | hx <;> simp_all)
    have hp := piece_render hw (hc _ (by simp))
    have hd1 : (Doc.text d).head? = some '<' := by rw [h1]; rfl
    have hcl : ClosesAt t.str (Doc.text d ++ []) := by
      cases d with
      | nil => simp [Doc.events] at h2
      | cons x d =>
        obtain ⟨e, p⟩ := x
        have he : e = .closingTag (ownName n) := by simpa [Doc.events, ownEvent] using (List.cons.inj h2).1
        subst he
        refine ⟨ownName n, p, Doc.text d, by simp [Doc.text], ?_, hn⟩
        rcases reads_piece h3 (e := .closingTag (ownName n)) (p := p) (by simp) with h | h
        · exact h
        · cases h
    refine ⟨(ownEvent (.openingTag t as), (Event.openingTag t as).render) ::
      (.rawData (.actual c.str), c.str) :: d, ?_, ?_, .raw hp ⟨ownAttributes as, rfl, ht⟩ ?_ ?_
        (fun _ => hcl) h3, ?_⟩
    · have h5 : Doc.text ((ownEvent (.openingTag t as), (Event.openingTag t as).render) ::
          (.rawData (.actual c.str), c.str) :: d) =
          (Event.openingTag t as).render ++ (c.str ++ Doc.text d) := rfl
      rw [h5, h1, ← render_str]
      rfl
    · simp [Doc.events] at h2 ⊢
      rw [h2]
      simp [ownEvent, ownText]
    · intro x y hxy hy hclose
      obtain ⟨m, p, q, rfl, hp', hm⟩ := closesAt_within hy (by simpa using hd1) hclose
      exact hin x p q m (by rw [hxy]; simp) hp' hm
    · intro h
      simp only [List.append_nil] at h
      rw [h] at hd1
      cases hd1
    · intro _ x hx
      have h5 : Doc.text ((ownEvent (.openingTag t as), (Event.openingTag t as).render) ::
          (.rawData (.actual c.str), c.str) :: d) =
          '<' :: ((tagDisplay t as ++ ">".toList) ++ (c.str ++ Doc.text d)) := rfl
      rw [h5, List.head?_cons] at hx
      exact (Option.some.inj hx).symm

theorem nests_own {n : Nat} {es : List Event} (h : Nests n es) : Nests n (es.map ownEvent) := by
  induction h with
  | nil => exact .nil
  | @leaf n e es he _ ih =>
    refine .leaf ?_ ih
    cases e <;> first | exact he | trivial
  | @element n t as c inner es hc _ _ ih1 ih2 =>
    have := Nests.element (t := ownName t) (as := ownAttributes as) (c := ownName c) hc ih1 ih2
    simpa [ownEvent] using this

/-! ## Parsed lists -/

theorem tagTail_plain {as : Attributes} {sc : Bool} {t : Str} (h : TagTail as sc t) :
    PlainAttributes as ∧ ownAttributes as = as := by
  induction h with
  | «open» => exact ⟨by simp [PlainAttributes], rfl⟩
  | selfClose => exact ⟨by simp [PlainAttributes], rfl⟩
  | bare hn _ _ _ ih =>
    refine ⟨?_, ?_⟩
    · intro a ha
      rcases List.mem_cons.1 ha with rfl | ha
      · exact ⟨hn, by simp⟩
      · exact ih.1 a ha
    · simp only [ownAttributes, List.map_cons, List.cons.injEq]
      exact ⟨rfl, ih.2⟩
  | valued hn _ _ _ _ hv hq _ _ ih =>
    refine ⟨?_, ?_⟩
    · intro a ha
      rcases List.mem_cons.1 ha with rfl | ha
      · exact ⟨hn, by rintro v ⟨⟩; exact ⟨hv, hq⟩⟩
      · exact ih.1 a ha
    · simp only [ownAttributes, List.map_cons, List.cons.injEq]
      exact ⟨rfl, ih.2⟩

theorem piece_writable {e : Event} {p : Str} (h : Piece e p) : Writable e ∧ ownEvent e = e := by
  cases h with
  | data h1 h2 => exact ⟨⟨h1, h2⟩, rfl⟩
  | comment h => exact ⟨h, rfl⟩
  | doctype _ _ _ _ h _ => exact ⟨h, rfl⟩
  | closing _ _ hn _ _ => exact ⟨hn, rfl⟩
  | start _ hn _ _ ht _ _ hs =>
    obtain ⟨h1, h2⟩ := tagTail_plain ht
    cases hs with
    | void h => exact ⟨⟨hn, h, h1⟩, by simp only [ownEvent, h2]; rfl⟩
    | selfClosed h => exact ⟨⟨hn, h, h1⟩, by simp only [ownEvent, h2]; rfl⟩
    | opening h => exact ⟨⟨hn, h, h1⟩, by simp only [ownEvent, h2]; rfl⟩

theorem reads_canonical {d : Doc} {b : Str} (h : Reads d b) (hb : b = []) :
    ∀ {L a st}, Opens L a st d [] → Canonical (Doc.events d) := by
  induction h with
  | nil => intros; exact .nil
  | @plain e p d b hp hraw hdata hr ih =>
    intro L a st ho
    subst hb
    refine .plain (piece_writable hp).1 ?_ ?_ ?_
    · rintro t as rfl ht
      obtain ⟨w, rfl, -⟩ := piece_opening_name hp
      exact hraw ⟨w, as, rfl, ht⟩
    · rintro c c' rfl hhead
      cases d with
      | nil => simp at hhead
      | cons x d =>
        obtain ⟨e, q⟩ := x
        simp only [List.map_cons, List.head?_cons, Option.some.injEq] at hhead
        subst hhead
        rcases reads_piece hr (e := .data c') (p := q) (by simp) with h | h
        · rcases piece_head h with ⟨-, h5⟩ | ⟨h, -⟩
          · cases q with
            | nil => exact piece_ne_nil h rfl
            | cons y q =>
              have := hdata c y rfl (by simp [Doc.text])
              subst this
              exact h5 rfl
          · exact h ⟨c', rfl⟩
        · cases h
    · cases ho with
      | opening _ h => exact ih rfl h
      | closing _ h => exact ih rfl h
      | leaf _ h => exact ih rfl h
  | rawStart hp hraw =>
    intro L a st ho
    obtain ⟨as, rfl, ht⟩ := hraw
    cases ho with
    | opening _ h => cases h
    | leaf h => cases h
  | @raw e p t c d b hp hraw hin hne hclose hr ih =>
    intro L a st ho
    subst hb
    have hrp := reads_rawPlaced (.raw hp hraw hin hne hclose hr) rfl ho
    obtain ⟨as, rfl, ht⟩ := hraw
    simp only [Doc.events, List.map_cons] at hrp ⊢
    obtain ⟨x, n, post, h1, h2⟩ := rawPlaced_opening hrp (pre := []) rfl ht
    simp only [List.cons.injEq, Event.rawData.injEq] at h1
    obtain ⟨rfl, h1⟩ := h1
    have hcan : Canonical (List.map Prod.fst d) := by
      cases ho with
      | leaf h => cases h
      | opening _ h =>
        cases h with
        | leaf _ h => exact ih rfl h
    rw [h1] at hcan ⊢
    refine .raw (piece_writable hp).1 ht h2 ?_ hcan
    rintro x p y m hxy hp' hm
    refine hin x (p ++ y) ?_ ?_ ⟨m, p, _, by rw [List.append_assoc], hp', hm⟩
    · simpa [Deferred.str] using hxy
    · simp [piece_ne_nil hp']

/-! ## Confusing tags are not read back -/

theorem sameLetter_bang {c : Char} (h : SameLetter c '!') : c = '!' := by
  rcases h with h | ⟨h, -, h'⟩ | ⟨h, -⟩
  · exact h
  · have hc : c.toNat = 1 := by
      have : c.toNat + 32 = 33 := h'.symm
      omega
    have : c = Char.ofNat 1 := by rw [← hc, Char.ofNat_toNat]
    subst this
    exact absurd h (by decide)
  · exact absurd h (by decide)

theorem start_confusing {t : Identifier} {as : Attributes} {sc : Bool} {lead T : Str}
    (hp : PlainAttributes as) (hd : LooksLikeDirective t as) (hl : Blank lead)
    (hT : TagTail [] sc T) (hE : Ends (lead ++ T)) (rest : Str) :
    CommentStart ("<".toList ++ tagDisplay t as ++ (lead ++ T) ++ rest) ∨
    DoctypeStart ("<".toList ++ tagDisplay t as ++ (lead ++ T) ++ rest) := by
  obtain ⟨w, r, heq, hw, hends, htt, -, hfirst, -⟩ := tail_render hl hT hE (strip_plain hp).1
  have heq' : "<".toList ++ tagDisplay t as ++ (lead ++ T) ++ rest =
      '<' :: t.str ++ w ++ r ++ rest := by
    simp only [tagDisplay, ident_render]
    rw [List.append_assoc _ w r, ← heq]
    simp
  rw [heq']
  rcases hd with ⟨x, hx⟩ | hd | ⟨h1, a, h2, h3⟩
  · refine .inl ⟨x ++ w ++ r ++ rest, ?_⟩
    rw [← hx]
    simp
  · right
    generalize ht : t.str = n at hd
    cases n with
    | nil => cases hd
    | cons c d =>
      cases hd with
      | cons h1 h2 =>
        have hc : c = '!' := sameLetter_bang h1
        subst hc
        exact ⟨[], d, w ++ r ++ rest, by simp, blank_nil, h2,
          by have := hends.append (b := rest) (by simp [htt.ne_nil]); simpa using this⟩
  · right
    cases as with
    | nil => cases h2
    | cons b bs =>
      cases h2
      obtain ⟨rfl, r', rfl, hr'⟩ := hfirst a bs rfl
      refine ⟨[' '], a.name.str, r' ++ rest, by simp [h1], blank_space, h3, ?_⟩
      refine hr'.append ?_
      rintro rfl
      have hg := htt.gt
      rw [List.append_nil] at hg
      exact (hp a (by simp)).1.2 _ hg (by decide)

theorem confusing_start {e : Event} (hw : Writable e) (hc : Confusing e) (rest : Str) :
    CommentStart (e.render ++ rest) ∨ DoctypeStart (e.render ++ rest) := by
  cases e with
  | openingTag t as =>
    exact start_confusing (lead := []) (T := ['>']) hw.2.2 hc blank_nil .open
      (ends_char (by decide)) rest
  | voidTag t as =>
    exact start_confusing (lead := []) (T := ['>']) hw.2.2 hc blank_nil .open
      (ends_char (by decide)) rest
  | selfClosedTag t as =>
    exact start_confusing (lead := [' ']) (T := ['/', '>']) hw.2.2 hc blank_space
      (.selfClose (w := []) blank_nil) (ends_char (by decide)) rest
  | _ => cases hc

theorem piece_not_confusing {e : Event} {p r : Str} (h : Piece e p) (hc : Confusing e) :
    ¬ CommentStart (p ++ r) ∧ ¬ DoctypeStart (p ++ r) := by
  cases h with
  | @start w₁ n w₂ as sc q e _ _ _ _ ht h1 h2 hs =>
    have hg : '>' ∈ '<' :: w₁ ++ n ++ w₂ ++ q := List.mem_append_right _ ht.gt
    rw [commentStart_append hg, doctypeStart_append hg]
    exact ⟨h1, h2⟩
  | _ => cases hc

/-- A document whose pieces are the rendered events has no confusing tags. -/
theorem rendered_not_confusing {d : Doc} (hd : ∀ x ∈ d, Piece x.1 x.2 ∨ x.1 = .rawData (.actual x.2))
    (h : Doc.text d = (Doc.events d).flatMap Event.render) : ∀ e ∈ Doc.events d, ¬ Confusing e := by
  induction d with
  | nil => intro e he; cases he
  | cons x d ih =>
    obtain ⟨e, p⟩ := x
    have hx : Piece e p ∨ e = .rawData (.actual p) := hd (e, p) (by simp)
    have h' : p ++ Doc.text d = e.render ++ (Doc.events d).flatMap Event.render := by
      simpa [Doc.text, Doc.events] using h
    have hnc : ¬ Confusing e := by
      intro hc
      rcases hx with hx | hx
      · have h1 := piece_not_confusing (r := Doc.text d) hx hc
        rw [h'] at h1
        rcases confusing_start (piece_writable hx).1 hc ((Doc.events d).flatMap Event.render) with h | h
        · exact h1.1 h
        · exact h1.2 h
      · subst hx
        cases hc
    have hp : p = e.render := by
      rcases hx with hx | hx
      · by_cases hdat : ∃ s, e = .data s
        · obtain ⟨s, rfl⟩ := hdat
          cases hx with
          | data => rfl
          | start _ _ _ _ _ _ _ hs => cases hs
        · obtain ⟨h1, h2⟩ := piece_writable hx
          have h3 := piece_render h1 hnc
          rw [h2] at h3
          exact (piece_unique hx h3 h' (fun s c h _ => absurd ⟨s, h⟩ hdat)
            (fun s c h _ => absurd ⟨s, h⟩ hdat)).2.1
      · subst hx
        rfl
    rw [hp] at h'
    intro e' he'
    rcases List.mem_cons.1 he' with rfl | he'
    · exact hnc
    · exact ih (fun x hx => hd x (by simp [hx])) (List.append_cancel_left h') e' he'

end Fuser
