import Verif.Proof.Lex

/-!
# Comments, doctypes, data and raw text
-/

namespace Fuser
open Spec

/-! ## Comments -/

theorem cutStr_iff {pat s a b : Str} (hp : pat ≠ []) : P.cutStr pat s = some (a, b) ↔
    s = a ++ b ∧ pat <+: b ∧ ∀ x y, a = x ++ y → y ≠ [] → ¬ pat <+: y ++ b := by
  induction s generalizing a with
  | nil =>
    unfold P.cutStr
    have : pat.isEmpty = false := by simpa using hp
    simp only [this]
    constructor
    · intro h; cases h
    · rintro ⟨h1, h2, -⟩
      have hb : b = [] := (List.append_eq_nil_iff.1 h1.symm).2
      rw [hb, List.prefix_nil] at h2
      exact absurd h2 hp
  | cons c s ih =>
    unfold P.cutStr
    by_cases h : pat.isPrefixOf (c :: s) = true
    · rw [if_pos h]
      rw [List.isPrefixOf_iff_prefix] at h
      constructor
      · intro h'
        cases h'
        exact ⟨rfl, h, fun x y hxy hy => absurd (List.append_eq_nil_iff.1 hxy.symm).2 hy⟩
      · rintro ⟨h1, h2, h3⟩
        cases a with
        | nil => rw [h1]; rfl
        | cons d a =>
          refine absurd ?_ (h3 [] (d :: a) rfl (by simp))
          rw [← h1]; exact h
    · rw [if_neg h]
      rw [List.isPrefixOf_iff_prefix] at h
      constructor
      · intro h'
        cases hc : P.cutStr pat s with
        | none => simp [hc] at h'
        | some q =>
          obtain ⟨a', b'⟩ := q
          rw [hc] at h'
          simp only [Option.map_some, Option.some.injEq, Prod.mk.injEq] at h'
          obtain ⟨rfl, rfl⟩ := h'
          obtain ⟨h1, h2, h3⟩ := ih.1 hc
          refine ⟨by rw [h1]; rfl, h2, ?_⟩
          intro x y hxy hy
          cases x with
          | nil =>
            simp only [List.nil_append] at hxy
            rw [← hxy, List.cons_append, ← h1]
            exact h
          | cons d x =>
            simp only [List.cons_append, List.cons.injEq] at hxy
            exact h3 x y hxy.2 hy
      · rintro ⟨h1, h2, h3⟩
        cases a with
        | nil =>
          simp only [List.nil_append] at h1
          rw [← h1] at h2
          exact absurd h2 h
        | cons d a =>
          simp only [List.cons_append, List.cons.injEq] at h1
          rw [ih.2 ⟨h1.2, h2, fun x y hxy hy => h3 (d :: x) y (by rw [hxy]; rfl) hy⟩, h1.1]
          rfl

theorem cutStr_none {pat s : Str} (hp : pat ≠ []) : P.cutStr pat s = none ↔ ¬ pat <:+: s := by
  induction s with
  | nil =>
    unfold P.cutStr
    have : pat.isEmpty = false := by simpa using hp
    simp [this, hp]
  | cons c s ih =>
    unfold P.cutStr
    by_cases h : pat.isPrefixOf (c :: s) = true
    · rw [if_pos h]
      rw [List.isPrefixOf_iff_prefix] at h
      simp [h.isInfix]
    · rw [if_neg h]
      rw [List.isPrefixOf_iff_prefix] at h
      rw [Option.map_eq_none_iff, ih, List.infix_cons_iff]
      simp [h]

/-- The end of a comment cannot overlap its content. -/
theorem comment_end {a r : Str} :
    (∀ x y, a = x ++ y → y ≠ [] → ¬ "-->".toList <+: y ++ ("-->".toList ++ r)) ↔
    ¬ "-->".toList <:+: a := by
  constructor
  · rintro h ⟨x, y, hxy⟩
    refine h x ("-->".toList ++ y) (by rw [← hxy]; simp) (by simp) ?_
    exact ⟨y ++ ("-->".toList ++ r), by simp⟩
  · rintro h x y rfl hy ⟨t, ht⟩
    apply h
    match y, hy with
    | [c1], _ => simp at ht
    | [c1, c2], _ => simp at ht
    | c1 :: c2 :: c3 :: y, _ =>
      simp at ht
      obtain ⟨rfl, rfl, rfl, -⟩ := ht
      exact ⟨x, y, by simp⟩

theorem comment_iff {i : Input} {p : Parsed} : P.comment i = some (.ok p) ↔
    ∃ s j, ¬ "-->".toList <:+: s ∧ Eats i ("<!--".toList ++ s ++ "-->".toList) j ∧
      p = ⟨.comment (.actual s), i.location, .data, j⟩ := by
  unfold P.comment
  constructor
  · intro h
    cases h1 : P.str "<!--".toList i with
    | none => rw [h1] at h; cases h
    | some i1 =>
      simp only [h1] at h
      rw [str_iff] at h1
      cases h2 : P.untilStr "-->".toList i1 with
      | none => rw [h2] at h; cases h
      | some q =>
        obtain ⟨s, i2⟩ := q
        simp only [h2, Option.some.injEq, Except.ok.injEq] at h
        unfold P.untilStr at h2
        cases h3 : P.cutStr "-->".toList i1.content with
        | none => rw [h3] at h2; cases h2
        | some q =>
          obtain ⟨a, b⟩ := q
          rw [h3] at h2
          simp only [Option.map_some, Option.some.injEq, Prod.mk.injEq] at h2
          obtain ⟨rfl, rfl⟩ := h2
          obtain ⟨h4, ⟨r, rfl⟩, h6⟩ := (cutStr_iff (by simp)).1 h3
          refine ⟨a, _, comment_end.1 h6, ?_, h.symm⟩
          refine (h1.trans (Eats.of h4)).trans (Eats.of ?_)
          simp [Input.after]
  · rintro ⟨s, j, hs, he, rfl⟩
    obtain ⟨i2, he, e3⟩ := he.split
    obtain ⟨i1, e1, e2⟩ := he.split
    rw [str_iff.2 e1]
    simp only
    have : P.untilStr "-->".toList i1 = some (s, i2) := by
      unfold P.untilStr
      rw [(cutStr_iff (a := s) (b := i2.content) (by simp)).2
        ⟨e2.1, ⟨j.content, e3.1.symm⟩, by rw [e3.1]; exact comment_end.2 hs⟩]
      rw [Option.map_some]
      simp only
      rw [← e2.2]
    rw [this]
    simp only
    have : i2.content.drop 3 = j.content := by rw [e3.1]; rfl
    rw [this, ← e3.2]
    rfl

theorem comment_none {i : Input} : P.comment i = none ↔ ¬ CommentStart i.content := by
  unfold P.comment CommentStart
  rw [← str_none]
  cases P.str "<!--".toList i with
  | none => simp
  | some j =>
    simp only
    cases P.untilStr "-->".toList j <;> simp

/-! ## Doctypes -/

theorem sameLetter_lower {c d : Char} (h : SameLetter c d) (hd : 'a' ≤ d ∧ d ≤ 'z') :
    c.toNat < 128 ∧ ¬ Space c ∧ c ∉ forbidden ∧ c ∉ terminators := by
  have hv : (97 ≤ d.toNat ∧ d.toNat ≤ 122) := ⟨hd.1, hd.2⟩
  have hc : (65 ≤ c.toNat ∧ c.toNat ≤ 90) ∨ (97 ≤ c.toNat ∧ c.toNat ≤ 122) := by
    rcases h with rfl | ⟨h1, h2, -⟩ | ⟨h1, h2, -⟩
    · exact .inr hv
    · exact .inl ⟨h1, h2⟩
    · have : d.toNat ≤ 90 := h2
      omega
  have hne : ∀ l : List Char, (∀ x ∈ l, x.toNat < 65 ∨ 122 < x.toNat ∨ (90 < x.toNat ∧ x.toNat < 97)) →
      c ∉ l := by
    intro l hl hcl
    have := hl c hcl
    omega
  refine ⟨by omega, ?_, hne _ (by decide), hne _ (by decide)⟩
  have : ∀ n ∈ spaceCodes, n < 65 ∨ 122 < n := by decide
  intro hs
  have := this _ hs
  omega

theorem sameName_lower {a b : Str} (h : SameName a b) (hb : b ≠ [])
    (hl : ∀ c ∈ b, 'a' ≤ c ∧ c ≤ 'z') : Name a := by
  have key : ∀ c ∈ a, c.toNat < 128 ∧ ¬ Space c ∧ c ∉ forbidden ∧ c ∉ terminators := by
    clear hb
    induction h with
    | nil => simp
    | cons hd _ ih =>
      intro c hc
      rcases List.mem_cons.1 hc with rfl | hc
      · exact sameLetter_lower hd (hl _ List.mem_cons_self)
      · exact ih (fun c hc => hl c (List.mem_cons_of_mem _ hc)) c hc
  refine ⟨⟨?_, fun c hc => (key c hc).1, fun c hc => (key c hc).2.1, fun c hc => (key c hc).2.2.1⟩,
    fun c hc => (key c hc).2.2.2⟩
  rintro rfl
  cases h
  exact hb rfl

theorem doctype_name {d : Str} (h : SameName d "doctype".toList) : Name d :=
  sameName_lower h (by simp) (by decide)

theorem html_name {d : Str} (h : SameName d "html".toList) : Name d :=
  sameName_lower h (by simp) (by decide)

theorem ascii_doctype : Ascii "doctype".toList := by rw [← isAscii_iff']; decide
theorem ascii_html : Ascii "html".toList := by rw [← isAscii_iff']; decide

theorem exact_iff {i j : Input} {n : Identifier} :
    P.exact "doctype".toList i = some (n, j) ↔
    ∃ d, n = owned d ∧ SameName d "doctype".toList ∧ Eats i d j ∧ Ends j.content := by
  have hpi : P.exact "doctype".toList i = some (n, j) ↔
      P.ident i = .ok (some (n, j)) ∧ identifierEq n.str "doctype".toList = true := by
    unfold P.exact P.ident
    cases P.word i with
    | none => simp
    | some q =>
      simp only
      cases validate q.1 with
      | error e => simp
      | ok v =>
        simp only
        by_cases hq : identifierEq q.1 "doctype".toList = true
        · rw [if_pos hq]
          constructor
          · intro h; cases h; exact ⟨rfl, hq⟩
          · rintro ⟨h, -⟩; cases h; rfl
        · rw [if_neg hq]
          constructor
          · intro h; cases h
          · rintro ⟨h, h'⟩; cases h; exact absurd h' hq
  rw [hpi, ident_iff]
  constructor
  · rintro ⟨⟨w, rfl, hn, he, hends⟩, h⟩
    exact ⟨w, rfl, (identifierEq_right ascii_doctype).1 h, he, hends⟩
  · rintro ⟨d, rfl, hd, he, hends⟩
    exact ⟨⟨d, rfl, doctype_name hd, he, hends⟩, (identifierEq_right ascii_doctype).2 hd⟩

theorem exact_none {i : Input} : P.exact "doctype".toList i = none ↔
    ¬ ∃ d r, i.content = d ++ r ∧ SameName d "doctype".toList ∧ Ends r := by
  constructor
  · rintro h ⟨d, r, h1, h2, h3⟩
    have := exact_iff.2 ⟨d, rfl, h2, Eats.of h1, h3⟩
    rw [h] at this
    cases this
  · intro h
    cases he : P.exact "doctype".toList i with
    | none => rfl
    | some q =>
      obtain ⟨n, j⟩ := q
      obtain ⟨d, -, hd, e, hends⟩ := exact_iff.1 he
      exact absurd ⟨d, _, e.1, hd, hends⟩ h

theorem doctype_none {i : Input} : P.doctype i = none ↔ ¬ DoctypeStart i.content := by
  have h1 : P.doctype i = none ↔ ∀ j, P.str "<!".toList i = some j →
      P.exact "doctype".toList (P.ws j) = none := by
    unfold P.doctype
    cases P.str "<!".toList i with
    | none => simp
    | some j =>
      simp only [Option.some.injEq, forall_eq']
      cases P.exact "doctype".toList (P.ws j) with
      | none => simp
      | some q =>
        simp only
        cases P.untilChar '>' (P.ws q.2) with
        | none => simp
        | some q =>
          simp only
          split <;> simp
  rw [h1]
  constructor
  · rintro h ⟨w, d, r, h2, hw, hd, hr⟩
    have e : Eats i "<!".toList (i.after "<!".toList (w ++ (d ++ r))) :=
      Eats.of (by rw [h2]; simp)
    have := h _ (str_iff.2 e)
    have e2 : Eats (i.after "<!".toList (w ++ (d ++ r))) w
      ((i.after "<!".toList (w ++ (d ++ r))).after w (d ++ r)) := Eats.of rfl
    rw [ws_of e2 hw (by exact (doctype_name hd).tight), exact_none] at this
    exact this ⟨d, r, rfl, hd, hr⟩
  · intro h j hj
    rw [str_iff] at hj
    obtain ⟨w, hw, e, -⟩ := ws_spec j
    rw [exact_none]
    rintro ⟨d, r, h2, hd, hr⟩
    exact h ⟨w, d, r, by rw [hj.1, e.1, h2]; simp, hw, hd, hr⟩

theorem trim_spec (s : Str) : ∃ a b, Blank a ∧ Blank b ∧ s = a ++ trim s ++ b ∧
    Tight (trim s) ∧ Tight (trim s).reverse := by
  unfold trim trimLeft
  refine ⟨s.takeWhile isWhitespace,
    ((s.dropWhile isWhitespace).reverse.takeWhile isWhitespace).reverse, ?_, ?_, ?_, ?_, ?_⟩
  · exact fun c hc => isWhitespace_iff.1 (takeWhile_forall c hc)
  · exact fun c hc => isWhitespace_iff.1 (takeWhile_forall c (List.mem_reverse.1 hc))
  · have h1 : (s.dropWhile isWhitespace).reverse.takeWhile isWhitespace ++
        (s.dropWhile isWhitespace).reverse.dropWhile isWhitespace =
        (s.dropWhile isWhitespace).reverse := List.takeWhile_append_dropWhile
    have h2 := congrArg List.reverse h1
    rw [List.reverse_append, List.reverse_reverse] at h2
    rw [List.append_assoc, h2]
    exact List.takeWhile_append_dropWhile.symm
  · intro c hc
    have hsuf : ((s.dropWhile isWhitespace).reverse.dropWhile isWhitespace).reverse <+:
        s.dropWhile isWhitespace := by
      have := List.dropWhile_suffix isWhitespace (l := (s.dropWhile isWhitespace).reverse)
      have := List.reverse_prefix.2 this
      rwa [List.reverse_reverse] at this
    obtain ⟨t, ht⟩ := hsuf
    cases hd : s.dropWhile isWhitespace with
    | nil => rw [hd] at hc; simp at hc
    | cons d r =>
      have hd' := dropWhile_cons hd
      cases hx : ((s.dropWhile isWhitespace).reverse.dropWhile isWhitespace).reverse with
      | nil => rw [hx] at hc; cases hc
      | cons x xs =>
        rw [hx] at hc ht
        cases hc
        rw [hd] at ht
        cases ht
        exact isWhitespace_false.1 hd'
  · rw [List.reverse_reverse]
    intro c hc
    cases hd : (s.dropWhile isWhitespace).reverse.dropWhile isWhitespace with
    | nil => rw [hd] at hc; cases hc
    | cons d r =>
      rw [hd] at hc
      cases hc
      exact isWhitespace_false.1 (dropWhile_cons hd)

theorem trim_of {c w : Str} (hc : ∀ x ∈ c, ¬ Space x) (hw : Blank w) (hn : c ≠ []) :
    trim (c ++ w) = c := by
  unfold trim trimLeft
  have h1 := takeWhile_stop (p := isWhitespace) (a := []) (b := c ++ w) (by simp) (by
    intro x hx
    obtain ⟨y, ys, rfl⟩ := List.exists_cons_of_ne_nil hn
    cases hx
    exact isWhitespace_false.2 (hc _ List.mem_cons_self))
  simp only [List.nil_append] at h1
  rw [h1.2, List.reverse_append]
  have h2 := takeWhile_stop (p := isWhitespace) (a := w.reverse) (b := c.reverse)
    (fun x hx => isWhitespace_iff.2 (hw x (List.mem_reverse.1 hx))) (by
    intro x hx
    exact isWhitespace_false.2 (hc x (List.mem_reverse.1 (List.mem_of_mem_head? (by simpa using hx)))))
  rw [h2.2, List.reverse_reverse]

theorem doctype_iff {i : Input} {p : Parsed} : P.doctype i = some (.ok p) ↔
    ∃ w₁ d w₂ c w₃ j, Blank w₁ ∧ SameName d "doctype".toList ∧ Blank w₂ ∧ Ends (w₂ ++ c) ∧
      SameName c "html".toList ∧ Blank w₃ ∧
      Eats i ("<!".toList ++ w₁ ++ d ++ w₂ ++ c ++ w₃ ++ ['>']) j ∧
      p = ⟨.doctype (.actual c), i.location, .data, j⟩ := by
  unfold P.doctype
  constructor
  · intro h
    cases h1 : P.str "<!".toList i with
    | none => rw [h1] at h; cases h
    | some i1 =>
      simp only [h1] at h
      rw [str_iff] at h1
      obtain ⟨w1, hw1, e1, -⟩ := ws_spec i1
      cases h2 : P.exact "doctype".toList (P.ws i1) with
      | none => rw [h2] at h; cases h
      | some q =>
        obtain ⟨n, i2⟩ := q
        obtain ⟨d, -, hd, e2, hends⟩ := exact_iff.1 h2
        simp only [h2] at h
        obtain ⟨w2, hw2, e3, ht3⟩ := ws_spec i2
        cases h3 : P.untilChar '>' (P.ws i2) with
        | none => rw [h3] at h; cases h
        | some q =>
          obtain ⟨v, i3⟩ := q
          obtain ⟨e4, hv, hhd⟩ := untilChar_iff.1 h3
          simp only [h3] at h
          split at h
          · next hi =>
            simp only [Option.some.injEq, Except.ok.injEq] at h
            have hhtml := (identifierEq_right ascii_html).1 hi
            obtain ⟨a, b, ha, hb, hab, -, -⟩ := trim_spec v
            have hne := (html_name hhtml).ne_nil
            have ha' : a = [] := by
              cases a with
              | nil => rfl
              | cons x a =>
                exfalso
                refine ht3 x ?_ (ha x List.mem_cons_self)
                rw [e4.1, hab]
                rfl
            rw [ha', List.nil_append] at hab
            refine ⟨w1, d, w2, trim v, b, _, hw1, hd, hw2, ?_, hhtml, hb, ?_, h.symm⟩
            · rw [e3.1, e4.1, hab, List.append_assoc, ← List.append_assoc] at hends
              exact hends.of_append (by simp [hne])
            · have e5 : Eats i3 ['>'] (i3.after ['>'] i3.content.tail) := by
                refine Eats.of ?_
                cases hi : i3.content with
                | nil => rw [hi] at hhd; cases hhd
                | cons d r => rw [hi] at hhd; cases hhd; rfl
              have := ((((h1.trans e1).trans e2).trans e3).trans e4).trans e5
              rw [hab] at this
              simpa using this
          · cases h
  · rintro ⟨w1, d, w2, c, w3, j, hw1, hd, hw2, hends, hc, hw3, he, rfl⟩
    have he' : Eats i ("<!".toList ++ (w1 ++ (d ++ (w2 ++ ((c ++ w3) ++ ['>']))))) j := by
      simpa using he
    obtain ⟨i1, e1, he'⟩ := he'.split
    obtain ⟨i2, e2, he'⟩ := he'.split
    obtain ⟨i3, e3, he'⟩ := he'.split
    obtain ⟨i4, e4, he'⟩ := he'.split
    obtain ⟨i5, e5, e6⟩ := he'.split
    have hcn := html_name hc
    rw [str_iff.2 e1]
    simp only
    rw [ws_of e2 hw1 (by rw [e3.1]; exact (doctype_name hd).tight)]
    rw [exact_iff.2 ⟨d, rfl, hd, e3, by
      rw [e4.1, e5.1, List.append_assoc, ← List.append_assoc]
      exact hends.append (by simp [hcn.ne_nil])⟩]
    simp only
    rw [ws_of e4 hw2 (by rw [e5.1, List.append_assoc]; exact hcn.tight)]
    have hgt : '>' ∉ c ++ w3 := by
      intro hm
      rcases List.mem_append.1 hm with hm | hm
      · exact hcn.2 _ hm (by decide)
      · exact absurd (hw3 _ hm) (by decide)
    rw [untilChar_iff.2 ⟨e5, hgt, by rw [e6.1]; rfl⟩]
    simp only
    rw [trim_of hcn.1.2.2.1 hw3 hcn.ne_nil, if_pos ((identifierEq_right ascii_html).2 hc)]
    have : i5.content.tail = j.content := by rw [e6.1]; rfl
    rw [this, ← e6.2]
    rfl

/-! ## Data -/

theorem data_iff {i : Input} {p : Parsed} : P.data i = some (.ok p) ↔
    ∃ s j, s ≠ [] ∧ '<' ∉ s ∧ Eats i s j ∧ (∀ c, j.content.head? = some c → c = '<') ∧
      p = ⟨.data (.actual s), i.location, .data, j⟩ := by
  unfold P.data
  simp only
  constructor
  · intro h
    split at h
    · cases h
    · next hne =>
      simp only [Option.some.injEq, Except.ok.injEq] at h
      cases h1 : P.untilChar '<' i with
      | none =>
        simp only [h1, Option.getD_none] at h hne
        refine ⟨i.content, i.after i.content [], hne, untilChar_none h1, Eats.of (by simp), ?_, h.symm⟩
        intro c hc
        cases hc
      | some q =>
        obtain ⟨s, j⟩ := q
        simp only [h1, Option.getD_some] at h hne
        obtain ⟨e, hs, hhd⟩ := untilChar_iff.1 h1
        refine ⟨s, j, hne, hs, e, ?_, h.symm⟩
        intro c hc
        rw [hhd] at hc
        cases hc; rfl
  · rintro ⟨s, j, hne, hs, e, hhd, rfl⟩
    have : (P.untilChar '<' i).getD (P.all i) = (s, j) := by
      cases hj : j.content with
      | nil =>
        have hc : '<' ∉ i.content := by rw [e.1, hj]; simpa using hs
        have : P.untilChar '<' i = none := by unfold P.untilChar; rw [if_neg hc]
        rw [this, Option.getD_none]
        unfold P.all
        have hi : i.content = s := by rw [e.1, hj, List.append_nil]
        rw [hi, e.2, hj]
      | cons c r =>
        have := hhd c (by rw [hj]; rfl)
        subst this
        rw [untilChar_iff.2 ⟨e, hs, by rw [hj]; rfl⟩]
        rfl
    rw [this]
    simp only [if_neg hne]
    rfl

/-! ## Putting it together -/

theorem prefix_of_gt {p r q : Str} (hp : '>' ∈ p) (hq : '>' ∉ q) (h : q <+: p ++ r) : q <+: p := by
  obtain ⟨t, ht⟩ := h
  rcases List.append_eq_append_iff.1 ht with ⟨a, h1, h2⟩ | ⟨a, h1, h2⟩
  · exact ⟨a, h1.symm⟩
  · rw [h1] at hq
    exact absurd (List.mem_append_left _ hp) hq

theorem commentStart_append {p r : Str} (hp : '>' ∈ p) :
    CommentStart (p ++ r) ↔ CommentStart p := by
  constructor
  · exact fun h => prefix_of_gt hp (by decide) h
  · rintro ⟨t, ht⟩
    exact ⟨t ++ r, by rw [← ht]; simp⟩

theorem Spec.Blank.no_gt {w : Str} (h : Blank w) : '>' ∉ w := fun hm => absurd (h _ hm) (by decide)

theorem doctypeStart_append {p r : Str} (hp : '>' ∈ p) :
    DoctypeStart (p ++ r) ↔ DoctypeStart p := by
  constructor
  · rintro ⟨w, d, x, h1, hw, hd, hx⟩
    have hq : '>' ∉ "<!".toList ++ w ++ d := by
      simp only [List.mem_append, not_or]
      exact ⟨⟨by decide, hw.no_gt⟩, fun hm => (doctype_name hd).2 _ hm (by decide)⟩
    obtain ⟨y, hy⟩ := prefix_of_gt hp hq ⟨x, h1.symm⟩
    refine ⟨w, d, y, hy.symm, hw, hd, ?_⟩
    rw [← hy, List.append_assoc] at h1
    have hyx := List.append_cancel_left h1
    cases y with
    | nil => intro c hc; cases hc
    | cons c y =>
      rw [← hyx] at hx
      exact hx.of_append (by simp)
  · rintro ⟨w, d, x, rfl, hw, hd, hx⟩
    refine ⟨w, d, x ++ r, by simp, hw, hd, hx.append ?_⟩
    rintro rfl
    simp only [List.append_nil, List.mem_append] at hp
    rcases hp with (hp | hp) | hp
    · simp at hp
    · exact hw.no_gt hp
    · exact (doctype_name hd).2 _ hp (by decide)

theorem not_comment_of {s : Str} (h : ∀ c r, s = '<' :: c :: r → c ≠ '!') :
    ¬ CommentStart s ∧ ¬ DoctypeStart s := by
  constructor
  · rintro ⟨t, ht⟩
    exact h '!' _ ht.symm rfl
  · rintro ⟨w, d, x, h1, -⟩
    exact h '!' _ h1 rfl

theorem piece_ne_nil {e : Event} {p : Str} (h : Piece e p) : p ≠ [] := by
  cases h <;> simp_all

/-- Data starts no markup; everything else starts with `<`. -/
theorem piece_head {e : Event} {p : Str} (h : Piece e p) :
    (∃ s, e = .data s) ∧ p.head? ≠ some '<' ∨ (¬ ∃ s, e = .data s) ∧ p.head? = some '<' := by
  cases h with
  | @data s h1 h2 =>
    refine .inl ⟨⟨_, rfl⟩, fun h => h2 (List.mem_of_mem_head? (by simpa using h))⟩
  | comment => exact .inr ⟨by simp, rfl⟩
  | doctype => exact .inr ⟨by simp, rfl⟩
  | closing => exact .inr ⟨by simp, rfl⟩
  | start _ _ _ _ _ _ _ hs => cases hs <;> exact .inr ⟨by simp, rfl⟩

theorem tagClose_none_of {i : Input} (h : ∀ w r, i.content = '<' :: w ++ '/' :: r → ¬ Blank w) :
    P.tagClose i = none := by
  unfold P.tagClose
  cases h1 : P.char '<' i with
  | none => rfl
  | some i1 =>
    simp only
    obtain ⟨w, hw, e, -⟩ := ws_spec i1
    cases h2 : P.char '/' (P.ws i1) with
    | none => rfl
    | some i2 =>
      rw [char_iff] at h1 h2
      have := (h1.trans e).trans h2
      refine absurd hw (h w i2.content ?_)
      rw [this.1]
      simp

theorem tagOpen_none {i : Input} : P.tagOpen i = none ↔ i.content.head? ≠ some '<' := by
  rw [← char_none]
  unfold P.tagOpen
  cases P.char '<' i with
  | none => simp
  | some j =>
    simp only
    cases P.ident (P.ws j) with
    | error e => simp
    | ok o =>
      cases o with
      | none => simp
      | some q =>
        simp only
        cases P.attrs q.1.str (P.ws (P.ws q.2)) with
        | error e => simp
        | ok q' =>
          simp only
          cases P.char '>' (P.slash (P.ws q'.2)).2 <;> simp

theorem dataMode_iff {i : Input} {p : Parsed} : P.dataMode i = .ok p ↔
    ∃ e s j, Piece e s ∧ Eats i s j ∧
      (∀ x, e = .data x → ∀ c, j.content.head? = some c → c = '<') ∧
      p = ⟨e, i.location, modeAfter e, j⟩ := by
  constructor
  · intro h
    unfold P.dataMode at h
    cases h1 : P.comment i with
    | some r =>
      rw [h1] at h
      change r = .ok p at h
      rw [h] at h1
      obtain ⟨s, j, hs, he, rfl⟩ := comment_iff.1 h1
      exact ⟨_, _, j, .comment hs, he, by simp, rfl⟩
    | none =>
      rw [h1] at h
      cases h2 : P.doctype i with
      | some r =>
        rw [h2] at h
        change r = .ok p at h
        rw [h] at h2
        obtain ⟨w1, d, w2, c, w3, j, hw1, hd, hw2, hends, hc, hw3, he, rfl⟩ := doctype_iff.1 h2
        exact ⟨_, _, j, .doctype hw1 hd hw2 hends hc hw3, he, by simp, rfl⟩
      | none =>
        rw [h2] at h
        cases h3 : P.tagClose i with
        | some r =>
          rw [h3] at h
          change r = .ok p at h
          rw [h] at h3
          obtain ⟨n, s, j, hs, he, rfl⟩ := tagClose_iff.1 h3
          exact ⟨_, _, j, hs, he, by simp, rfl⟩
        | none =>
          rw [h3] at h
          cases h4 : P.tagOpen i with
          | some r =>
            rw [h4] at h
            change r = .ok p at h
            rw [h] at h4
            obtain ⟨e, s, j, ⟨w1, n, w2, as, sc, r, hw1, hn, hw2, hends, htt, hs, rfl⟩, he, rfl⟩ :=
              tagOpen_iff.1 h4
            have hgt : '>' ∈ '<' :: w1 ++ n ++ w2 ++ r := by simp [htt.gt]
            rw [comment_none, he.1, commentStart_append hgt] at h1
            rw [doctype_none, he.1, doctypeStart_append hgt] at h2
            refine ⟨e, _, j, .start hw1 hn hw2 hends htt h1 h2 hs, he, ?_, rfl⟩
            rintro x rfl
            cases hs
          | none =>
            rw [h4] at h
            cases h5 : P.data i with
            | none => rw [h5] at h; cases h
            | some r =>
              rw [h5] at h
              change r = .ok p at h
              rw [h] at h5
              obtain ⟨s, j, hne, hs, he, hhd, rfl⟩ := data_iff.1 h5
              exact ⟨_, _, j, .data hne hs, he, fun _ _ => hhd, rfl⟩
  · rintro ⟨e, s, j, hp, he, hdata, rfl⟩
    unfold P.dataMode
    cases hp with
    | data hne hs =>
      have hh : i.content.head? ≠ some '<' := by
        rw [he.1]
        intro h
        cases s with
        | nil => exact hne rfl
        | cons c s =>
          cases h
          exact hs List.mem_cons_self
      have hc : ∀ r, i.content ≠ '<' :: r := by
        intro r hr
        rw [hr] at hh
        exact hh rfl
      obtain ⟨h1, h2⟩ := not_comment_of (s := i.content) (fun c r h => absurd h (hc _))
      rw [comment_none.2 h1, doctype_none.2 h2,
        tagClose_none_of (fun w r h => absurd h (hc _)), tagOpen_none.2 hh,
        data_iff.2 ⟨s, j, hne, hs, he, hdata _ rfl, rfl⟩]
      rfl
    | comment hs =>
      rw [comment_iff.2 ⟨_, j, hs, he, rfl⟩]
      rfl
    | @doctype w1 d w2 c w3 hw1 hd hw2 hends hc hw3 =>
      have h1 : ¬ CommentStart i.content := by
        rintro ⟨t, ht⟩
        rw [he.1] at ht
        cases w1 with
        | nil =>
          obtain ⟨x, r, hx, hx'⟩ := (doctype_name hd).head (b := w2 ++ (c ++ (w3 ++ (['>'] ++ j.content))))
          simp at ht hx
          rw [hx] at ht
          simp at ht
          cases hd with
          | cons hl _ =>
            simp at hx
            rw [hx.1, ← ht.1] at hl
            have hn : ¬ SameLetter '-' 'd' := by unfold SameLetter; decide
            exact hn hl
        | cons x w1 =>
          simp at ht
          exact absurd (hw1 x List.mem_cons_self) (by rw [← ht.1]; decide)
      rw [comment_none.2 h1, doctype_iff.2 ⟨w1, d, w2, c, w3, j, hw1, hd, hw2, hends, hc, hw3, he, rfl⟩]
      rfl
    | @closing w1 w2 n w3 hw1 hw2 hn hw3 hends =>
      obtain ⟨h1, h2⟩ := not_comment_of (s := i.content) (by
        intro c r h
        rw [he.1] at h
        cases w1 with
        | nil => simp at h; rw [← h.1]; decide
        | cons x w1 =>
          simp at h
          rintro rfl
          exact absurd (hw1 x List.mem_cons_self) (by rw [h.1]; decide))
      rw [comment_none.2 h1, doctype_none.2 h2,
        tagClose_iff.2 ⟨_, _, j, .closing hw1 hw2 hn hw3 hends, he, rfl⟩]
      rfl
    | @start w1 n w2 as sc r e hw1 hn hw2 hends htt hc hd hs =>
      have hgt : '>' ∈ '<' :: w1 ++ n ++ w2 ++ r := by simp [htt.gt]
      have h1 := hc
      have h2 := hd
      rw [← commentStart_append (r := j.content) hgt, ← he.1] at h1
      rw [← doctypeStart_append (r := j.content) hgt, ← he.1] at h2
      have h3 : P.tagClose i = none := by
        refine tagClose_none_of ?_
        intro w x hx hw
        rw [he.1] at hx
        have hx' : w1 ++ (n ++ (w2 ++ (r ++ j.content))) = w ++ '/' :: x := by simpa using hx
        have k1 := takeWhile_stop (p := isWhitespace) (a := w1)
          (b := n ++ (w2 ++ (r ++ j.content)))
          (fun c hc => isWhitespace_iff.2 (hw1 c hc))
          (fun c hc => isWhitespace_false.2 (hn.tight c hc))
        have k2 := takeWhile_stop (p := isWhitespace) (a := w) (b := '/' :: x)
          (fun c hc => isWhitespace_iff.2 (hw c hc))
          (fun c hc => isWhitespace_false.2 (tight_char not_space_slash c hc))
        rw [hx', k2.2] at k1
        obtain ⟨c, r', h4, h5⟩ := hn.head (b := w2 ++ (r ++ j.content))
        rw [h4] at k1
        have := k1.2
        simp only [List.cons.injEq] at this
        rw [← this.1] at h5
        exact h5 (by decide)
      rw [comment_none.2 h1, doctype_none.2 h2, h3,
        tagOpen_iff.2 ⟨e, _, j, ⟨w1, n, w2, as, sc, r, hw1, hn, hw2, hends, htt, hs, rfl⟩, he, rfl⟩]
      rfl

/-! ## Raw text -/

theorem piece_closing_name {n : Identifier} {p : Str} (h : Piece (.closingTag n) p) :
    ∃ w, n = owned w ∧ Name w := by
  cases h with
  | closing _ _ hn => exact ⟨_, rfl, hn⟩
  | start _ _ _ _ _ _ _ hs => cases hs

theorem rawEnd_iff {t : Str} {i : Input} : P.rawEnd t i = true ↔ ClosesAt t i.content := by
  unfold P.rawEnd
  constructor
  · intro h
    cases h1 : P.tagClose i with
    | none => simp [h1] at h
    | some r =>
      cases r with
      | error e => simp [h1] at h
      | ok p =>
        simp only [h1] at h
        obtain ⟨n, s, j, hp, he, rfl⟩ := tagClose_iff.1 h1
        obtain ⟨w, rfl, hw⟩ := piece_closing_name hp
        refine ⟨owned w, s, j.content, he.1, hp, ?_⟩
        exact ((identifierEq_left hw.1.ascii).1 h).symm
  · rintro ⟨n, s, r, hs, hp, hn⟩
    rw [tagClose_iff.2 ⟨n, s, i.after s r, hp, Eats.of hs, rfl⟩]
    obtain ⟨w, rfl, hw⟩ := piece_closing_name hp
    exact (identifierEq_left hw.1.ascii).2 hn.symm

theorem closesAt_head {t s : Str} (h : ClosesAt t s) : s.head? = some '<' := by
  obtain ⟨n, p, r, rfl, hp, -⟩ := h
  rcases piece_head hp with ⟨⟨x, hx⟩, -⟩ | ⟨-, h⟩
  · cases hx
  · cases p with
    | nil => cases h
    | cons c p => exact h

theorem search_spec (t : Str) (i : Input) : ∀ s a,
    (∀ x j, P.search '<' (P.rawEnd t) i a s = some (x, j) →
      ∃ b, x = a ++ b ∧ s = b ++ j.content ∧ j = i.after x j.content ∧ ClosesAt t j.content ∧
        ∀ u v, b = u ++ v → v ≠ [] → ¬ ClosesAt t (v ++ j.content)) ∧
    (P.search '<' (P.rawEnd t) i a s = none → ∀ u v, s = u ++ v → ¬ ClosesAt t v) := by
  intro s
  induction s with
  | nil =>
    intro a
    refine ⟨by intro x j h; simp [P.search] at h, ?_⟩
    intro _ u v huv hv
    obtain ⟨-, rfl⟩ := List.append_eq_nil_iff.1 huv.symm
    have := closesAt_head hv
    cases this
  | cons d r ih =>
    intro a
    unfold P.search
    by_cases hd : d = '<' ∧ P.rawEnd t (i.after a (d :: r)) = true
    · rw [if_pos hd]
      refine ⟨?_, by simp⟩
      intro x j h
      simp only [Option.some.injEq, Prod.mk.injEq] at h
      obtain ⟨rfl, rfl⟩ := h
      refine ⟨[], by simp, rfl, rfl, rawEnd_iff.1 hd.2, ?_⟩
      intro u v huv hv
      exact absurd (List.append_eq_nil_iff.1 huv.symm).2 hv
    · rw [if_neg hd]
      have hnc : ¬ ClosesAt t (d :: r) := by
        intro h
        refine hd ⟨?_, rawEnd_iff.2 h⟩
        have := closesAt_head h
        simpa using this
      obtain ⟨ih1, ih2⟩ := ih (a ++ [d])
      constructor
      · intro x j h
        obtain ⟨b, rfl, rfl, h3, h4, h5⟩ := ih1 x j h
        refine ⟨d :: b, by simp, rfl, h3, h4, ?_⟩
        intro u v huv hv
        cases u with
        | nil =>
          simp only [List.nil_append] at huv
          rw [← huv]
          exact hnc
        | cons c u =>
          simp only [List.cons_append, List.cons.injEq] at huv
          exact h5 u v huv.2 hv
      · intro h u v huv
        cases u with
        | nil =>
          simp only [List.nil_append] at huv
          rw [← huv]
          exact hnc
        | cons c u =>
          simp only [List.cons_append, List.cons.injEq] at huv
          exact ih2 h u v huv.2

theorem first_unique {t c₁ r₁ c₂ r₂ : Str} (h : c₁ ++ r₁ = c₂ ++ r₂)
    (h1 : ∀ a b, c₁ = a ++ b → b ≠ [] → ¬ ClosesAt t (b ++ r₁)) (h1' : r₁ = [] ∨ ClosesAt t r₁)
    (h2 : ∀ a b, c₂ = a ++ b → b ≠ [] → ¬ ClosesAt t (b ++ r₂)) (h2' : r₂ = [] ∨ ClosesAt t r₂) :
    c₁ = c₂ ∧ r₁ = r₂ := by
  rcases List.append_eq_append_iff.1 h with ⟨a, ha, hb⟩ | ⟨a, ha, hb⟩
  · by_cases hn : a = []
    · subst hn; simp_all
    · exfalso
      rcases h1' with h' | h'
      · rw [h'] at hb
        exact hn (List.append_eq_nil_iff.1 hb.symm).1
      · rw [hb] at h'
        exact h2 _ _ ha hn h'
  · by_cases hn : a = []
    · subst hn; simp_all
    · exfalso
      rcases h2' with h' | h'
      · rw [h'] at hb
        exact hn (List.append_eq_nil_iff.1 hb.symm).1
      · rw [hb] at h'
        exact h1 _ _ ha hn h'

theorem rawData_iff {t : Str} {i : Input} {p : Parsed} : P.rawData i t = .ok p ↔
    ∃ c j, Eats i c j ∧ (∀ a b, c = a ++ b → b ≠ [] → ¬ ClosesAt t (b ++ j.content)) ∧
      (j.content = [] ∨ ClosesAt t j.content) ∧
      p = ⟨.rawData (.actual c), i.location, .data, j⟩ := by
  have key : ∃ c j, Eats i c j ∧ (∀ a b, c = a ++ b → b ≠ [] → ¬ ClosesAt t (b ++ j.content)) ∧
      (j.content = [] ∨ ClosesAt t j.content) ∧
      (P.search '<' (P.rawEnd t) i [] i.content).getD (P.all i) = (c, j) := by
    obtain ⟨k1, k2⟩ := search_spec t i i.content []
    cases h : P.search '<' (P.rawEnd t) i [] i.content with
    | none =>
      refine ⟨i.content, i.after i.content [], Eats.of (by simp), ?_, .inl rfl, rfl⟩
      intro a b hab _
      change ¬ ClosesAt t (b ++ [])
      rw [List.append_nil]
      exact k2 h a b hab
    | some q =>
      obtain ⟨x, j⟩ := q
      obtain ⟨b, rfl, h2, h3, h4, h5⟩ := k1 _ _ h
      exact ⟨_, j, ⟨h2, h3⟩, h5, .inr h4, rfl⟩
  obtain ⟨c, j, he, h1, h2, h3⟩ := key
  unfold P.rawData
  simp only [h3, Except.ok.injEq]
  constructor
  · rintro rfl
    exact ⟨c, j, he, h1, h2, rfl⟩
  · rintro ⟨c', j', he', h1', h2', rfl⟩
    obtain ⟨rfl, h⟩ := first_unique (he.1.symm.trans he'.1) h1 h2 h1' h2'
    rw [he.unique he']
    rfl

end Fuser
