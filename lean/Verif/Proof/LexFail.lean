import Verif.Proof.Lex2

/-!
# The parser functions fail exactly as the specification says
-/

namespace Fuser
open Spec

/-! ## Positions -/

theorem posAfter_step (a : Str) (c : Char) : stepLoc (posAfter a) c = posAfter (a ++ [c]) := by
  unfold stepLoc posAfter
  by_cases h : c = '\n'
  · simp [h, Nat.add_comm, Nat.add_left_comm]
  · simp [h, Nat.add_comm]

theorem addLoc_posAfter (a p : Str) : addLoc (posAfter a) p = posAfter (a ++ p) := by
  induction p generalizing a with
  | nil => simp
  | cons c p ih => rw [addLoc_cons, posAfter_step, ih]; simp

/-- The input is at the position after the text `a`. -/
def At (a : Str) (i : Input) : Prop := i.location = posAfter a

theorem Eats.at {a p : Str} {i j : Input} (h : Eats i p j) (ha : At a i) : At (a ++ p) j := by
  unfold At at *
  rw [h.loc, ha, addLoc_posAfter]

/-! ## Words -/

theorem word_of {i j : Input} {w : Str} (h1 : w ≠ []) (h2 : ∀ c ∈ w, c ∉ terminators)
    (he : Eats i w j) (h3 : Ends j.content) : P.word i = some (w, j) := by
  have := takeWhile_stop (p := fun c => !terminator c) (a := w) (b := j.content)
      (fun c hc => by simp [terminator_false.2 (h2 c hc)])
      (fun c hc => by simp [terminator_iff.2 (h3 c hc)])
  unfold P.word
  rw [he.1]
  simp only [this.1, this.2, if_neg h1]
  rw [← he.2]

theorem ident_error {i : Input} {e : IdentifierError} :
    P.ident i = .error e ↔ BadWord e i.content := by
  constructor
  · intro h
    unfold P.ident at h
    cases hw : P.word i with
    | none => simp [hw] at h
    | some q =>
      obtain ⟨w, j⟩ := q
      obtain ⟨h1, h2, h3, h4, -⟩ := word_some hw
      simp only [hw] at h
      cases hv : validate w with
      | ok v => simp [hv] at h
      | error e' =>
        simp only [hv, Except.error.injEq] at h
        subst h
        exact ⟨w, _, h1, h2, fun c hc => terminator_false.1 (h3 c hc),
          fun c hc => terminator_iff.1 (h4 c hc), validate_error.1 hv⟩
  · rintro ⟨n, r, h1, h2, h3, h4, h5⟩
    unfold P.ident
    rw [word_of h2 h3 (Eats.of h1) h4]
    simp only
    rw [validate_error.2 h5]

theorem BadWord.head {e : IdentifierError} {s : Str} (h : BadWord e s) :
    ∃ c r, s = c :: r ∧ c ∉ terminators := by
  obtain ⟨n, r, rfl, h1, h2, -⟩ := h
  obtain ⟨c, n, rfl⟩ := List.exists_cons_of_ne_nil h1
  exact ⟨c, n ++ r, rfl, h2 c List.mem_cons_self⟩

/-! ## Attributes -/

theorem attr_error {tag a : Str} {i : Input} {e : ParseError} (ha : At a i)
    (h : P.attr tag i = .error e) : TailFail tag a i.content e := by
  unfold P.attr at h
  cases h1 : P.ident i with
  | error e' =>
    simp only [h1, Except.error.injEq] at h
    rw [← h, ha]
    exact .identifier (ident_error.1 h1)
  | ok o =>
    cases o with
    | none => simp [h1] at h
    | some q =>
      obtain ⟨n, i1⟩ := q
      obtain ⟨n, rfl, hn, e1, hends⟩ := ident_iff.1 h1
      simp only [h1] at h
      obtain ⟨w1, hw1, e2, ht⟩ := ws_spec i1
      cases h2 : P.char '=' (P.ws i1) with
      | none => simp [h2] at h
      | some i2 =>
        simp only [h2] at h
        rw [char_iff] at h2
        obtain ⟨w2, hw2, e3, ht3⟩ := ws_spec i2
        have hends' : Ends (w1 ++ ['=']) := by
          rw [e2.1, h2.1, ← List.append_assoc] at hends
          exact hends.of_append (by simp)
        have e := (((e1.trans e2).trans h2).trans e3)
        have hat := e.at ha
        cases h3 : P.char '"' (P.ws i2) with
        | none =>
          simp only [h3, Except.error.injEq] at h
          have := TailFail.value (tag := tag) (a := a) hn hw1 hends' hw2 ht3 (char_none.1 h3)
          rw [← h, hat, e.1]
          simpa [owned, Identifier.str, Deferred.str] using this
        | some i3 =>
          simp only [h3] at h
          rw [char_iff] at h3
          obtain ⟨w3, hw3, e4, ht4⟩ := ws_spec i3
          cases h4 : P.untilChar '"' (P.ws i3) with
          | some q => simp [h4] at h
          | none =>
            simp only [h4, Except.error.injEq] at h
            have hq : '"' ∉ i3.content := by
              rw [e4.1]
              intro hm
              rcases List.mem_append.1 hm with hm | hm
              · exact absurd (hw3 _ hm) (by decide)
              · exact untilChar_none h4 hm
            have := TailFail.unclosedValue (tag := tag) (a := a) hn hw1 hends' hw2 hq
            rw [← h, hat, (e.trans h3).1]
            simpa [owned, Identifier.str, Deferred.str] using this

theorem attrsThen_tight {as : Attributes} {t r : Str} (h : AttrsThen as t r) : Tight (t ++ r) := by
  cases h with
  | nil h => exact h
  | bare hn => simpa using hn.tight
  | valued hn => simpa using hn.tight

theorem attrsThen_rest {as : Attributes} {t r : Str} (h : AttrsThen as t r) : Tight r := by
  induction h with
  | nil h => exact h
  | bare _ _ _ _ _ ih => exact ih
  | valued _ _ _ _ _ _ _ _ _ ih => exact ih

/-- Attributes followed by more. -/
theorem attrs_then {tag : Str} {as : Attributes} {t r : Str} (h : AttrsThen as t r) :
    ∀ {i j : Input}, Eats i t j → j.content = r →
    P.attrs tag i = match P.attrs tag j with
      | .error e => .error e
      | .ok (as', k) => .ok (as ++ as', k) := by
  induction h with
  | nil _ =>
    intro i j he _
    have : i = j := (Eats.refl i).unique he
    subst this
    cases P.attrs tag i <;> rfl
  | @bare n w t r as hn hw hends hhd htt ih =>
    intro i j he hj
    obtain ⟨i2, he, e3⟩ := he.split
    obtain ⟨i1, e1, e2⟩ := he.split
    have hc2 : i2.content = t ++ r := by rw [e3.1, hj]
    have ht2 : Tight i2.content := by rw [hc2]; exact attrsThen_tight htt
    rw [P.attrs_eq, if_neg (by rw [e1.1]; simp [hn.ne_nil])]
    have : P.attr tag i = .ok (some (⟨owned n, none⟩, i2)) := by
      unfold P.attr
      rw [ident_iff.2 ⟨n, rfl, hn, e1, by rw [e2.1, hc2]; exact hends⟩]
      simp only
      rw [ws_of e2 hw ht2, char_none.2 (by rw [hc2]; exact hhd)]
    rw [this]
    simp only
    rw [ws_tight ht2, ih e3 hj]
    cases P.attrs tag j <;> rfl
  | @valued n w1 w2 w3 v w4 t r as hn hw1 hends hw2 hw3 hv hq hw4 htt ih =>
    intro i m he hm
    have he' : Eats i (n ++ (w1 ++ (['='] ++ (w2 ++ (['"'] ++ (w3 ++ (v ++ (['"'] ++
        (w4 ++ t))))))))) m := by simpa using he
    obtain ⟨i1, e1, he'⟩ := he'.split
    obtain ⟨i2, e2, he'⟩ := he'.split
    obtain ⟨i3, e3, he'⟩ := he'.split
    obtain ⟨i4, e4, he'⟩ := he'.split
    obtain ⟨i5, e5, he'⟩ := he'.split
    obtain ⟨i6, e6, he'⟩ := he'.split
    obtain ⟨i7, e7, he'⟩ := he'.split
    obtain ⟨i8, e8, he'⟩ := he'.split
    obtain ⟨i9, e9, e10⟩ := he'.split
    rw [P.attrs_eq, if_neg (by rw [e1.1]; simp [hn.ne_nil])]
    have : P.attr tag i = .ok (some (⟨owned n, some (.actual v)⟩, i8)) := by
      unfold P.attr
      rw [ident_iff.2 ⟨n, rfl, hn, e1, by
        rw [e2.1, e3.1, ← List.append_assoc]; exact hends.append (by simp)⟩]
      simp only
      rw [ws_of e2 hw1 (by rw [e3.1]; exact tight_char not_space_eq), char_iff.2 e3]
      simp only
      rw [ws_of e4 hw2 (by rw [e5.1]; exact tight_char not_space_quote), char_iff.2 e5]
      simp only
      have ht6 : Tight i6.content := by
        rw [e7.1]
        cases v with
        | nil => rw [e8.1]; exact tight_char not_space_quote
        | cons d v => exact hv.append (by simp)
      rw [ws_of e6 hw3 ht6, untilChar_iff.2 ⟨e7, hq, by rw [e8.1]; rfl⟩]
      simp only
      have : i7.content.tail = i8.content := by rw [e8.1]; rfl
      rw [this, ← e8.2]
      rfl
    rw [this]
    simp only
    rw [ws_of e9 hw4 (by rw [e10.1, hm]; exact attrsThen_tight htt), ih e10 hm]
    cases P.attrs tag m <;> rfl

/-- Where reading attributes stops. -/
theorem attrs_stop (tag : Str) (N : Nat) : ∀ {i : Input}, P.size i ≤ N → Tight i.content →
    ∃ as t j, Eats i t j ∧ AttrsThen as t j.content ∧
      ((P.attrs tag i = .ok (as, j) ∧ Ends j.content) ∨
       ∃ e, P.attrs tag i = .error e ∧ P.attr tag j = .error e) := by
  induction N with
  | zero =>
    intro i hN ht
    have hi : i.content = [] := List.eq_nil_of_length_eq_zero (Nat.le_zero.1 hN)
    refine ⟨[], [], i, Eats.refl i, .nil ht, .inl ⟨?_, ?_⟩⟩
    · rw [P.attrs_eq, if_pos hi]
    · rw [hi]; intro c hc; cases hc
  | succ N ih =>
    intro i hN ht
    by_cases hi : i.content = []
    · refine ⟨[], [], i, Eats.refl i, .nil ht, .inl ⟨?_, ?_⟩⟩
      · rw [P.attrs_eq, if_pos hi]
      · rw [hi]; intro c hc; cases hc
    · cases h1 : P.attr tag i with
      | error e =>
        refine ⟨[], [], i, Eats.refl i, .nil ht, .inr ⟨e, ?_, h1⟩⟩
        rw [P.attrs_eq, if_neg hi, h1]
      | ok o =>
        cases o with
        | none =>
          refine ⟨[], [], i, Eats.refl i, .nil ht, .inl ⟨?_, ?_⟩⟩
          · rw [P.attrs_eq, if_neg hi, h1]
          · rw [← ident_none]
            unfold P.attr at h1
            cases h2 : P.ident i with
            | error e => simp [h2] at h1
            | ok o =>
              cases o with
              | none => rfl
              | some q =>
                simp only [h2] at h1
                cases h3 : P.char '=' (P.ws q.2) with
                | none => simp [h3] at h1
                | some k =>
                  simp only [h3] at h1
                  cases h4 : P.char '"' (P.ws k) with
                  | none => simp [h4] at h1
                  | some k' =>
                    simp only [h4] at h1
                    cases h5 : P.untilChar '"' (P.ws k') <;> simp [h5] at h1
        | some q =>
          obtain ⟨a, r⟩ := q
          have hlt := P.attr_size h1
          have hle : P.size (P.ws r) ≤ P.size r := ws_content_le r
          obtain ⟨w4, hw4, e4, ht4⟩ := ws_spec r
          obtain ⟨as, t, j, he, hth, hres⟩ := ih (i := P.ws r) (by omega) ht4
          have hres' : (P.attrs tag i = .ok (a :: as, j) ∧ Ends j.content) ∨
              ∃ e, P.attrs tag i = .error e ∧ P.attr tag j = .error e := by
            rw [P.attrs_eq, if_neg hi, h1]
            simp only
            rcases hres with ⟨h, h'⟩ | ⟨e, h, h'⟩
            · left; rw [h]; exact ⟨rfl, h'⟩
            · right; exact ⟨e, by rw [h], h'⟩
          obtain ⟨n, w, rfl, hn, hw, hends, e, htr⟩ |
              ⟨n, w1, w2, w3, v, rfl, hn, hw1, hends, hw2, hw3, hv, hq, e⟩ := attr_some h1
          · rw [ws_tight htr] at he
            refine ⟨_, _, j, e.trans he, .bare hn hw (by rw [← he.1]; exact hends) ?_ hth, hres'⟩
            rw [← he.1]
            -- an equals sign would have been read
            unfold P.attr at h1
            cases h2 : P.ident i with
            | error e => simp [h2] at h1
            | ok o =>
              cases o with
              | none => simp [h2] at h1
              | some q =>
                obtain ⟨m, i1⟩ := q
                simp only [h2] at h1
                cases h3 : P.char '=' (P.ws i1) with
                | none =>
                  simp only [h3, Except.ok.injEq, Option.some.injEq, Prod.mk.injEq] at h1
                  rw [← h1.2]
                  exact char_none.1 h3
                | some k =>
                  simp only [h3] at h1
                  cases h4 : P.char '"' (P.ws k) with
                  | none => simp [h4] at h1
                  | some k' =>
                    simp only [h4] at h1
                    cases h5 : P.untilChar '"' (P.ws k') <;> simp [h5] at h1
          · refine ⟨_, _, j, ?_, .valued hn hw1 hends hw2 hw3 hv hq hw4 hth, hres'⟩
            have := (e.trans e4).trans he
            simpa using this

/-! ## Tags -/

theorem tagClose_error {a : Str} {i : Input} {e : ParseError} (ha : At a i)
    (h : P.tagClose i = some (.error e)) : LexFail a i.content e := by
  unfold P.tagClose at h
  cases h1 : P.char '<' i with
  | none => simp [h1] at h
  | some i1 =>
    simp only [h1] at h
    obtain ⟨w1, hw1, e1, -⟩ := ws_spec i1
    cases h2 : P.char '/' (P.ws i1) with
    | none => simp [h2] at h
    | some i2 =>
      simp only [h2] at h
      rw [char_iff] at h1 h2
      obtain ⟨w2, hw2, e2, ht2⟩ := ws_spec i2
      have he := ((h1.trans e1).trans h2).trans e2
      have hat := he.at ha
      cases h3 : P.ident (P.ws i2) with
      | error e' =>
        simp only [h3, Option.some.injEq, Except.error.injEq] at h
        have := LexFail.closingInvalid (a := a) hw1 hw2 ht2 (ident_error.1 h3)
        rw [← h, hat, he.1]
        simpa using this
      | ok o =>
        cases o with
        | none =>
          simp only [h3, Option.some.injEq, Except.error.injEq] at h
          have := LexFail.closingIdentifier (a := a) hw1 hw2 ht2 (ident_none.1 h3)
          rw [← h, hat, he.1]
          simpa using this
        | some q =>
          obtain ⟨n, i3⟩ := q
          obtain ⟨n, rfl, hn, e3, hends⟩ := ident_iff.1 h3
          simp only [h3] at h
          obtain ⟨w3, hw3, e4, ht4⟩ := ws_spec i3
          have he := (he.trans e3).trans e4
          have hat := he.at ha
          cases h4 : P.char '>' (P.ws i3) with
          | some i4 => simp [h4] at h
          | none =>
            simp only [h4, Option.some.injEq, Except.error.injEq] at h
            have := LexFail.closingEnd (a := a) hw1 hw2 hn hw3 (by rw [← e4.1]; exact hends) ht4
              (char_none.1 h4)
            rw [← h, hat, he.1]
            simpa [owned, Identifier.str, Deferred.str] using this

theorem tagOpen_error {a : Str} {i : Input} {e : ParseError} (ha : At a i)
    (hc : ¬ CommentStart i.content) (hd : ¬ DoctypeStart i.content) (ht : P.tagClose i = none)
    (h : P.tagOpen i = some (.error e)) : LexFail a i.content e := by
  unfold P.tagOpen at h
  cases h1 : P.char '<' i with
  | none => simp [h1] at h
  | some i1 =>
    simp only [h1] at h
    obtain ⟨w1, hw1, e1, ht1⟩ := ws_spec i1
    have hslash : (P.ws i1).content.head? ≠ some '/' := by
      rw [← char_none]
      unfold P.tagClose at ht
      simp only [h1] at ht
      cases h2 : P.char '/' (P.ws i1) with
      | none => rfl
      | some i2 =>
        exfalso
        simp only [h2] at ht
        cases h3 : P.ident (P.ws i2) with
        | error e => simp [h3] at ht
        | ok o =>
          cases o with
          | none => simp [h3] at ht
          | some q =>
            simp only [h3] at ht
            cases h4 : P.char '>' (P.ws q.2) <;> simp [h4] at ht
    rw [char_iff] at h1
    have he := h1.trans e1
    have hat := he.at ha
    cases h3 : P.ident (P.ws i1) with
    | error e' =>
      simp only [h3, Option.some.injEq, Except.error.injEq] at h
      rw [he.1] at hc hd ⊢
      rw [← h, hat]
      exact LexFail.openingInvalid (a := a) hw1 ht1 (ident_error.1 h3) hc hd
    | ok o =>
      cases o with
      | none =>
        simp only [h3, Option.some.injEq, Except.error.injEq] at h
        rw [← h, hat, he.1]
        exact LexFail.openingIdentifier (a := a) hw1 ht1 (ident_none.1 h3) hslash
      | some q =>
        obtain ⟨n, i3⟩ := q
        obtain ⟨n, rfl, hn, e3, hends⟩ := ident_iff.1 h3
        simp only [h3] at h
        obtain ⟨w2, hw2, e4, ht4⟩ := ws_spec i3
        rw [ws_tight ht4] at h
        obtain ⟨as, t, j, e5, hth, hres⟩ := attrs_stop (owned n).str _ (Nat.le_refl _) ht4
        have he := ((he.trans e3).trans e4).trans e5
        have hat := he.at ha
        have hends' : Ends (w2 ++ (t ++ j.content)) := by
          rw [← e5.1, ← e4.1]; exact hends
        have build : TailFail n (a ++ '<' :: w1 ++ n ++ w2 ++ t) j.content e →
            LexFail a i.content e := by
          intro hf
          have hi : i.content = '<' :: w1 ++ n ++ w2 ++ t ++ j.content := by
            rw [he.1]; simp
          rw [hi] at hc hd ⊢
          exact .openingTail hw1 hn hw2 hends' hth hf hc hd
        have hat' : At (a ++ '<' :: w1 ++ n ++ w2 ++ t) j := by simpa using hat
        rcases hres with ⟨hok, hje⟩ | ⟨e', herr, hattr⟩
        · simp only [hok] at h
          rw [ws_tight (attrsThen_rest hth)] at h
          cases h5 : P.char '/' j with
          | none =>
            simp only [P.slash, h5] at h
            cases h6 : P.char '>' j with
            | some m => simp [h6] at h
            | none =>
              simp only [h6, Option.some.injEq, Except.error.injEq] at h
              rw [hat'] at h
              exact build (h ▸ .noEnd hje (char_none.1 h5) (char_none.1 h6))
          | some k =>
            simp only [P.slash, h5] at h
            rw [char_iff] at h5
            obtain ⟨w, hw, e6, ht6⟩ := ws_spec k
            cases h6 : P.char '>' (P.ws k) with
            | some m => simp [h6] at h
            | none =>
              simp only [h6, Option.some.injEq, Except.error.injEq] at h
              have hat'' := (h5.trans e6).at hat'
              rw [hat''] at h
              apply build
              rw [(h5.trans e6).1, ← h]
              exact .noEndSlash hw ht6 (char_none.1 h6)
        · simp only [herr, Option.some.injEq, Except.error.injEq] at h
          subst h
          exact build (attr_error hat' hattr)

theorem comment_error {a : Str} {i : Input} {e : ParseError} (ha : At a i)
    (h : P.comment i = some (.error e)) : LexFail a i.content e := by
  unfold P.comment at h
  cases h1 : P.str "<!--".toList i with
  | none => rw [h1] at h; cases h
  | some i1 =>
    simp only [h1] at h
    rw [str_iff] at h1
    cases h2 : P.untilStr "-->".toList i1 with
    | some q => rw [h2] at h; cases h
    | none =>
      simp only [h2, Option.some.injEq, Except.error.injEq] at h
      rw [← h, ha, h1.1]
      refine .unclosedComment ?_
      unfold P.untilStr at h2
      rw [Option.map_eq_none_iff] at h2
      exact (cutStr_none (by simp)).1 h2

theorem doctype_error {a : Str} {i : Input} {e : ParseError} (ha : At a i)
    (h : P.doctype i = some (.error e)) : LexFail a i.content e := by
  unfold P.doctype at h
  cases h1 : P.str "<!".toList i with
  | none => rw [h1] at h; cases h
  | some i1 =>
    simp only [h1] at h
    rw [str_iff] at h1
    obtain ⟨w1, hw1, e1, -⟩ := ws_spec i1
    cases h2 : P.exact "doctype".toList (P.ws i1) with
    | none => rw [h2] at h; cases h
    | some q =>
      obtain ⟨n, i2⟩ := q
      obtain ⟨d, -, hd, e2, hends⟩ := exact_iff.1 h2
      simp only [h2] at h
      obtain ⟨u, hu, e3, ht3⟩ := ws_spec i2
      cases h3 : P.untilChar '>' (P.ws i2) with
      | none =>
        simp only [h3, Option.some.injEq, Except.error.injEq] at h
        have hgt : '>' ∉ i2.content := by
          rw [e3.1]
          intro hm
          rcases List.mem_append.1 hm with hm | hm
          · exact hu.no_gt hm
          · exact untilChar_none h3 hm
        rw [← h, ha, ((h1.trans e1).trans e2).1]
        exact .unclosedDoctype hw1 hd hends hgt
      | some q =>
        obtain ⟨v, i3⟩ := q
        obtain ⟨e4, hv, hhd⟩ := untilChar_iff.1 h3
        simp only [h3] at h
        split at h
        · cases h
        · next hi =>
          simp only [Option.some.injEq, Except.error.injEq] at h
          rw [identifierEq_right ascii_html] at hi
          obtain ⟨x, y, hx, hy, hxy, ht, ht'⟩ := trim_spec v
          obtain ⟨r, hr⟩ : ∃ r, i3.content = '>' :: r := by
            cases hi : i3.content with
            | nil => rw [hi] at hhd; cases hhd
            | cons d r => rw [hi] at hhd; cases hhd; exact ⟨r, rfl⟩
          have he := (((h1.trans e1).trans e2).trans e3).trans e4
          have hends' : Ends (u ++ x ++ trim v ++ y ++ ['>']) := by
            rw [e3.1, e4.1, hr, hxy] at hends
            have : Ends ((u ++ x ++ trim v ++ y ++ ['>']) ++ r) := by
              simpa using hends
            exact this.of_append (by simp)
          have hv' : '>' ∉ trim v := by
            intro hm; apply hv; rw [hxy]; simp [hm]
          have hux : Blank (u ++ x) := by
            intro c hc
            rcases List.mem_append.1 hc with hc | hc
            · exact hu c hc
            · exact hx c hc
          have := LexFail.unsupportedDoctype (a := a) (r := r) hw1 hd hux hv' ht ht' hy hends' hi
          have hi' : i.content = "<!".toList ++ w1 ++ d ++ u ++ (x ++ trim v ++ y) ++ '>' :: r := by
            rw [← hxy, he.1, hr]
          rw [← h, ha, hi']
          simpa using this

theorem dataMode_error {a : Str} {i : Input} {e : ParseError} (ha : At a i) (hne : i.content ≠ [])
    (h : P.dataMode i = .error e) : LexFail a i.content e := by
  unfold P.dataMode at h
  cases h1 : P.comment i with
  | some r =>
    rw [h1] at h
    change r = .error e at h
    rw [h] at h1
    exact comment_error ha h1
  | none =>
    rw [h1] at h
    cases h2 : P.doctype i with
    | some r =>
      rw [h2] at h
      change r = .error e at h
      rw [h] at h2
      exact doctype_error ha h2
    | none =>
      rw [h2] at h
      cases h3 : P.tagClose i with
      | some r =>
        rw [h3] at h
        change r = .error e at h
        rw [h] at h3
        exact tagClose_error ha h3
      | none =>
        rw [h3] at h
        cases h4 : P.tagOpen i with
        | some r =>
          rw [h4] at h
          change r = .error e at h
          rw [h] at h4
          exact tagOpen_error ha (comment_none.1 h1) (doctype_none.1 h2) h3 h4
        | none =>
          rw [h4] at h
          exfalso
          have hs : ∃ p, P.data i = some (.ok p) := by
            obtain ⟨c, r, hr⟩ := List.exists_cons_of_ne_nil hne
            have hc : c ≠ '<' := by
              rintro rfl
              exact (tagOpen_none.1 h4) (by rw [hr]; rfl)
            unfold P.data
            simp only
            have : ((P.untilChar '<' i).getD (P.all i)).1 ≠ [] := by
              cases h5 : P.untilChar '<' i with
              | none => exact hne
              | some q =>
                obtain ⟨e5, hv, hhd⟩ := untilChar_iff.1 (show P.untilChar '<' i = some (q.1, q.2) from h5)
                intro hq
                simp only [Option.getD_some] at hq
                rw [hq] at e5
                have : (i.content).head? = some '<' := by rw [e5.1, List.nil_append, hhd]
                exact (tagOpen_none.1 h4) this
            rw [if_neg this]
            exact ⟨_, rfl⟩
          obtain ⟨p, hp⟩ := hs
          rw [hp] at h
          cases h

/-! ## The other direction -/

theorem doctypeStart_not_comment {s : Str} (h : DoctypeStart s) : ¬ CommentStart s := by
  obtain ⟨w, d, r, rfl, hw, hd, -⟩ := h
  rintro ⟨t, ht⟩
  cases w with
  | nil =>
    cases hd with
    | @cons c _ d' _ hl _ =>
      simp at ht
      rw [← ht.1] at hl
      have hn : ¬ SameLetter '-' 'd' := by unfold SameLetter; decide
      exact hn hl
  | cons x w =>
    simp at ht
    exact absurd (hw x List.mem_cons_self) (by rw [← ht.1]; decide)

theorem trim_of' {c w : Str} (h1 : Tight c) (h2 : Tight c.reverse) (hw : Blank w) (hn : c ≠ []) :
    trim (c ++ w) = c := by
  unfold trim trimLeft
  have k1 := takeWhile_stop (p := isWhitespace) (a := []) (b := c ++ w) (by simp) (by
    intro x hx
    exact isWhitespace_false.2 (h1.append hn x hx))
  simp only [List.nil_append] at k1
  rw [k1.2, List.reverse_append]
  have k2 := takeWhile_stop (p := isWhitespace) (a := w.reverse) (b := c.reverse)
    (fun x hx => isWhitespace_iff.2 (hw x (List.mem_reverse.1 hx)))
    (fun x hx => isWhitespace_false.2 (h2 x hx))
  rw [k2.2, List.reverse_reverse]

theorem dataMode_comment {i : Input} {r : ParseResult} (h : P.comment i = some r) :
    P.dataMode i = r := by
  unfold P.dataMode; rw [h]; rfl

theorem dataMode_doctype {i : Input} {r : ParseResult} (hd : DoctypeStart i.content)
    (h : P.doctype i = some r) : P.dataMode i = r := by
  unfold P.dataMode; rw [comment_none.2 (doctypeStart_not_comment hd), h]; rfl

theorem dataMode_close {i : Input} {r : ParseResult} (hc : ¬ CommentStart i.content)
    (hd : ¬ DoctypeStart i.content) (h : P.tagClose i = some r) : P.dataMode i = r := by
  unfold P.dataMode; rw [comment_none.2 hc, doctype_none.2 hd, h]; rfl

theorem dataMode_open {i : Input} {r : ParseResult} (hc : ¬ CommentStart i.content)
    (hd : ¬ DoctypeStart i.content) (ht : P.tagClose i = none) (h : P.tagOpen i = some r) :
    P.dataMode i = r := by
  unfold P.dataMode; rw [comment_none.2 hc, doctype_none.2 hd, ht, h]; rfl

/-- A closing tag is no comment or doctype. -/
theorem slash_not_comment {w r : Str} (hw : Blank w) :
    ¬ CommentStart ('<' :: w ++ '/' :: r) ∧ ¬ DoctypeStart ('<' :: w ++ '/' :: r) := by
  refine not_comment_of ?_
  intro c x h
  cases w with
  | nil => simp at h; rw [← h.1]; decide
  | cons y w =>
    simp at h
    rintro rfl
    exact absurd (hw y List.mem_cons_self) (by rw [h.1]; decide)

/-- Anything without a slash is no closing tag. -/
theorem tagClose_none_word {i : Input} {w r : Str} (hi : i.content = '<' :: w ++ r) (hw : Blank w)
    (ht : Tight r) (hr : r.head? ≠ some '/') : P.tagClose i = none := by
  refine tagClose_none_of ?_
  intro u x hx hu
  rw [hi] at hx
  have hx' : w ++ r = u ++ '/' :: x := by simpa using hx
  have k1 := takeWhile_stop (p := isWhitespace) (a := w) (b := r)
    (fun c hc => isWhitespace_iff.2 (hw c hc)) (fun c hc => isWhitespace_false.2 (ht c hc))
  have k2 := takeWhile_stop (p := isWhitespace) (a := u) (b := '/' :: x)
    (fun c hc => isWhitespace_iff.2 (hu c hc))
    (fun c hc => isWhitespace_false.2 (tight_char not_space_slash c hc))
  rw [hx', k2.2] at k1
  rw [← k1.2] at hr
  exact hr rfl

theorem attr_fails {tag a : Str} {i : Input} {e : ParseError} (ha : At a i)
    (h : TailFail tag a i.content e) :
    P.attr tag i = .error e ∨
    (Ends i.content ∧ P.char '>' (P.slash i).2 = none ∧
      e = .expectedOpeningTagClose tag (P.slash i).2.location) := by
  generalize hs : i.content = s at h
  cases h with
  | identifier hb =>
    left
    unfold P.attr
    rw [ident_error.2 (by rw [hs]; exact hb), ha]
  | @value n w1 w2 r hn hw1 hends hw2 ht hr =>
    left
    have he : Eats i (n ++ (w1 ++ (['='] ++ w2))) (i.after (n ++ (w1 ++ (['='] ++ w2))) r) :=
      Eats.of (by rw [hs]; simp)
    have hat := he.at ha
    obtain ⟨i1, e1, he⟩ := he.split
    obtain ⟨i2, e2, he⟩ := he.split
    obtain ⟨i3, e3, e4⟩ := he.split
    unfold P.attr
    rw [ident_iff.2 ⟨n, rfl, hn, e1, by
        rw [e2.1, e3.1, ← List.append_assoc]; exact hends.append (by simp)⟩]
    simp only
    rw [ws_of e2 hw1 (by rw [e3.1]; exact tight_char not_space_eq), char_iff.2 e3]
    simp only
    rw [ws_of e4 hw2 ht, char_none.2 hr, hat]
    simp [owned, Identifier.str, Deferred.str]
  | @unclosedValue n w1 w2 r hn hw1 hends hw2 hr =>
    left
    have he : Eats i (n ++ (w1 ++ (['='] ++ w2))) (i.after (n ++ (w1 ++ (['='] ++ w2))) ('"' :: r)) :=
      Eats.of (by rw [hs]; simp)
    have hat := he.at ha
    obtain ⟨i1, e1, he⟩ := he.split
    obtain ⟨i2, e2, he⟩ := he.split
    obtain ⟨i3, e3, e4⟩ := he.split
    have e5 : Eats (i.after (n ++ (w1 ++ (['='] ++ w2))) ('"' :: r)) ['"']
      ((i.after (n ++ (w1 ++ (['='] ++ w2))) ('"' :: r)).after ['"'] r) := Eats.of rfl
    unfold P.attr
    rw [ident_iff.2 ⟨n, rfl, hn, e1, by
        rw [e2.1, e3.1, ← List.append_assoc]; exact hends.append (by simp)⟩]
    simp only
    rw [ws_of e2 hw1 (by rw [e3.1]; exact tight_char not_space_eq), char_iff.2 e3]
    simp only
    rw [ws_of e4 hw2 (tight_char not_space_quote), char_iff.2 e5]
    simp only
    have : P.untilChar '"' (P.ws ((i.after (n ++ (w1 ++ (['='] ++ w2))) ('"' :: r)).after ['"'] r)) =
        none := by
      unfold P.untilChar
      rw [if_neg]
      intro hm
      exact hr ((List.dropWhile_suffix isWhitespace).subset hm)
    rw [this, hat]
    simp [owned, Identifier.str, Deferred.str]
  | noEnd h1 h2 h3 =>
    right
    have : P.slash i = (false, i) := by
      unfold P.slash
      rw [char_none.2 (by rw [hs]; exact h2)]
    refine ⟨hs ▸ h1, ?_, ?_⟩
    · rw [this]; exact char_none.2 (by rw [hs]; exact h3)
    · rw [this, ha]
  | @noEndSlash w r hw ht hr =>
    right
    have he : Eats i (['/'] ++ w) (i.after (['/'] ++ w) r) := Eats.of (by rw [hs]; simp)
    have hat := he.at ha
    obtain ⟨i1, e1, e2⟩ := he.split
    have : P.slash i = (true, i.after (['/'] ++ w) r) := by
      unfold P.slash
      rw [char_iff.2 e1]
      simp only
      rw [ws_of e2 hw ht]
    refine ⟨by rw [← hs, e1.1]; exact ends_char (by decide), ?_, ?_⟩
    · rw [this]; exact char_none.2 hr
    · rw [this, hat]; simp

theorem dataMode_fails {a : Str} {i : Input} {e : ParseError} (ha : At a i)
    (h : LexFail a i.content e) : P.dataMode i = .error e := by
  generalize hs : i.content = s at h
  cases h with
  | @unclosedComment r hr =>
    have e1 : Eats i "<!--".toList (i.after "<!--".toList r) := Eats.of hs
    refine dataMode_comment ?_
    unfold P.comment
    rw [str_iff.2 e1]
    simp only
    have : P.untilStr "-->".toList (i.after "<!--".toList r) = none := by
      unfold P.untilStr
      rw [Option.map_eq_none_iff]
      exact (cutStr_none (by simp)).2 hr
    rw [this, ha]
  | @unclosedDoctype w d r hw hd hends hgt =>
    have he : Eats i ("<!".toList ++ (w ++ d)) (i.after ("<!".toList ++ (w ++ d)) r) :=
      Eats.of (by rw [hs]; simp)
    refine dataMode_doctype ⟨w, d, r, hs, hw, hd, hends⟩ ?_
    obtain ⟨i1, e1, he⟩ := he.split
    obtain ⟨i2, e2, e3⟩ := he.split
    unfold P.doctype
    rw [str_iff.2 e1]
    simp only
    rw [ws_of e2 hw (by rw [e3.1]; exact (doctype_name hd).tight),
      exact_iff.2 ⟨d, rfl, hd, e3, hends⟩]
    simp only
    have : P.untilChar '>' (P.ws (i.after ("<!".toList ++ (w ++ d)) r)) = none := by
      unfold P.untilChar
      rw [if_neg]
      intro hm
      exact hgt ((List.dropWhile_suffix isWhitespace).subset hm)
    rw [this, ha]
  | @unsupportedDoctype w d u c v r hw hd hu hgt ht ht' hv hends hc =>
    have he : Eats i ("<!".toList ++ (w ++ d)) (i.after ("<!".toList ++ (w ++ d))
        (u ++ (c ++ (v ++ '>' :: r)))) := Eats.of (by rw [hs]; simp)
    have hends' : Ends (u ++ (c ++ (v ++ '>' :: r))) := by
      have := hends.append (b := r) (by simp)
      simpa using this
    refine dataMode_doctype ⟨w, d, u ++ (c ++ (v ++ '>' :: r)), by rw [hs]; simp, hw, hd, hends'⟩ ?_
    obtain ⟨i1, e1, he⟩ := he.split
    obtain ⟨i2, e2, e3⟩ := he.split
    unfold P.doctype
    rw [str_iff.2 e1]
    simp only
    rw [ws_of e2 hw (by rw [e3.1]; exact (doctype_name hd).tight),
      exact_iff.2 ⟨d, rfl, hd, e3, hends'⟩]
    simp only
    have key : ∃ x k, trim x = c ∧ P.untilChar '>' (P.ws (i.after ("<!".toList ++ (w ++ d))
        (u ++ (c ++ (v ++ '>' :: r))))) = some (x, k) := by
      by_cases hcn : c = []
      · subst hcn
        have e4 : Eats (i.after ("<!".toList ++ (w ++ d)) (u ++ ([] ++ (v ++ '>' :: r)))) (u ++ v)
          (Input.after (i.after ("<!".toList ++ (w ++ d)) (u ++ ([] ++ (v ++ '>' :: r)))) (u ++ v)
            ('>' :: r)) := Eats.of (by simp [Input.after])
        have huv : Blank (u ++ v) := by
          intro c hc
          rcases List.mem_append.1 hc with hc | hc
          · exact hu c hc
          · exact hv c hc
        rw [ws_of e4 huv (tight_char not_space_gt)]
        exact ⟨[], _, rfl, untilChar_iff.2 ⟨Eats.refl _, by simp, rfl⟩⟩
      · have e4 : Eats (i.after ("<!".toList ++ (w ++ d)) (u ++ (c ++ (v ++ '>' :: r)))) u
          (Input.after (i.after ("<!".toList ++ (w ++ d)) (u ++ (c ++ (v ++ '>' :: r)))) u
            (c ++ (v ++ '>' :: r))) := Eats.of (by simp [Input.after])
        rw [ws_of e4 hu (ht.append hcn)]
        refine ⟨c ++ v, _, trim_of' ht ht' hv hcn, untilChar_iff.2 ⟨Eats.of (r := '>' :: r) ?_, ?_, rfl⟩⟩
        · simp [Input.after]
        · intro hm
          rcases List.mem_append.1 hm with hm | hm
          · exact hgt hm
          · exact hv.no_gt hm
    obtain ⟨x, k, hx, hk⟩ := key
    rw [hk]
    simp only
    rw [hx, if_neg (by rw [identifierEq_right ascii_html]; exact hc), ha]
  | @closingIdentifier w1 w2 r hw1 hw2 ht hends =>
    have he : Eats i (['<'] ++ (w1 ++ (['/'] ++ w2))) (i.after (['<'] ++ (w1 ++ (['/'] ++ w2))) r) :=
      Eats.of (by rw [hs]; simp)
    have hat := he.at ha
    have hn := slash_not_comment (r := w2 ++ r) hw1
    have hs' : i.content = '<' :: w1 ++ '/' :: (w2 ++ r) := by rw [hs]; simp
    rw [← hs'] at hn
    refine dataMode_close hn.1 hn.2 ?_
    obtain ⟨i1, e1, he⟩ := he.split
    obtain ⟨i2, e2, he⟩ := he.split
    obtain ⟨i3, e3, e4⟩ := he.split
    unfold P.tagClose
    rw [char_iff.2 e1]
    simp only
    rw [ws_of e2 hw1 (by rw [e3.1]; exact tight_char not_space_slash), char_iff.2 e3]
    simp only
    rw [ws_of e4 hw2 ht, ident_none.2 hends, hat]
    simp
  | @closingInvalid w1 w2 r e hw1 hw2 ht hb =>
    have he : Eats i (['<'] ++ (w1 ++ (['/'] ++ w2))) (i.after (['<'] ++ (w1 ++ (['/'] ++ w2))) r) :=
      Eats.of (by rw [hs]; simp)
    have hat := he.at ha
    have hn := slash_not_comment (r := w2 ++ r) hw1
    have hs' : i.content = '<' :: w1 ++ '/' :: (w2 ++ r) := by rw [hs]; simp
    rw [← hs'] at hn
    refine dataMode_close hn.1 hn.2 ?_
    obtain ⟨i1, e1, he⟩ := he.split
    obtain ⟨i2, e2, he⟩ := he.split
    obtain ⟨i3, e3, e4⟩ := he.split
    unfold P.tagClose
    rw [char_iff.2 e1]
    simp only
    rw [ws_of e2 hw1 (by rw [e3.1]; exact tight_char not_space_slash), char_iff.2 e3]
    simp only
    rw [ws_of e4 hw2 ht, ident_error.2 hb, hat]
    simp
  | @closingEnd w1 w2 n w3 r hw1 hw2 hnm hw3 hends ht hr =>
    have he : Eats i (['<'] ++ (w1 ++ (['/'] ++ (w2 ++ (n ++ w3)))))
      (i.after (['<'] ++ (w1 ++ (['/'] ++ (w2 ++ (n ++ w3))))) r) :=
      Eats.of (by rw [hs]; simp)
    have hat := he.at ha
    have hn := slash_not_comment (r := w2 ++ n ++ w3 ++ r) hw1
    have hs' : i.content = '<' :: w1 ++ '/' :: (w2 ++ n ++ w3 ++ r) := by rw [hs]; simp
    rw [← hs'] at hn
    refine dataMode_close hn.1 hn.2 ?_
    obtain ⟨i1, e1, he⟩ := he.split
    obtain ⟨i2, e2, he⟩ := he.split
    obtain ⟨i3, e3, he⟩ := he.split
    obtain ⟨i4, e4, he⟩ := he.split
    obtain ⟨i5, e5, e6⟩ := he.split
    unfold P.tagClose
    rw [char_iff.2 e1]
    simp only
    rw [ws_of e2 hw1 (by rw [e3.1]; exact tight_char not_space_slash), char_iff.2 e3]
    simp only
    rw [ws_of e4 hw2 (by rw [e5.1]; exact hnm.tight),
      ident_iff.2 ⟨n, rfl, hnm, e5, by rw [e6.1]; exact hends⟩]
    simp only
    rw [ws_of e6 hw3 ht, char_none.2 hr, hat]
    simp [owned, Identifier.str, Deferred.str]
  | @openingIdentifier w1 r hw1 ht hends hr =>
    have he : Eats i (['<'] ++ w1) (i.after (['<'] ++ w1) r) := Eats.of (by rw [hs]; simp)
    have hat := he.at ha
    have hn := not_comment_of (s := i.content) (by
      intro c x h
      rw [hs] at h
      cases w1 with
      | nil =>
        simp at h
        rintro rfl
        exact absurd (hends '!' (by rw [h]; rfl)) (by decide)
      | cons y w =>
        simp at h
        rintro rfl
        exact absurd (hw1 y List.mem_cons_self) (by rw [h.1]; decide))
    refine dataMode_open hn.1 hn.2 (tagClose_none_word hs hw1 ht hr) ?_
    obtain ⟨i1, e1, e2⟩ := he.split
    unfold P.tagOpen
    rw [char_iff.2 e1]
    simp only
    rw [ws_of e2 hw1 ht, ident_none.2 hends, hat]
    simp
  | @openingInvalid w1 r e hw1 ht hb hc hd =>
    have he : Eats i (['<'] ++ w1) (i.after (['<'] ++ w1) r) := Eats.of (by rw [hs]; simp)
    have hat := he.at ha
    rw [← hs] at hc hd
    have hr : r.head? ≠ some '/' := by
      obtain ⟨c, x, rfl, hcx⟩ := BadWord.head hb
      intro h
      cases h
      exact hcx (by decide)
    refine dataMode_open hc hd (tagClose_none_word hs hw1 ht hr) ?_
    obtain ⟨i1, e1, e2⟩ := he.split
    unfold P.tagOpen
    rw [char_iff.2 e1]
    simp only
    rw [ws_of e2 hw1 ht, ident_error.2 hb, hat]
    simp
  | @openingTail w1 n w2 as t r e hw1 hn hw2 hends hth hf hc hd =>
    have he : Eats i (['<'] ++ (w1 ++ (n ++ (w2 ++ t))))
      (i.after (['<'] ++ (w1 ++ (n ++ (w2 ++ t)))) r) := Eats.of (by rw [hs]; simp)
    have hat := he.at ha
    rw [← hs] at hc hd
    refine dataMode_open hc hd (tagClose_none_word (r := n ++ (w2 ++ (t ++ r))) (by rw [hs]; simp)
      hw1 hn.tight ?_) ?_
    · obtain ⟨c, x, h1, h2⟩ := hn.head (b := w2 ++ (t ++ r))
      rw [h1]
      intro h
      cases h
      exact h2 (by decide)
    · obtain ⟨i1, e1, he⟩ := he.split
      obtain ⟨i2, e2, he⟩ := he.split
      obtain ⟨i3, e3, he⟩ := he.split
      obtain ⟨i4, e4, e5⟩ := he.split
      have ht4 : Tight i4.content := by rw [e5.1]; exact attrsThen_tight hth
      unfold P.tagOpen
      rw [char_iff.2 e1]
      simp only
      rw [ws_of e2 hw1 (by rw [e3.1]; exact hn.tight),
        ident_iff.2 ⟨n, rfl, hn, e3, by rw [e4.1, e5.1]; exact hends⟩]
      simp only
      rw [ws_of e4 hw2 ht4, ws_tight ht4, attrs_then hth e5 rfl]
      have hat' : At (a ++ '<' :: w1 ++ n ++ w2 ++ t)
          (i.after (['<'] ++ (w1 ++ (n ++ (w2 ++ t)))) r) := by simpa using hat
      rcases attr_fails hat' hf with h1 | ⟨h1, h2, h3⟩
      · have : P.attrs (owned n).str (i.after (['<'] ++ (w1 ++ (n ++ (w2 ++ t)))) r) = .error e := by
          rw [P.attrs_eq]
          change P.attr (owned n).str _ = _ at h1
          rw [h1]
          split
          · next hnil =>
            exfalso
            unfold P.attr at h1
            rw [ident_none.2 (by rw [hnil]; intro c hc; cases hc)] at h1
            cases h1
          · rfl
        rw [this]
      · have : P.attrs (owned n).str (i.after (['<'] ++ (w1 ++ (n ++ (w2 ++ t)))) r) =
            .ok ([], i.after (['<'] ++ (w1 ++ (n ++ (w2 ++ t)))) r) := by
          rw [P.attrs_eq]
          split
          · rfl
          · unfold P.attr
            rw [ident_none.2 h1]
        rw [this]
        simp only
        rw [ws_tight (attrsThen_rest hth), h2, h3]
        rfl

end Fuser
