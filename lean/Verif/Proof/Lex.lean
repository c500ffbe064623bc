import Verif.Proof.Parse
import Verif.Proof.Select
import Verif.Spec.Grammar

/-!
# The parser functions read the grammar

Each parser function succeeds exactly on the spellings of the grammar.
-/

namespace Fuser
open Spec

/-! ## Consuming -/

/-- Moving over a piece of text. -/
def Eats (i : Input) (p : Str) (j : Input) : Prop :=
  i.content = p ++ j.content ∧ j = i.after p j.content

theorem Eats.refl (i : Input) : Eats i [] i := ⟨rfl, rfl⟩

theorem Eats.of {i : Input} {p r : Str} (h : i.content = p ++ r) : Eats i p (i.after p r) := ⟨h, rfl⟩

theorem Eats.loc {i j : Input} {p : Str} (h : Eats i p j) : j.location = addLoc i.location p := by
  rw [h.2]; rfl

theorem Input.ext' {i j : Input} (h : i.content = j.content) (h' : i.location = j.location) :
    i = j := by
  cases i; cases j; simp_all

theorem Eats.trans {i j k : Input} {p q : Str} (h : Eats i p j) (h' : Eats j q k) :
    Eats i (p ++ q) k := by
  refine ⟨by rw [h.1, h'.1, List.append_assoc], Input.ext' rfl ?_⟩
  rw [h'.loc, h.loc]
  simp [Input.after]

theorem Eats.split {i k : Input} {p q : Str} (h : Eats i (p ++ q) k) :
    ∃ j, Eats i p j ∧ Eats j q k := by
  refine ⟨i.after p (q ++ k.content), ⟨by rw [h.1]; simp [Input.after], rfl⟩, rfl, ?_⟩
  refine Input.ext' rfl ?_
  rw [h.loc]
  simp [Input.after]

theorem Eats.uncons {i k : Input} {c : Char} {q : Str} (h : Eats i (c :: q) k) :
    ∃ j, Eats i [c] j ∧ Eats j q k := Eats.split (p := [c]) h

theorem Eats.unique {i j k : Input} {p : Str} (h : Eats i p j) (h' : Eats i p k) : j = k := by
  refine Input.ext' ?_ ?_
  · have := h.1.symm.trans h'.1
    exact List.append_cancel_left this
  · rw [h.loc, h'.loc]

/-! ## Characters -/

theorem terminator_iff {c : Char} : terminator c = true ↔ c ∈ terminators := by
  simp [terminator, terminators, or_assoc]

theorem terminator_false {c : Char} : terminator c = false ↔ c ∉ terminators := by
  rw [← terminator_iff]; simp

theorem char_iff {c : Char} {i j : Input} : P.char c i = some j ↔ Eats i [c] j := by
  constructor
  · intro h
    obtain ⟨h1, h2⟩ := char_some h
    exact ⟨h1, Input.ext' rfl h2⟩
  · intro h
    rw [char_of_content (r := j.content) h.1, ← h.2]

theorem char_none {c : Char} {i : Input} : P.char c i = none ↔ i.content.head? ≠ some c := by
  unfold P.char
  cases h : i.content with
  | nil => simp
  | cons d r => by_cases hd : d = c <;> simp [hd]

theorem ws_spec (i : Input) : ∃ w, Blank w ∧ Eats i w (P.ws i) ∧ Tight (P.ws i).content := by
  refine ⟨i.content.takeWhile isWhitespace, ?_, ⟨List.takeWhile_append_dropWhile.symm, rfl⟩, ?_⟩
  · intro c hc
    exact isWhitespace_iff.1 (takeWhile_forall c hc)
  · intro c hc
    change (i.content.dropWhile isWhitespace).head? = some c at hc
    cases hd : i.content.dropWhile isWhitespace with
    | nil => rw [hd] at hc; cases hc
    | cons d r =>
      rw [hd] at hc
      cases hc
      exact isWhitespace_false.1 (dropWhile_cons hd)

theorem takeWhile_stop {p : Char → Bool} {a b : Str} (ha : ∀ c ∈ a, p c = true)
    (hb : ∀ c, b.head? = some c → p c = false) :
    (a ++ b).takeWhile p = a ∧ (a ++ b).dropWhile p = b := by
  induction a with
  | nil =>
    cases b with
    | nil => simp
    | cons c b => simp [hb c rfl]
  | cons c a ih =>
    have := ih fun d hd => ha d (List.mem_cons_of_mem _ hd)
    simp [ha c (List.mem_cons_self), this]

theorem ws_of {i j : Input} {w : Str} (h : Eats i w j) (hw : Blank w) (hj : Tight j.content) :
    P.ws i = j := by
  have := takeWhile_stop (p := isWhitespace) (a := w) (b := j.content)
    (fun c hc => isWhitespace_iff.2 (hw c hc)) (fun c hc => isWhitespace_false.2 (hj c hc))
  unfold P.ws
  rw [h.1, this.1, this.2]
  exact h.2.symm

theorem ws_tight {i : Input} (h : Tight i.content) : P.ws i = i :=
  ws_of (Eats.refl i) (by simp [Blank]) h

/-! ## Names -/

theorem ident_iff {i j : Input} {n : Identifier} : P.ident i = .ok (some (n, j)) ↔
    ∃ w, n = owned w ∧ Name w ∧ Eats i w j ∧ Ends j.content := by
  constructor
  · intro h
    obtain ⟨hw, hn, hv⟩ := ident_some h
    obtain ⟨h1, -, h3, h4, h5⟩ := word_some hw
    exact ⟨n.str, hn, ⟨validate_iff.1 hv, fun c hc => terminator_false.1 (h3 c hc)⟩, ⟨h1, h5⟩,
      fun c hc => terminator_iff.1 (h4 c hc)⟩
  · rintro ⟨w, rfl, ⟨hv, hw⟩, he, hends⟩
    have := takeWhile_stop (p := fun c => !terminator c) (a := w) (b := j.content)
      (fun c hc => by simp [terminator_false.2 (hw c hc)])
      (fun c hc => by simp [terminator_iff.2 (hends c hc)])
    have hword : P.word i = some (w, j) := by
      unfold P.word
      rw [he.1]
      simp only [this.1, this.2, if_neg hv.1]
      rw [← he.2]
    unfold P.ident
    rw [hword]
    simp only
    rw [validate_iff.2 hv]
    rfl

theorem word_none {i : Input} : P.word i = none ↔ Ends i.content := by
  unfold P.word
  simp only
  constructor
  · intro h
    split at h
    · next hw =>
      intro c hc
      cases hi : i.content with
      | nil => rw [hi] at hc; cases hc
      | cons d r =>
        rw [hi] at hc hw
        cases hc
        rw [List.takeWhile_cons] at hw
        split at hw
        · cases hw
        · next ht => exact terminator_iff.1 (by simpa using ht)
    · cases h
  · intro h
    cases hi : i.content with
    | nil => simp
    | cons d r =>
      have := terminator_iff.2 (h d (by rw [hi]; rfl))
      simp [this]

theorem ident_none {i : Input} : P.ident i = .ok none ↔ Ends i.content := by
  rw [← word_none]
  unfold P.ident
  cases P.word i with
  | none => simp
  | some p => cases h : validate p.1 <;> simp [h]

theorem untilChar_iff {c : Char} {i j : Input} {a : Str} : P.untilChar c i = some (a, j) ↔
    Eats i a j ∧ c ∉ a ∧ j.content.head? = some c := by
  constructor
  · intro h
    obtain ⟨h1, h2, ⟨r, h3⟩, h4⟩ := untilChar_some h
    exact ⟨⟨h1, h4⟩, h2, by rw [h3]; rfl⟩
  · rintro ⟨he, ha, hj⟩
    have := takeWhile_stop (p := fun d => !(d == c)) (a := a) (b := j.content)
      (fun d hd => by
        have : d ≠ c := fun h => ha (h ▸ hd)
        simpa using this)
      (fun d hd => by rw [hj] at hd; cases hd; simp)
    have hm : c ∈ i.content := by
      rw [he.1]
      exact List.mem_append_right _ (List.mem_of_mem_head? (by simpa using hj))
    unfold P.untilChar
    rw [if_pos hm, he.1, this.1, this.2, ← he.2]

theorem str_iff {pat : Str} {i j : Input} : P.str pat i = some j ↔ Eats i pat j := by
  unfold P.str
  constructor
  · intro h
    split at h
    · next hp =>
      obtain ⟨t, ht⟩ := List.isPrefixOf_iff_prefix.1 hp
      cases h
      rw [← ht, List.drop_left]
      exact Eats.of ht.symm
    · cases h
  · intro h
    rw [if_pos (List.isPrefixOf_iff_prefix.2 ⟨j.content, h.1.symm⟩)]
    rw [h.1, List.drop_left, ← h.2]

theorem str_none {pat : Str} {i : Input} : P.str pat i = none ↔ ¬ pat <+: i.content := by
  unfold P.str
  split
  · next h => simp [List.isPrefixOf_iff_prefix.1 h]
  · next h =>
    simp only [true_iff]
    exact fun h' => h (List.isPrefixOf_iff_prefix.2 h')

/-! ## Small facts about the grammar -/

theorem Spec.Tight.append {a b : Str} (h : Tight a) (ha : a ≠ []) : Tight (a ++ b) := by
  intro c hc
  cases a with
  | nil => exact absurd rfl ha
  | cons d a => exact h c hc

theorem Spec.Ends.append {a b : Str} (h : Ends a) (ha : a ≠ []) : Ends (a ++ b) := by
  intro c hc
  cases a with
  | nil => exact absurd rfl ha
  | cons d a => exact h c hc

theorem Spec.Ends.of_append {a b : Str} (h : Ends (a ++ b)) (ha : a ≠ []) : Ends a := by
  intro c hc
  cases a with
  | nil => exact absurd rfl ha
  | cons d a => exact h c hc

theorem Spec.Name.ne_nil {n : Str} (h : Name n) : n ≠ [] := h.1.1

theorem Spec.Name.tight {n b : Str} (h : Name n) : Tight (n ++ b) := by
  refine Tight.append ?_ h.ne_nil
  intro c hc
  exact h.1.2.2.1 c (List.mem_of_mem_head? (by simpa using hc))

theorem Spec.Name.head {n b : Str} (h : Name n) : ∃ c r, n ++ b = c :: r ∧ c ∉ terminators := by
  obtain ⟨c, r, rfl⟩ := List.exists_cons_of_ne_nil h.ne_nil
  exact ⟨c, r ++ b, rfl, h.2 c List.mem_cons_self⟩

theorem tight_char {c : Char} {r : Str} (h : ¬ Space c) : Tight (c :: r) := by
  intro d hd
  cases hd
  exact h

theorem ends_char {c : Char} {r : Str} (h : c ∈ terminators) : Ends (c :: r) := by
  intro d hd
  cases hd
  exact h

theorem not_space_slash : ¬ Space '/' := by decide
theorem not_space_gt : ¬ Space '>' := by decide
theorem not_space_eq : ¬ Space '=' := by decide
theorem not_space_quote : ¬ Space '"' := by decide
theorem Spec.TagTail.head {as : Attributes} {sc : Bool} {t : Str} (h : TagTail as sc t) :
    ∃ c r, t = c :: r ∧ ¬ Space c ∧ c ≠ '=' := by
  cases h with
  | «open» => exact ⟨_, _, rfl, by decide, by decide⟩
  | selfClose => exact ⟨_, _, rfl, by decide, by decide⟩
  | bare hn =>
    obtain ⟨c, r, rfl⟩ := List.exists_cons_of_ne_nil hn.ne_nil
    refine ⟨c, _, rfl, hn.1.2.2.1 c List.mem_cons_self, ?_⟩
    rintro rfl
    exact hn.2 '=' List.mem_cons_self (by decide)
  | valued hn =>
    obtain ⟨c, r, rfl⟩ := List.exists_cons_of_ne_nil hn.ne_nil
    refine ⟨c, _, rfl, hn.1.2.2.1 c List.mem_cons_self, ?_⟩
    rintro rfl
    exact hn.2 '=' List.mem_cons_self (by decide)

theorem Spec.TagTail.tight {as : Attributes} {sc : Bool} {t r : Str} (h : TagTail as sc t) :
    Tight (t ++ r) := by
  obtain ⟨c, r', rfl, h1, -⟩ := h.head
  exact tight_char h1

theorem Spec.TagTail.ne_nil {as : Attributes} {sc : Bool} {t : Str} (h : TagTail as sc t) : t ≠ [] := by
  obtain ⟨c, r', rfl, -⟩ := h.head
  simp

theorem Spec.TagTail.gt {as : Attributes} {sc : Bool} {t : Str} (h : TagTail as sc t) : '>' ∈ t := by
  induction h with
  | «open» => simp
  | selfClose => simp
  | bare _ _ _ _ ih => simp [ih]
  | valued _ _ _ _ _ _ _ _ _ ih => simp [ih]

/-! ## Closing tags -/

theorem tagClose_iff {i : Input} {p : Parsed} : P.tagClose i = some (.ok p) ↔
    ∃ n s j, Piece (.closingTag n) s ∧ Eats i s j ∧ p = ⟨.closingTag n, i.location, .data, j⟩ := by
  constructor
  · intro h
    unfold P.tagClose at h
    cases h1 : P.char '<' i with
    | none => simp [h1] at h
    | some i1 =>
      simp only [h1] at h
      obtain ⟨w1, hw1, e1, -⟩ := ws_spec i1
      cases h2 : P.char '/' (P.ws i1) with
      | none => simp [h2] at h
      | some i2 =>
        simp only [h2] at h
        obtain ⟨w2, hw2, e2, -⟩ := ws_spec i2
        cases h3 : P.ident (P.ws i2) with
        | error e => simp [h3] at h
        | ok o =>
          cases o with
          | none => simp [h3] at h
          | some q =>
            obtain ⟨n, i3⟩ := q
            obtain ⟨w, rfl, hn, e3, hends⟩ := ident_iff.1 h3
            simp only [h3] at h
            obtain ⟨w3, hw3, e4, -⟩ := ws_spec i3
            cases h4 : P.char '>' (P.ws i3) with
            | none => simp [h4] at h
            | some i4 =>
              simp only [h4, Option.some.injEq, Except.ok.injEq] at h
              rw [char_iff] at h1 h2 h4
              refine ⟨owned w, _, i4, Piece.closing hw1 hw2 hn hw3 ?_, ?_, h.symm⟩
              · rw [e4.1, h4.1, ← List.append_assoc] at hends
                exact hends.of_append (by simp)
              · have := ((((((h1.trans e1).trans h2).trans e2).trans e3).trans e4).trans h4)
                simpa using this
  · rintro ⟨n, s, j, hp, he, rfl⟩
    cases hp with
    | @closing w1 w2 n w3 hw1 hw2 hn hw3 hends =>
      have he' : Eats i (['<'] ++ (w1 ++ (['/'] ++ (w2 ++ (n ++ (w3 ++ ['>'])))))) j := by
        simpa using he
      obtain ⟨i1, e1, he'⟩ := he'.split
      obtain ⟨i2, e2, he'⟩ := he'.split
      obtain ⟨i3, e3, he'⟩ := he'.split
      obtain ⟨i4, e4, he'⟩ := he'.split
      obtain ⟨i5, e5, he'⟩ := he'.split
      obtain ⟨i6, e6, e7⟩ := he'.split
      unfold P.tagClose
      rw [char_iff.2 e1]
      simp only
      rw [ws_of e2 hw1 (by rw [e3.1]; exact tight_char not_space_slash), char_iff.2 e3]
      simp only
      rw [ws_of e4 hw2 (by rw [e5.1]; exact hn.tight)]
      rw [ident_iff.2 ⟨n, rfl, hn, e5, by
        rw [e6.1, e7.1, ← List.append_assoc]; exact hends.append (by simp)⟩]
      simp only
      rw [ws_of e6 hw3 (by rw [e7.1]; exact tight_char not_space_gt), char_iff.2 e7]
    | start _ _ _ _ _ _ _ hs => cases hs

/-! ## Start tags -/

/-- One attribute and the white space after a name without value. -/
theorem attr_some {tag : Str} {i j : Input} {a : Attribute} (h : P.attr tag i = .ok (some (a, j))) :
    (∃ n w, a = ⟨owned n, none⟩ ∧ Name n ∧ Blank w ∧ Ends (w ++ j.content) ∧ Eats i (n ++ w) j ∧
      Tight j.content) ∨
    (∃ n w₁ w₂ w₃ v, a = ⟨owned n, some (.actual v)⟩ ∧ Name n ∧ Blank w₁ ∧ Ends (w₁ ++ ['=']) ∧
      Blank w₂ ∧ Blank w₃ ∧ Tight v ∧ '"' ∉ v ∧
      Eats i (n ++ w₁ ++ '=' :: w₂ ++ '"' :: w₃ ++ v ++ ['"']) j) := by
  unfold P.attr at h
  cases h1 : P.ident i with
  | error e => simp [h1] at h
  | ok o =>
    cases o with
    | none => simp [h1] at h
    | some q =>
      obtain ⟨n, i1⟩ := q
      obtain ⟨w, rfl, hn, e1, hends⟩ := ident_iff.1 h1
      simp only [h1] at h
      obtain ⟨w1, hw1, e2, ht⟩ := ws_spec i1
      cases h2 : P.char '=' (P.ws i1) with
      | none =>
        simp only [h2, Except.ok.injEq, Option.some.injEq, Prod.mk.injEq] at h
        obtain ⟨rfl, rfl⟩ := h
        refine .inl ⟨w, w1, rfl, hn, hw1, ?_, e1.trans e2, ht⟩
        rw [← e2.1]; exact hends
      | some i2 =>
        simp only [h2] at h
        rw [char_iff] at h2
        obtain ⟨w2, hw2, e3, -⟩ := ws_spec i2
        cases h3 : P.char '"' (P.ws i2) with
        | none => simp [h3] at h
        | some i3 =>
          simp only [h3] at h
          rw [char_iff] at h3
          obtain ⟨w3, hw3, e4, ht4⟩ := ws_spec i3
          cases h4 : P.untilChar '"' (P.ws i3) with
          | none => simp [h4] at h
          | some q =>
            obtain ⟨v, i4⟩ := q
            obtain ⟨e5, hv, hhd⟩ := untilChar_iff.1 h4
            simp only [h4, Except.ok.injEq, Option.some.injEq, Prod.mk.injEq] at h
            obtain ⟨rfl, rfl⟩ := h
            refine .inr ⟨w, w1, w2, w3, v, rfl, hn, hw1, ?_, hw2, hw3, ?_, hv, ?_⟩
            · rw [e2.1, h2.1, ← List.append_assoc] at hends
              exact hends.of_append (by simp)
            · intro c hc
              refine ht4 c ?_
              rw [e5.1]
              cases v with
              | nil => cases hc
              | cons d v => exact hc
            · have e6 : Eats i4 ['"'] (i4.after ['"'] i4.content.tail) := by
                refine Eats.of ?_
                cases hi : i4.content with
                | nil => rw [hi] at hhd; cases hhd
                | cons d r => rw [hi] at hhd; cases hhd; rfl
              have := ((((((e1.trans e2).trans h2).trans e3).trans h3).trans e4).trans e5).trans e6
              simpa using this

theorem tail_sound (tag : Str) (N : Nat) : ∀ {i j m : Input} {as : Attributes},
    P.size i ≤ N → Tight i.content → P.attrs tag i = .ok (as, j) →
    P.char '>' (P.slash (P.ws j)).2 = some m →
    ∃ t, TagTail as (P.slash (P.ws j)).1 t ∧ Eats i t m := by
  induction N with
  | zero =>
    intro i j m as hN ht ha hm
    have hi : i.content = [] := List.eq_nil_of_length_eq_zero (Nat.le_zero.1 hN)
    rw [P.attrs_eq, if_pos hi] at ha
    cases ha
    rw [ws_tight ht] at hm
    have : P.slash i = (false, i) := by
      unfold P.slash
      rw [char_none.2 (by rw [hi]; simp)]
    rw [this] at hm
    rw [char_none.2 (by rw [hi]; simp)] at hm
    cases hm
  | succ N ih =>
    intro i j m as hN ht ha hm
    have base : as = [] → j = i → ∃ t, TagTail as (P.slash (P.ws j)).1 t ∧ Eats i t m := by
      rintro rfl rfl
      rw [ws_tight ht] at hm ⊢
      unfold P.slash at hm ⊢
      cases h1 : P.char '/' j with
      | none =>
        rw [h1] at hm
        exact ⟨_, .open, char_iff.1 hm⟩
      | some k =>
        rw [h1] at hm
        obtain ⟨w, hw, e, -⟩ := ws_spec k
        refine ⟨_, .selfClose hw, ?_⟩
        exact (char_iff.1 h1).trans (e.trans (char_iff.1 hm))
    rw [P.attrs_eq] at ha
    split at ha
    · cases ha; exact base rfl rfl
    · cases h1 : P.attr tag i with
      | error e => simp [h1] at ha
      | ok o =>
        cases o with
        | none => simp only [h1] at ha; cases ha; exact base rfl rfl
        | some q =>
          obtain ⟨a, r⟩ := q
          simp only [h1] at ha
          cases h2 : P.attrs tag (P.ws r) with
          | error e => simp [h2] at ha
          | ok q =>
            obtain ⟨as', j'⟩ := q
            simp only [h2, Except.ok.injEq, Prod.mk.injEq] at ha
            obtain ⟨rfl, rfl⟩ := ha
            have hlt := P.attr_size h1
            have hle : P.size (P.ws r) ≤ P.size r := ws_content_le r
            obtain ⟨w4, hw4, e4, ht4⟩ := ws_spec r
            obtain ⟨t, htt, e5⟩ := ih (by omega) ht4 h2 hm
            obtain ⟨n, w, rfl, hn, hw, hends, e, htr⟩ |
              ⟨n, w1, w2, w3, v, rfl, hn, hw1, hends, hw2, hw3, hv, hq, e⟩ := attr_some h1
            · rw [ws_tight htr] at e5
              refine ⟨_, .bare hn hw ?_ htt, e.trans e5⟩
              rw [e5.1, ← List.append_assoc] at hends
              exact hends.of_append (by simp [htt.ne_nil])
            · refine ⟨_, .valued hn hw1 hends hw2 hw3 hv hq hw4 htt, ?_⟩
              have := (e.trans e4).trans e5
              simpa using this

theorem tail_complete (tag : Str) {as : Attributes} {sc : Bool} {t : Str} (h : TagTail as sc t) :
    ∀ {i m : Input}, Eats i t m →
    ∃ j k, P.attrs tag i = .ok (as, j) ∧ P.slash (P.ws j) = (sc, k) ∧ P.char '>' k = some m := by
  have stop : ∀ {i : Input}, Ends i.content → P.attrs tag i = .ok ([], i) := by
    intro i hi
    rw [P.attrs_eq]
    split
    · rfl
    · unfold P.attr
      rw [ident_none.2 hi]
  induction h with
  | «open» =>
    intro i m he
    refine ⟨i, i, stop (by rw [he.1]; exact ends_char (by decide)), ?_, char_iff.2 he⟩
    rw [ws_tight (by rw [he.1]; exact tight_char (by decide))]
    unfold P.slash
    rw [char_none.2 (by rw [he.1]; simp)]
  | @selfClose w hw =>
    intro i m he
    obtain ⟨j, e1, he⟩ := he.uncons
    obtain ⟨k, e2, e3⟩ := he.split
    refine ⟨i, k, stop (by rw [e1.1]; exact ends_char (by decide)), ?_, char_iff.2 e3⟩
    rw [ws_tight (by rw [e1.1]; exact tight_char (by decide))]
    unfold P.slash
    rw [char_iff.2 e1]
    simp only
    rw [ws_of e2 hw (by rw [e3.1]; exact tight_char (by decide))]
  | @bare n w r as sc hn hw hends htt ih =>
    intro i m he
    obtain ⟨i2, he, e3⟩ := he.split
    obtain ⟨i1, e1, e2⟩ := he.split
    obtain ⟨j, k, h1, h2, h3⟩ := ih e3
    refine ⟨j, k, ?_, h2, h3⟩
    have ht2 : Tight i2.content := by rw [e3.1]; exact htt.tight
    rw [P.attrs_eq, if_neg (by rw [e1.1]; simp [hn.ne_nil])]
    have : P.attr tag i = .ok (some (⟨owned n, none⟩, i2)) := by
      unfold P.attr
      rw [ident_iff.2 ⟨n, rfl, hn, e1, by
        rw [e2.1, e3.1, ← List.append_assoc]; exact hends.append (by simp [htt.ne_nil])⟩]
      simp only
      rw [ws_of e2 hw ht2, char_none.2]
      obtain ⟨c, r', rfl, -, hc⟩ := htt.head
      rw [e3.1]
      simpa using hc
    rw [this]
    simp only
    rw [ws_tight ht2, h1]
  | @valued n w1 w2 w3 v w4 r as sc hn hw1 hends hw2 hw3 hv hq hw4 htt ih =>
    intro i m he
    have he' : Eats i (n ++ (w1 ++ (['='] ++ (w2 ++ (['"'] ++ (w3 ++ (v ++ (['"'] ++
        (w4 ++ r))))))))) m := by simpa using he
    obtain ⟨i1, e1, he'⟩ := he'.split
    obtain ⟨i2, e2, he'⟩ := he'.split
    obtain ⟨i3, e3, he'⟩ := he'.split
    obtain ⟨i4, e4, he'⟩ := he'.split
    obtain ⟨i5, e5, he'⟩ := he'.split
    obtain ⟨i6, e6, he'⟩ := he'.split
    obtain ⟨i7, e7, he'⟩ := he'.split
    obtain ⟨i8, e8, he'⟩ := he'.split
    obtain ⟨i9, e9, e10⟩ := he'.split
    obtain ⟨j, k, h1, h2, h3⟩ := ih e10
    refine ⟨j, k, ?_, h2, h3⟩
    rw [P.attrs_eq, if_neg (by rw [e1.1]; simp [hn.ne_nil])]
    have : P.attr tag i = .ok (some (⟨owned n, some (.actual v)⟩, i8)) := by
      unfold P.attr
      rw [ident_iff.2 ⟨n, rfl, hn, e1, by
        rw [e2.1, e3.1, ← List.append_assoc]; exact hends.append (by simp)⟩]
      simp only
      rw [ws_of e2 hw1 (by rw [e3.1]; exact tight_char not_space_eq), char_iff.2 e3]
      simp only
      rw [ws_of e4 hw2 (by rw [e5.1]; exact tight_char not_space_quote), char_iff.2 e5]
      simp only
      have ht6 : Tight i6.content := by
        rw [e7.1]
        cases v with
        | nil => rw [e8.1]; exact tight_char not_space_quote
        | cons d v => exact hv.append (by simp)
      rw [ws_of e6 hw3 ht6, untilChar_iff.2 ⟨e7, hq, by rw [e8.1]; rfl⟩]
      simp only
      have : i7.content.tail = i8.content := by rw [e8.1]; rfl
      rw [this, ← e8.2]
      rfl
    rw [this]
    simp only
    rw [ws_of e9 hw4 (by rw [e10.1]; exact htt.tight), h1]

theorem ascii_voids : ∀ v ∈ voidNames, Ascii v := by
  intro v hv
  rw [← isAscii_iff']
  have : ∀ v ∈ voidNames, isAscii v = true := by decide
  exact this v hv

theorem isVoidTag_iff {n : Str} : isVoidTag n = true ↔ VoidName n := by
  unfold isVoidTag VoidName
  rw [List.any_eq_true]
  constructor
  · rintro ⟨v, hv, h⟩
    have hv' : v.toList ∈ voidNames := List.mem_map_of_mem hv
    exact ⟨v.toList, hv', (identifierEq_right (ascii_voids _ hv')).1 h⟩
  · rintro ⟨v, hv, h⟩
    obtain ⟨u, hu, rfl⟩ := List.mem_map.1 hv
    exact ⟨u, hu, (identifierEq_right (ascii_voids _ hv)).2 h⟩

theorem startEvent_iff {t : Identifier} {as : Attributes} {sc : Bool} {e : Event} :
    P.startEvent t as sc = e ↔ StartEvent t as sc e := by
  unfold P.startEvent
  constructor
  · rintro rfl
    split
    · next h => exact .void (isVoidTag_iff.1 h)
    · next h =>
      rw [isVoidTag_iff] at h
      cases sc with
      | true => exact .selfClosed h
      | false => exact .opening h
  · intro h
    cases h with
    | void h => rw [if_pos (isVoidTag_iff.2 h)]
    | selfClosed h => rw [if_neg (by rwa [isVoidTag_iff])]; rfl
    | opening h => rw [if_neg (by rwa [isVoidTag_iff])]; rfl

/-- What follows an event. -/
def modeAfter : Event → Mode
  | .openingTag t _ => modeForTag t.str false
  | _ => .data

theorem void_not_raw {t : Str} (h : isVoidTag t = true) : modeForTag t false = .data := by
  have key : ∀ v ∈ voidNames, ∀ r ∈ ["script".toList, "style".toList, "title".toList,
      "textarea".toList], identifierEq v r = false := by decide
  unfold isVoidTag at h
  rw [List.any_eq_true] at h
  obtain ⟨v, hv, h⟩ := h
  have hv' : v.toList ∈ voidNames := List.mem_map_of_mem hv
  have : ∀ r ∈ ["script".toList, "style".toList, "title".toList, "textarea".toList],
      identifierEq t r = false := by
    intro r hr
    rw [identifierEq_congr h]
    exact key _ hv' r hr
  simp only [List.mem_cons, List.not_mem_nil, or_false, forall_eq_or_imp, forall_eq] at this
  obtain ⟨h1, h2, h3, h4⟩ := this
  simp only [modeForTag, findRawTag, h1, h2, h3, h4]
  rfl

theorem mode_start {t : Identifier} {as : Attributes} {sc : Bool} :
    modeForTag t.str sc = modeAfter (P.startEvent t as sc) := by
  unfold P.startEvent
  split
  · next h =>
    cases sc with
    | false => exact void_not_raw h
    | true => rfl
  · cases sc <;> rfl

/-- A start tag, apart from the exclusion of comments and doctypes. -/
def StartText (e : Event) (s : Str) : Prop :=
  ∃ w₁ n w₂ as sc r, Blank w₁ ∧ Name n ∧ Blank w₂ ∧ Ends (w₂ ++ r) ∧ TagTail as sc r ∧
    StartEvent (owned n) as sc e ∧ s = '<' :: w₁ ++ n ++ w₂ ++ r

theorem tagOpen_iff {i : Input} {p : Parsed} : P.tagOpen i = some (.ok p) ↔
    ∃ e s j, StartText e s ∧ Eats i s j ∧ p = ⟨e, i.location, modeAfter e, j⟩ := by
  constructor
  · intro h
    unfold P.tagOpen at h
    cases h1 : P.char '<' i with
    | none => simp [h1] at h
    | some i1 =>
      simp only [h1] at h
      rw [char_iff] at h1
      obtain ⟨w1, hw1, e1, -⟩ := ws_spec i1
      cases h3 : P.ident (P.ws i1) with
      | error e => simp [h3] at h
      | ok o =>
        cases o with
        | none => simp [h3] at h
        | some q =>
          obtain ⟨n, i3⟩ := q
          obtain ⟨w, rfl, hn, e3, hends⟩ := ident_iff.1 h3
          simp only [h3] at h
          obtain ⟨w3, hw3, e4, ht4⟩ := ws_spec i3
          rw [ws_tight ht4] at h
          cases h4 : P.attrs (owned w).str (P.ws i3) with
          | error e => simp [h4] at h
          | ok q =>
            obtain ⟨as, j⟩ := q
            simp only [h4] at h
            cases h5 : P.char '>' (P.slash (P.ws j)).2 with
            | none => simp [h5] at h
            | some m =>
              simp only [h5, Option.some.injEq, Except.ok.injEq] at h
              obtain ⟨t, htt, e5⟩ := tail_sound _ _ (Nat.le_refl _) ht4 h4 h5
              refine ⟨_, _, m, ⟨w1, w, w3, as, _, t, hw1, hn, hw3, ?_, htt,
                startEvent_iff.1 rfl, rfl⟩, ?_, ?_⟩
              · rw [e4.1, e5.1, ← List.append_assoc] at hends
                exact hends.of_append (by simp [htt.ne_nil])
              · have := (((h1.trans e1).trans e3).trans e4).trans e5
                simpa using this
              · rw [← h, mode_start (as := as)]
  · rintro ⟨e, s, j, ⟨w1, n, w2, as, sc, r, hw1, hn, hw2, hends, htt, hs, rfl⟩, he, rfl⟩
    have he' : Eats i (['<'] ++ (w1 ++ (n ++ (w2 ++ r)))) j := by simpa using he
    obtain ⟨i1, e1, he'⟩ := he'.split
    obtain ⟨i2, e2, he'⟩ := he'.split
    obtain ⟨i3, e3, he'⟩ := he'.split
    obtain ⟨i4, e4, e5⟩ := he'.split
    have ht4 : Tight i4.content := by rw [e5.1]; exact htt.tight
    obtain ⟨j', k, h1, h2, h3⟩ := tail_complete (owned n).str htt e5
    unfold P.tagOpen
    rw [char_iff.2 e1]
    simp only
    rw [ws_of e2 hw1 (by rw [e3.1]; exact hn.tight)]
    rw [ident_iff.2 ⟨n, rfl, hn, e3, by
        rw [e4.1, e5.1, ← List.append_assoc]; exact hends.append (by simp [htt.ne_nil])⟩]
    simp only
    rw [ws_of e4 hw2 ht4, ws_tight ht4, h1]
    simp only [h2, h3]
    rw [mode_start (as := as), startEvent_iff.2 hs]

end Fuser
