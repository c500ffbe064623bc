import Verif.Spec.Concat
import Verif.Proof.Canonical
import Verif.Proof.FromStr

/-!
# Lemmas on texts one after the other
-/

namespace Fuser

open Spec

theorem takeWhile_all {α : Type} {P : α → Bool} {l : List α} (h : ∀ x ∈ l, P x = true) :
    l.takeWhile P = l := by
  induction l with
  | nil => rfl
  | cons x l ih =>
    rw [List.forall_mem_cons] at h
    rw [List.takeWhile_cons, if_pos h.1, ih h.2]

theorem takeWhile_some {α : Type} {P : α → Bool} {l k : List α} (h : ∃ x ∈ l, P x = false) :
    (l ++ k).takeWhile P = l.takeWhile P := by
  induction l with
  | nil => simp at h
  | cons x l ih =>
    rw [List.cons_append, List.takeWhile_cons, List.takeWhile_cons]
    split
    · rename_i hx
      rw [ih]
      obtain ⟨y, hy, hP⟩ := h
      rcases List.mem_cons.1 hy with rfl | hy
      · rw [hx] at hP; cases hP
      · exact ⟨y, hy, hP⟩
    · rfl

theorem shift_posAfter (a b : Str) : shiftLocation (posAfter a) (posAfter b) = posAfter (a ++ b) := by
  unfold shiftLocation posAfter
  simp only [List.count_append, List.reverse_append, List.map_append, List.sum_append,
    Location.mk.injEq]
  refine ⟨by omega, ?_, trivial⟩
  by_cases h : '\n' ∈ b
  · have hc : 0 < b.count '\n' := List.count_pos_iff.2 h
    rw [if_neg (by omega), takeWhile_some ⟨'\n', List.mem_reverse.2 h, by simp⟩]
  · have hc : b.count '\n' = 0 := List.count_eq_zero.2 h
    have hall : ∀ x ∈ b.reverse, decide (x ≠ '\n') = true := by
      intro x hx
      rw [List.mem_reverse] at hx
      simp only [ne_eq, decide_not, Bool.not_eq_eq_eq_not, Bool.not_true, decide_eq_false_iff_not]
      rintro rfl
      exact h hx
    rw [if_pos (by omega), List.takeWhile_append_of_pos hall, List.length_append, takeWhile_all hall]
    omega

theorem shift_lexFail (s : Str) {a b : Str} {e : ParseError} (h : LexFail a b e) :
    LexFail (s ++ a) b (shiftError (posAfter s) e) := by
  cases h with
  | openingTail h1 h2 h3 h4 h5 h6 h7 h8 =>
    refine .openingTail h1 h2 h3 h4 h5 ?_ h7 h8
    cases h6 <;> simp only [shiftError, shift_posAfter, ← List.append_assoc]
    · exact .identifier ‹_›
    · exact .value ‹_› ‹_› ‹_› ‹_› ‹_› ‹_›
    · exact .unclosedValue ‹_› ‹_› ‹_› ‹_› ‹_›
    · exact .noEnd ‹_› ‹_› ‹_›
    · exact .noEndSlash ‹_› ‹_› ‹_›
  | _ =>
    simp only [shiftError, shift_posAfter, ← List.append_assoc]
    constructor <;> assumption

/-- The elements open, with the text before them longer. -/
def shiftOpened (s : Str) (st : List Opened) : List Opened := st.map fun o => (o.1, s ++ o.2)

theorem shift_opens {L : Option Nat} (s : Str) {a : Str} {st st' : List Opened} {d : Doc}
    (h : Opens L a st d st') : Opens L (s ++ a) (shiftOpened s st) d (shiftOpened s st') := by
  induction h with
  | nil => exact .nil
  | opening h _ ih =>
    refine .opening (by simpa [shiftOpened] using h) ?_
    rw [List.append_assoc]
    exact ih
  | closing h _ ih =>
    refine .closing h ?_
    rw [List.append_assoc]
    exact ih
  | leaf h _ ih =>
    refine .leaf h ?_
    rw [List.append_assoc]
    exact ih

theorem shift_fails {L : Option Nat} (s : Str) {a b : Str} {st : List Opened} {e : ParseError}
    (h : Fails L a st b e) :
    Fails L (s ++ a) (shiftOpened s st) b (shiftError (posAfter s) e) := by
  cases h with
  | @missing o st =>
    have : shiftError (posAfter s)
        (.missingClosingTags o.report (st.reverse.map Opened.report)) =
        .missingClosingTags (Opened.report (o.1, s ++ o.2))
          ((shiftOpened s st).reverse.map Opened.report) := by
      simp [shiftError, Opened.report, shift_posAfter, shiftOpened, ← List.map_reverse]
    rw [this]
    exact .missing
  | lex h h' => exact .lex h (shift_lexFail s h')
  | tooDeep h h' h'' =>
    simp only [shiftError, shift_posAfter]
    exact .tooDeep h h' (by simpa [shiftOpened] using h'')
  | unexpected h =>
    simp only [shiftError, shift_posAfter]
    exact .unexpected h
  | @mismatched o st c p r h h' =>
    simp only [shiftError, shift_posAfter]
    exact .mismatched (o := (o.1, s ++ o.2)) h h'

theorem fails_head {L : Option Nat} {a b : Str} {st : List Opened} {e : ParseError}
    (h : Fails L a st b e) : b = [] ∨ b.head? = some '<' := by
  have hp : ∀ {e : Event} {p r : Str}, Piece e p → (¬ ∃ s, e = .data s) →
      (p ++ r).head? = some '<' := by
    intro e p r h hd
    rcases piece_head h with ⟨h1, -⟩ | ⟨-, h2⟩
    · exact absurd h1 hd
    · cases p with
      | nil => cases h2
      | cons c p => exact h2
  cases h with
  | missing => exact .inl rfl
  | lex _ h =>
    right
    cases h <;> rfl
  | tooDeep h => exact .inr (hp h (by rintro ⟨_, h⟩; cases h))
  | unexpected h => exact .inr (hp h (by rintro ⟨_, h⟩; cases h))
  | mismatched h => exact .inr (hp h (by rintro ⟨_, h⟩; cases h))

theorem opens_tail {L : Option Nat} {a : Str} {st st' : List Opened} {x : Event × Str} {d : Doc}
    (h : Opens L a st (x :: d) st') :
    ∃ st₁, Opens L (a ++ x.2) st₁ d st' ∧
      ∀ {d' st''}, Opens L (a ++ x.2) st₁ d' st'' → Opens L a st (x :: d') st'' := by
  cases h with
  | opening h h' => exact ⟨_, h', fun h'' => .opening h h''⟩
  | closing h h' => exact ⟨_, h', fun h'' => .closing h h''⟩
  | leaf h h' => exact ⟨_, h', fun h'' => .leaf h h''⟩

theorem reads_head {d : Doc} {b : Str} (h : Reads d b) (hd : d ≠ []) : (Doc.text d).head? ≠ none := by
  have key : ∀ {e : Event} {p : Str} {d : Doc}, Piece e p → (Doc.text ((e, p) :: d)).head? ≠ none := by
    intro e p d h
    have := piece_ne_nil h
    cases p with
    | nil => exact absurd rfl this
    | cons c p => simp [Doc.text]
  cases h with
  | nil => exact absurd rfl hd
  | plain h => exact key h
  | rawStart h => exact key h
  | raw h => exact key h

theorem head_append {a b : Str} (h : a.head? ≠ none) : (a ++ b).head? = a.head? := by
  cases a with
  | nil => exact absurd rfl h
  | cons c a => rfl

theorem piece_data {d : Data} {p : Str} (h : Piece (.data d) p) :
    p ≠ [] ∧ '<' ∉ p ∧ d = .actual p := by
  cases h with
  | data h h' => exact ⟨h, h', rfl⟩
  | start _ _ _ _ _ _ _ hs => cases hs

theorem reads_first_data {d : Data} {p : Str} {D : Doc} {b : Str} (h : Reads ((.data d, p) :: D) b) :
    Piece (.data d) p ∧ Reads D b ∧ ∀ c, (Doc.text D ++ b).head? = some c → c = '<' := by
  cases h with
  | plain h _ h' h'' => exact ⟨h, h'', fun c => h' _ c rfl⟩
  | rawStart _ h => obtain ⟨_, h, _⟩ := h; cases h
  | raw _ h => obtain ⟨_, h, _⟩ := h; cases h

theorem inRaw_cons {x : Event × Str} {d : Doc} (h : InRaw (x :: d)) :
    InRaw d ∨ d = [] ∧ ∃ t, OpensRaw x.1 t := by
  obtain ⟨y, e, r, t, hx, ho⟩ := h
  cases y with
  | nil =>
    obtain ⟨rfl, rfl⟩ := List.cons.inj hx
    exact .inr ⟨rfl, t, ho⟩
  | cons z y =>
    obtain ⟨-, hx⟩ := List.cons.inj hx
    exact .inl ⟨y, e, r, t, hx, ho⟩

theorem inRaw_of_cons {x : Event × Str} {d : Doc} (h : InRaw d) : InRaw (x :: d) := by
  obtain ⟨y, e, r, t, rfl, ho⟩ := h
  exact ⟨x :: y, e, r, t, rfl, ho⟩

/-- The head of a text read, when it does not begin with data. -/
theorem reads_head_lt {d : Doc} {b : Str} (h : Reads d b) (hd : d = [] → b = [] ∨ b.head? = some '<')
    (hn : ¬ ∃ s q d', d = (.data s, q) :: d') {c : Char} (hc : (Doc.text d ++ b).head? = some c) :
    c = '<' := by
  cases d with
  | nil =>
    rcases hd rfl with rfl | hb
    · cases hc
    · rw [show Doc.text [] ++ b = b from rfl, hb] at hc
      cases hc
      rfl
  | cons x d =>
    obtain ⟨e, p⟩ := x
    have hp : Piece e p := by
      cases h <;> assumption
    rcases piece_head hp with ⟨⟨s, rfl⟩, -⟩ | ⟨-, h2⟩
    · exact absurd ⟨s, p, d, rfl⟩ hn
    · have : Doc.text ((e, p) :: d) ++ b = p ++ (Doc.text d ++ b) := by simp [Doc.text]
      rw [this, head_append (by rw [h2]; simp), h2] at hc
      cases hc
      rfl

theorem glue_cons {e : Event} {es fs : List Event}
    (h : ¬ (es = [] ∧ (∃ s, e = .data s) ∧ ∃ s gs, fs = .data s :: gs)) :
    glue (e :: es) fs = e :: glue es fs := by
  cases es with
  | cons e' es => simp only [glue]
  | nil =>
    cases e with
    | data s =>
      cases fs with
      | nil => rfl
      | cons f fs =>
        cases f with
        | data s' => exact absurd ⟨rfl, ⟨s, rfl⟩, s', fs, rfl⟩ h
        | _ => rfl
    | _ => simp only [glue]

theorem concat_reads {L : Option Nat} {d : Doc} {c : Str} (h : Reads d c) (hc : c = []) {a : Str}
    {st : List Opened} (ho : Opens L a st d []) {d' : Doc} {b : Str} (h' : Reads d' b)
    (hb : d' = [] → b = [] ∨ b.head? = some '<') {st' : List Opened} (ho' : Opens L [] [] d' st') :
    ∃ D, Doc.text D = Doc.text d ++ Doc.text d' ∧
      Doc.events D = glue (Doc.events d) (Doc.events d') ∧ Reads D b ∧
      Opens L a st D (shiftOpened (a ++ Doc.text d) st') ∧ (InRaw D → InRaw d') := by
  induction h generalizing a st with
  | nil =>
    cases ho
    refine ⟨d', rfl, rfl, h', ?_, id⟩
    have := shift_opens a ho'
    simpa [Doc.text, shiftOpened] using this
  | @plain e p d c hp hr hd hr' ih =>
    subst hc
    obtain ⟨st₁, ho₁, hstep⟩ := opens_tail ho
    by_cases hm : d = [] ∧ (∃ s, e = .data s) ∧ ∃ s q d'', d' = (.data s, q) :: d''
    · obtain ⟨rfl, ⟨s, rfl⟩, s', q, d'', rfl⟩ := hm
      obtain ⟨hne, hlt, rfl⟩ := piece_data hp
      obtain ⟨hq, h'', hd''⟩ := reads_first_data h'
      obtain ⟨hne', hlt', rfl⟩ := piece_data hq
      cases ho with
      | leaf _ ho =>
      cases ho
      cases ho' with
      | leaf _ ho' =>
      refine ⟨(.data (.actual (p ++ q)), p ++ q) :: d'', by simp [Doc.text], by
        simp [Doc.events, glue, Deferred.str], .plain (.data (by simp [hne]) (by simp [hlt, hlt']))
          (by rintro ⟨_, _, h, _⟩; cases h) (fun _ c _ h => hd'' c h) h'', ?_, ?_⟩
      · have := shift_opens (a ++ p) ho'
        refine .leaf trivial ?_
        simpa [Doc.text, shiftOpened, List.append_assoc] using this
      · intro h
        rcases inRaw_cons h with h | ⟨-, t, _, h, -⟩
        · exact inRaw_of_cons h
        · cases h
    · obtain ⟨D, h1, h2, h3, h4, h5⟩ := ih rfl ho₁
      refine ⟨(e, p) :: D, by simpa [Doc.text] using h1, ?_, .plain hp hr ?_ h3, ?_, ?_⟩
      · rw [show Doc.events ((e, p) :: D) = e :: Doc.events D from rfl, h2]
        refine (glue_cons ?_).symm
        rintro ⟨k1, k2, s, gs, k3⟩
        refine hm ⟨List.map_eq_nil_iff.1 k1, k2, ?_⟩
        cases d' with
        | nil => cases k3
        | cons x d'' =>
          obtain ⟨k3, -⟩ := List.cons.inj k3
          exact ⟨s, x.2, d'', by rw [← k3]⟩
      · intro s c he hh
        rw [h1, List.append_assoc] at hh
        by_cases hdn : d = []
        · subst hdn
          exact reads_head_lt h' hb (fun h => hm ⟨rfl, ⟨s, he⟩, h⟩) hh
        · have := reads_head hr' hdn
          rw [head_append this] at hh
          exact hd s c he (by rw [head_append this]; exact hh)
      · have := hstep h4
        simpa [Doc.text, List.append_assoc] using this
      · intro h
        rcases inRaw_cons h with h | ⟨-, t, h⟩
        · exact h5 h
        · exact absurd ⟨t, h⟩ hr
  | rawStart hp hr =>
    obtain ⟨_, rfl, _⟩ := hr
    cases ho with
    | opening _ h => cases h
    | leaf h => exact h.elim
  | @raw e p t r d c hp hr h1 h2 h3 h4 ih =>
    subst hc
    obtain ⟨as, rfl, hraw⟩ := hr
    cases ho with
    | leaf h => exact h.elim
    | opening hl ho =>
    cases ho with
    | leaf hlf ho =>
    have hdn : d ≠ [] := by
      rintro rfl
      cases ho
    have hne := reads_head h4 hdn
    have hcl : ClosesAt t (Doc.text d) := by
      have := h3 (by
        intro h
        rw [List.append_nil] at h
        rw [h] at hne
        exact hne rfl)
      rwa [List.append_nil] at this
    have hlt := closesAt_head hcl
    obtain ⟨D, k1, k2, k3, k4, k5⟩ := ih rfl ho
    have hext : ClosesAt t (Doc.text D ++ b) := by
      obtain ⟨n, q, r, hq, hn⟩ := hcl
      refine ⟨n, q, r ++ Doc.text d' ++ b, ?_, hn⟩
      rw [k1, hq]
      simp
    refine ⟨(.openingTag (owned t) as, p) :: (.rawData (.actual r), r) :: D, ?_, ?_,
      .raw hp ⟨as, rfl, hraw⟩ ?_ ?_ (fun _ => hext) k3, ?_, ?_⟩
    · simp only [Doc.text, List.flatMap_cons] at k1 ⊢
      rw [k1]
      simp
    · simp only [Doc.events, List.map_cons] at k2 ⊢
      rw [k2, glue_cons (by simp), glue_cons (by simp)]
    · intro x y hxy hy hcy
      have hhead : (Doc.text D ++ b).head? = some '<' := closesAt_head hext
      obtain ⟨m, q, z, rfl, hq, hm⟩ := closesAt_within hy hhead hcy
      refine h1 x _ hxy hy ⟨m, q, z ++ (Doc.text d ++ []), by simp, hq, hm⟩
    · intro h
      have := closesAt_head hext
      rw [h] at this
      cases this
    · refine .opening hl (.leaf hlf ?_)
      simpa [Doc.text, List.append_assoc] using k4
    · intro h
      rcases inRaw_cons h with h | ⟨h, -⟩
      · rcases inRaw_cons h with h | ⟨-, _, _, h, -⟩
        · exact k5 h
        · cases h
      · cases h

end Fuser
