import Verif.Proof.LexFail

/-!
# The parser loop

Collecting the iterator is characterised by the grammar: it ends with events exactly if the input
is a well nested document, and otherwise with the error of the specification.
-/

namespace Fuser
open Spec

/-! ## Pure form of the iterator -/

namespace P

/-- The part of `Iter::next` that updates the stack. -/
def dispatch (stack : List (Identifier × Location)) (o : Options) (parsed : Parsed) :
    Except ParseError (Event × Iter) :=
  match parsed.event with
  | .openingTag tag _ =>
    if o.maxStackDepth = some stack.length then
      .error (.stackLimitExceeded tag.str parsed.location stack.length)
    else .ok (parsed.event, ⟨parsed.rest, parsed.nextMode, (tag, parsed.location) :: stack, o⟩)
  | .closingTag tag =>
    match stack with
    | [] => .error (.unexpectedClosingTag tag.str parsed.location)
    | (openTag, openLocation) :: stack =>
      if tag.eq openTag = true then
        .ok (parsed.event, ⟨parsed.rest, parsed.nextMode, stack, o⟩)
      else .error (.mismatchedClosingTag openTag.str openLocation tag.str parsed.location)
  | _ => .ok (parsed.event, ⟨parsed.rest, parsed.nextMode, stack, o⟩)

/-- `Iter::next`. -/
def next (it : Iter) : Option (Except ParseError (Event × Iter)) :=
  if it.rest.content = [] then
    match it.stack with
    | (tag, location) :: others =>
      some (.error (.missingClosingTags (tag.str, location)
        (others.reverse.map fun (t, l) => (t.str, l))))
    | [] => none
  else
    match parse it.mode it.rest with
    | .error error => some (.error error)
    | .ok parsed => some (dispatch it.stack it.options parsed)

end P

theorem next_eq (it : Iter) : it.next = .ok (P.next it) := by
  unfold Iter.next P.next
  by_cases h : it.rest.content = []
  · have : it.rest.isEmpty = true := by simp [Input.isEmpty, h]
    rw [if_pos this, if_pos h]
    cases it.stack <;> rfl
  · have : ¬ it.rest.isEmpty = true := by simp [Input.isEmpty, h]
    rw [if_neg this, if_neg h, parse_eq]
    simp only [bind, Except.bind, pure, Except.pure]
    cases P.parse it.mode it.rest with
    | error e => rfl
    | ok parsed =>
      simp only [P.dispatch]
      obtain ⟨event, location, nextMode, rest⟩ := parsed
      cases event with
      | openingTag tag as =>
        simp only
        cases hm : it.options.maxStackDepth with
        | none => simp
        | some limit =>
          by_cases hl : limit = it.stack.length
          · simp [hl]
          · simp [hl]
      | closingTag tag =>
        simp only
        cases it.stack with
        | nil => rfl
        | cons o st =>
          obtain ⟨t, l⟩ := o
          cases ht : tag.eq t <;> simp [ht]
      | _ => rfl

/-! ## Reading one event -/

/-- The text `p` is the next event, when `r` follows. -/
def Lexeme : Mode → Event → Str → Str → Prop
  | .data, e, p, r => Piece e p ∧ ∀ s c, e = .data s → r.head? = some c → c = '<'
  | .rawData t, e, p, r => e = .rawData (.actual p) ∧
      (∀ x y, p = x ++ y → y ≠ [] → ¬ ClosesAt t (y ++ r)) ∧ (r = [] ∨ ClosesAt t r)

theorem parse_iff {m : Mode} {i : Input} {q : Parsed} : P.parse m i = .ok q ↔
    ∃ e p j, Lexeme m e p j.content ∧ Eats i p j ∧ q = ⟨e, i.location, modeAfter e, j⟩ := by
  cases m with
  | data =>
    change P.dataMode i = .ok q ↔ _
    rw [dataMode_iff]
    constructor
    · rintro ⟨e, s, j, h1, h2, h3, h4⟩
      exact ⟨e, s, j, ⟨h1, fun s c h => h3 s h c⟩, h2, h4⟩
    · rintro ⟨e, s, j, ⟨h1, h3⟩, h2, h4⟩
      exact ⟨e, s, j, h1, h2, fun s h c => h3 s c h, h4⟩
  | rawData t =>
    change P.rawData i t = .ok q ↔ _
    rw [rawData_iff]
    constructor
    · rintro ⟨c, j, h1, h2, h3, h4⟩
      exact ⟨_, c, j, ⟨rfl, h2, h3⟩, h1, h4⟩
    · rintro ⟨e, c, j, ⟨rfl, h2, h3⟩, h1, h4⟩
      exact ⟨c, j, h1, h2, h3, h4⟩

/-- The size that decreases. -/
def measure : Mode → Str → Nat
  | .data, s => 2 * s.length
  | .rawData _, s => 2 * s.length + 1

theorem measure_lt {m : Mode} {e : Event} {p r : Str} (h : Lexeme m e p r) :
    measure (modeAfter e) r < measure m (p ++ r) := by
  cases m with
  | data =>
    have hl : 0 < p.length := List.length_pos_of_ne_nil (piece_ne_nil h.1)
    have : measure (modeAfter e) r ≤ 2 * r.length + 1 := by
      cases modeAfter e <;> simp [measure]
    change _ < 2 * (p ++ r).length
    rw [List.length_append]
    omega
  | rawData t =>
    obtain ⟨rfl, -⟩ := h
    simp only [measure, modeAfter, List.length_append]
    omega

/-! ## The stack -/

/-- The stack of open elements, with locations. -/
def locate (st : List Opened) : List (Identifier × Location) := st.map fun o => (o.1, posAfter o.2)

/-- The state of the iterator after the text `a`. -/
def stateAt (a b : Str) (m : Mode) (st : List Opened) (o : Options) : Iter :=
  ⟨⟨b, posAfter a⟩, m, locate st, o⟩

/-- The stack after an event, with `a` the text before it. -/
inductive StackStep (limit : Option Nat) (a : Str) : List Opened → Event → List Opened → Prop
  | opening {st t as} : limit ≠ some st.length →
      StackStep limit a st (.openingTag t as) ((t, a) :: st)
  | closing {st c t x} : SameName c.str t.str → StackStep limit a ((t, x) :: st) (.closingTag c) st
  | leaf {st e} : Leaf e → StackStep limit a st e st

theorem opens_cons {limit : Option Nat} {a : Str} {st st' : List Opened} {e : Event} {p : Str}
    {d : Doc} : Opens limit a st ((e, p) :: d) st' ↔
      ∃ st₁, StackStep limit a st e st₁ ∧ Opens limit (a ++ p) st₁ d st' := by
  constructor
  · intro h
    cases h with
    | opening h h' => exact ⟨_, .opening h, h'⟩
    | closing h h' => exact ⟨_, .closing h, h'⟩
    | leaf h h' => exact ⟨_, .leaf h, h'⟩
  · rintro ⟨st₁, h, h'⟩
    cases h with
    | opening h => exact .opening h h'
    | closing h => exact .closing h h'
    | leaf h => exact .leaf h h'

/-- Closing tags have ASCII names. -/
theorem lexeme_closing {m : Mode} {n : Identifier} {p r : Str}
    (h : Lexeme m (.closingTag n) p r) : Ascii n.str := by
  cases m with
  | data =>
    obtain ⟨w, rfl, hw⟩ := piece_closing_name h.1
    exact hw.1.ascii
  | rawData t => cases h.1

theorem locate_length (st : List Opened) : (locate st).length = st.length := by simp [locate]

/-- One successful step. -/
theorem next_ok {a p r : Str} {m : Mode} {st st' : List Opened} {o : Options} {e : Event}
    (h1 : Lexeme m e p r) (h2 : StackStep o.maxStackDepth a st e st') (h3 : p ++ r ≠ []) :
    P.next (stateAt a (p ++ r) m st o) =
      some (.ok (e, stateAt (a ++ p) r (modeAfter e) st' o)) := by
  have he : Eats ⟨p ++ r, posAfter a⟩ p ⟨r, posAfter (a ++ p)⟩ :=
    ⟨rfl, Input.ext' rfl (addLoc_posAfter a p).symm⟩
  have hp := parse_iff.2 ⟨e, p, ⟨r, posAfter (a ++ p)⟩, h1, he, rfl⟩
  unfold P.next stateAt
  simp only [if_neg h3, hp, P.dispatch]
  cases h2 with
  | opening hl =>
    simp only [locate_length, if_neg hl]
    rfl
  | @closing _ c t x hc =>
    have hasc := lexeme_closing h1
    simp only [locate, List.map_cons]
    have : c.eq t = true := (identifierEq_left hasc).2 hc.symm
    rw [if_pos this]
  | leaf hl => cases e <;> first | rfl | exact absurd hl id

/-- What a step does. -/
theorem next_cases (a b : Str) (m : Mode) (st : List Opened) (o : Options) :
    (b = [] ∧ st = [] ∧ P.next (stateAt a b m st o) = none) ∨
    (∃ e p r st', b ≠ [] ∧ b = p ++ r ∧ Lexeme m e p r ∧ StackStep o.maxStackDepth a st e st' ∧
      P.next (stateAt a b m st o) = some (.ok (e, stateAt (a ++ p) r (modeAfter e) st' o))) ∨
    (∃ err, (b = [] ∨ m = .data) ∧ Fails o.maxStackDepth a st b err ∧
      P.next (stateAt a b m st o) = some (.error err)) := by
  by_cases hb : b = []
  · subst hb
    cases st with
    | nil => exact .inl ⟨rfl, rfl, rfl⟩
    | cons x st =>
      refine .inr (.inr ⟨_, .inl rfl, .missing, ?_⟩)
      unfold P.next stateAt
      simp only [if_true, locate, List.map_cons, Option.some.injEq, Except.error.injEq,
        ParseError.missingClosingTags.injEq]
      refine ⟨rfl, ?_⟩
      rw [← List.map_reverse, List.map_map]
      rfl
  · right
    cases hp : P.parse m ⟨b, posAfter a⟩ with
    | error err =>
      right
      cases m with
      | rawData t =>
        exfalso
        change P.rawData _ t = _ at hp
        unfold P.rawData at hp
        cases hp
      | data =>
        refine ⟨err, .inr rfl, .lex hb ?_, ?_⟩
        · exact dataMode_error (i := ⟨b, posAfter a⟩) rfl hb hp
        · unfold P.next stateAt
          simp only [if_neg hb, hp]
    | ok q =>
      obtain ⟨e, p, j, h1, h2, rfl⟩ := parse_iff.1 hp
      have hbp : b = p ++ j.content := h2.1
      generalize hr : j.content = r at *
      have hnx : P.next (stateAt a b m st o) =
          some (P.dispatch (locate st) o ⟨e, posAfter a, modeAfter e, j⟩) := by
        unfold P.next stateAt
        simp only [if_neg hb, hp]
      have okCase : ∀ st', StackStep o.maxStackDepth a st e st' →
          ∃ e p r st', b ≠ [] ∧ b = p ++ r ∧ Lexeme m e p r ∧ StackStep o.maxStackDepth a st e st' ∧
          P.next (stateAt a b m st o) = some (.ok (e, stateAt (a ++ p) r (modeAfter e) st' o)) := by
        intro st' hst
        refine ⟨e, p, r, st', hb, hbp, h1, hst, ?_⟩
        subst hbp
        exact next_ok h1 hst hb
      by_cases hleaf : Leaf e
      · exact .inl (okCase st (.leaf hleaf))
      · cases e with
        | openingTag t as =>
          by_cases hl : o.maxStackDepth = some st.length
          · refine .inr ⟨.stackLimitExceeded t.str (posAfter a) st.length, .inr ?_, ?_, ?_⟩
            · cases m with
              | data => rfl
              | rawData t => cases h1.1
            · cases m with
              | data => rw [hbp]; exact .tooDeep h1.1 hl rfl
              | rawData t => cases h1.1
            · rw [hnx]
              simp only [P.dispatch, locate_length, if_pos hl]
          · exact .inl (okCase _ (.opening hl))
        | closingTag c =>
          have hm : m = .data := by
            cases m with
            | data => rfl
            | rawData t => cases h1.1
          subst hm
          cases st with
          | nil =>
            refine .inr ⟨_, .inr rfl, ?_, hnx⟩
            rw [hbp]
            exact .unexpected h1.1
          | cons x st =>
            obtain ⟨t, y⟩ := x
            by_cases hc : SameName c.str t.str
            · exact .inl (okCase _ (.closing hc))
            · refine .inr ⟨.mismatchedClosingTag t.str (posAfter y) c.str (posAfter a), .inr rfl, ?_, ?_⟩
              · rw [hbp]
                exact Fails.mismatched (o := (t, y)) h1.1 hc
              · rw [hnx]
                simp only [P.dispatch, locate, List.map_cons]
                have : ¬ c.eq t = true := by
                  change ¬ identifierEq c.str t.str = true
                  rw [identifierEq_left (lexeme_closing h1)]
                  exact fun h => hc h.symm
                rw [if_neg this]
        | _ => exact absurd trivial hleaf

/-! ## Documents with modes -/

/-- The mode after a document. -/
def modeEnd (m : Mode) (d : Doc) : Mode := d.foldl (fun _ x => modeAfter x.1) m

/-- Reading a document, starting in a mode. -/
inductive ReadsFrom : Mode → Doc → Str → Prop
  | nil {m b} : ReadsFrom m [] b
  | cons {m e p d b} : Lexeme m e p (Doc.text d ++ b) → p ++ (Doc.text d ++ b) ≠ [] →
      ReadsFrom (modeAfter e) d b → ReadsFrom m ((e, p) :: d) b

/-- The result of collecting from a state. -/
inductive Collects (o : Options) (a b : Str) (m : Mode) (st : List Opened) :
    Except ParseError (List Event) → Prop
  | ok {d} : b = Doc.text d → ReadsFrom m d [] → Opens o.maxStackDepth a st d [] →
      Collects o a b m st (.ok (Doc.events d))
  | error {d r st' e} : b = Doc.text d ++ r → ReadsFrom m d r → Opens o.maxStackDepth a st d st' →
      (r = [] ∨ modeEnd m d = .data) → Fails o.maxStackDepth (a ++ Doc.text d) st' r e →
      Collects o a b m st (.error e)

theorem collect_total (o : Options) : ∀ (fuel : Nat) (a b : Str) (m : Mode) (st : List Opened),
    measure m b < fuel → ∃ r, Iter.collect fuel (stateAt a b m st o) = .ok r ∧
      Collects o a b m st r := by
  intro fuel
  induction fuel with
  | zero => intro a b m st h; omega
  | succ fuel ih =>
    intro a b m st hf
    unfold Iter.collect
    rw [next_eq]
    simp only [bind, Except.bind, pure, Except.pure]
    rcases next_cases a b m st o with ⟨hb, hst, hn⟩ | ⟨e, p, r, st', hb, hbp, hl, hst, hn⟩ |
      ⟨err, hm, hfail, hn⟩
    · rw [hn]
      subst hb hst
      exact ⟨_, rfl, Collects.ok (d := []) rfl .nil .nil⟩
    · rw [hn]
      simp only
      have hlt := measure_lt hl
      rw [← hbp] at hlt
      obtain ⟨res, h1, h2⟩ := ih (a ++ p) r (modeAfter e) st' (by omega)
      rw [h1]
      simp only
      cases h2 with
      | @ok d hd hr ho =>
        refine ⟨_, rfl, ?_⟩
        have ht : Doc.text d ++ [] = r := by rw [← hd]; simp
        exact Collects.ok (d := (e, p) :: d) (by rw [hbp, hd]; rfl)
          (.cons (by rw [ht]; exact hl) (by rw [ht, ← hbp]; exact hb) hr) (opens_cons.2 ⟨_, hst, ho⟩)
      | @error d r' st'' err hd hr ho hm hfail =>
        refine ⟨_, rfl, ?_⟩
        refine Collects.error (d := (e, p) :: d) (r := r') (by rw [hbp, hd]; simp [Doc.text])
          (.cons (by rw [← hd]; exact hl) (by rw [← hd, ← hbp]; exact hb) hr)
          (opens_cons.2 ⟨_, hst, ho⟩) hm ?_
        simpa [Doc.text] using hfail
    · rw [hn]
      exact ⟨_, rfl, Collects.error (d := []) rfl .nil .nil (hm.imp id id) (by simpa [Doc.text] using hfail)⟩

/-! ## Determinism -/

theorem fails_next {o : Options} {a b : Str} {m : Mode} {st : List Opened} {e : ParseError}
    (hm : b = [] ∨ m = .data) (h : Fails o.maxStackDepth a st b e) :
    P.next (stateAt a b m st o) = some (.error e) := by
  cases h with
  | missing =>
    unfold P.next stateAt
    simp only [if_true, locate, List.map_cons, Option.some.injEq, Except.error.injEq,
      ParseError.missingClosingTags.injEq]
    refine ⟨rfl, ?_⟩
    rw [← List.map_reverse, List.map_map]
    rfl
  | lex hb hl =>
    have hm : m = .data := by simpa [hb] using hm
    subst hm
    have : P.parse .data ⟨b, posAfter a⟩ = .error e := dataMode_fails (i := ⟨b, posAfter a⟩) rfl hl
    unfold P.next stateAt
    simp only [if_neg hb, this]
  | @tooDeep _ t as p r n hp hlim hn =>
    have hne : p ++ r ≠ [] := by simp [piece_ne_nil hp]
    have hm : m = .data := by simpa [hne] using hm
    subst hm
    have he : Eats ⟨p ++ r, posAfter a⟩ p ⟨r, posAfter (a ++ p)⟩ :=
      ⟨rfl, Input.ext' rfl (addLoc_posAfter a p).symm⟩
    have : P.parse .data ⟨p ++ r, posAfter a⟩ = .ok _ :=
      parse_iff.2 ⟨.openingTag t as, p, ⟨r, posAfter (a ++ p)⟩, ⟨hp, by simp⟩, he, rfl⟩
    unfold P.next stateAt
    subst hn
    simp only [if_neg hne, this, P.dispatch, locate_length, if_pos hlim]
  | @unexpected c p r hp =>
    have hne : p ++ r ≠ [] := by simp [piece_ne_nil hp]
    have hm : m = .data := by simpa [hne] using hm
    subst hm
    have he : Eats ⟨p ++ r, posAfter a⟩ p ⟨r, posAfter (a ++ p)⟩ :=
      ⟨rfl, Input.ext' rfl (addLoc_posAfter a p).symm⟩
    have : P.parse .data ⟨p ++ r, posAfter a⟩ = .ok _ :=
      parse_iff.2 ⟨.closingTag c, p, ⟨r, posAfter (a ++ p)⟩, ⟨hp, by simp⟩, he, rfl⟩
    unfold P.next stateAt
    simp only [if_neg hne, this]
    rfl
  | @mismatched x st c p r hp hc =>
    have hne : p ++ r ≠ [] := by simp [piece_ne_nil hp]
    have hm : m = .data := by simpa [hne] using hm
    subst hm
    have he : Eats ⟨p ++ r, posAfter a⟩ p ⟨r, posAfter (a ++ p)⟩ :=
      ⟨rfl, Input.ext' rfl (addLoc_posAfter a p).symm⟩
    have hlx : Lexeme .data (.closingTag c) p r := ⟨hp, by simp⟩
    have : P.parse .data ⟨p ++ r, posAfter a⟩ = .ok _ :=
      parse_iff.2 ⟨.closingTag c, p, ⟨r, posAfter (a ++ p)⟩, hlx, he, rfl⟩
    unfold P.next stateAt
    simp only [if_neg hne, this, P.dispatch, locate, List.map_cons]
    have : ¬ c.eq x.1 = true := by
      change ¬ identifierEq c.str x.1.str = true
      rw [identifierEq_left (lexeme_closing hlx)]
      exact fun h => hc h.symm
    rw [if_neg this]

/-- The specification determines the result. -/
theorem collects_collect {o : Options} {a b : Str} {m : Mode} {st : List Opened}
    {r : Except ParseError (List Event)} (h : Collects o a b m st r) :
    ∀ fuel, measure m b < fuel → Iter.collect fuel (stateAt a b m st o) = .ok r := by
  cases h with
  | @ok d hd hr ho =>
    subst hd
    have gen : ∀ (d : Doc) (m : Mode) (a : Str) (st : List Opened), ReadsFrom m d [] →
        Opens o.maxStackDepth a st d [] → ∀ fuel, measure m (Doc.text d) < fuel →
        Iter.collect fuel (stateAt a (Doc.text d) m st o) = .ok (.ok (Doc.events d)) := by
      intro d
      induction d with
      | nil =>
        intro m a st _ ho fuel hf
        cases ho
        cases fuel with
        | zero => omega
        | succ fuel =>
          unfold Iter.collect
          rw [next_eq]
          rfl
      | cons x d ih =>
        intro m a st hr ho fuel hf
        obtain ⟨e, p⟩ := x
        cases fuel with
        | zero => omega
        | succ fuel =>
          obtain ⟨st₁, hs, ho⟩ := opens_cons.1 ho
          cases hr with
          | cons hl hne hr =>
            rw [List.append_nil] at hl hne
            have ht : Doc.text ((e, p) :: d) = p ++ Doc.text d := rfl
            have hlt := measure_lt hl
            rw [ht] at hf ⊢
            unfold Iter.collect
            rw [next_eq, next_ok hl hs hne]
            simp only [bind, Except.bind, pure, Except.pure]
            rw [ih _ _ _ hr ho fuel (by omega)]
            rfl
    exact gen d m a st hr ho
  | @error d r st' e hd hr ho hm hfail =>
    subst hd
    have gen : ∀ (d : Doc) (m : Mode) (a : Str) (st : List Opened), ReadsFrom m d r →
        Opens o.maxStackDepth a st d st' → (r = [] ∨ modeEnd m d = .data) →
        Fails o.maxStackDepth (a ++ Doc.text d) st' r e →
        ∀ fuel, measure m (Doc.text d ++ r) < fuel →
        Iter.collect fuel (stateAt a (Doc.text d ++ r) m st o) = .ok (.error e) := by
      intro d
      induction d with
      | nil =>
        intro m a st _ ho hm hfail fuel hf
        cases ho
        cases fuel with
        | zero => omega
        | succ fuel =>
          unfold Iter.collect
          rw [next_eq]
          have : P.next (stateAt a (Doc.text [] ++ r) m st' o) = some (.error e) :=
            fails_next hm (by simpa [Doc.text] using hfail)
          rw [this]
          rfl
      | cons x d ih =>
        intro m a st hr ho hm hfail fuel hf
        obtain ⟨e', p⟩ := x
        cases fuel with
        | zero => omega
        | succ fuel =>
          obtain ⟨st₁, hs, ho⟩ := opens_cons.1 ho
          cases hr with
          | cons hl hne hr =>
            have ht : Doc.text ((e', p) :: d) ++ r = p ++ (Doc.text d ++ r) := by simp [Doc.text]
            have hlt := measure_lt hl
            rw [ht] at hf ⊢
            unfold Iter.collect
            rw [next_eq, next_ok hl hs hne]
            simp only [bind, Except.bind, pure, Except.pure]
            rw [ih _ _ _ hr ho hm (by simpa [Doc.text] using hfail) fuel (by omega)]
    exact gen d m a st hr ho hm hfail

end Fuser
