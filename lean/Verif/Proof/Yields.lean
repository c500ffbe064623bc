import Verif.Spec.Iter
import Verif.Proof.Doc

/-!
# The parser as an iterator
-/

namespace Fuser
open Spec

theorem finalize_eq (it : Iter) {a : Str} (ha : it.rest.location = posAfter a) :
    it.finalize = .ok { it with rest := ⟨[], posAfter (a ++ it.rest.content)⟩ } := by
  unfold Iter.finalize Input.toEnd
  rw [advanced_eq (i := it.rest) (a := it.rest.content) (b := []) (by simp)]
  simp only [bind, Except.bind, pure, Except.pure, Input.after, ha, addLoc_posAfter]

/-- The elements of the stack that an error gives up. -/
def dropped (st : List (Identifier × Location)) : ParseError → List (Identifier × Location)
  | .missingClosingTags .. => st.tail
  | .mismatchedClosingTag .. => st.tail
  | _ => st

/-- Errors of the lexer leave the stack alone. -/
def Plain : ParseError → Prop
  | .missingClosingTags .. => False
  | .mismatchedClosingTag .. => False
  | _ => True

theorem dropped_plain {st : List (Identifier × Location)} {e : ParseError} (h : Plain e) :
    dropped st e = st := by
  cases e <;> first | rfl | exact h.elim

theorem tailFail_plain {n a r : Str} {e : ParseError} (h : TailFail n a r e) : Plain e := by
  cases h <;> trivial

theorem lexFail_plain {a b : Str} {e : ParseError} (h : LexFail a b e) : Plain e := by
  cases h with
  | openingTail _ _ _ _ _ h => exact tailFail_plain h
  | _ => trivial

theorem parse_plain {m : Mode} {i : Input} {e : ParseError} (hi : i.content ≠ [])
    (h : P.parse m i = .error e) (a : Str) (ha : i.location = posAfter a) : Plain e := by
  cases m with
  | rawData t =>
    change P.rawData _ t = _ at h
    unfold P.rawData at h
    cases h
  | data => exact lexFail_plain (dataMode_error (i := i) ha hi h)

/-- A call of the iterator, in terms of the call without the state after errors. -/
theorem step_eq (it : Iter) (a : Str) (ha : it.rest.location = posAfter a) :
    (P.next it = none ∧ it.step = .ok (none, it)) ∨
    (∃ e it', P.next it = some (.ok (e, it')) ∧ it.step = .ok (some (.ok e), it')) ∨
    (∃ e, P.next it = some (.error e) ∧ it.step = .ok (some (.error e),
      ⟨⟨[], posAfter (a ++ it.rest.content)⟩, it.mode, dropped it.stack e, it.options⟩)) := by
  obtain ⟨⟨content, loc⟩, mode, stack, options⟩ := it
  unfold Iter.step P.next
  by_cases h : content = []
  · subst h
    cases stack with
    | nil => exact .inl ⟨rfl, rfl⟩
    | cons x st =>
      refine .inr (.inr ⟨_, rfl, ?_⟩)
      rw [List.append_nil, ← ha]
      rfl
  · right
    have hi : ¬ (Input.isEmpty ⟨content, loc⟩) = true := by simp [Input.isEmpty, h]
    rw [if_neg hi, if_neg h, parse_eq]
    simp only [bind, Except.bind, pure, Except.pure]
    cases hp : P.parse mode ⟨content, loc⟩ with
    | error e =>
      have hl := finalize_eq ⟨⟨content, loc⟩, mode, stack, options⟩ ha
      refine .inr ⟨e, rfl, ?_⟩
      simp only [hl, dropped_plain (parse_plain h hp a ha)]
    | ok parsed =>
      obtain ⟨event, location, nextMode, rest⟩ := parsed
      cases event with
      | openingTag tag as =>
        simp only [P.dispatch]
        cases hm : options.maxStackDepth with
        | none => exact .inl ⟨.openingTag tag as, ⟨rest, nextMode, (tag, location) :: stack, options⟩, by simp, by simp⟩
        | some limit =>
          by_cases hlim : limit = stack.length
          · have hl := finalize_eq ⟨⟨content, loc⟩, mode, stack, options⟩ ha
            refine .inr ⟨.stackLimitExceeded tag.str location stack.length, by simp [hlim], ?_⟩
            simp only [hlim, if_true, hl, dropped]
          · exact .inl ⟨.openingTag tag as, ⟨rest, nextMode, (tag, location) :: stack, options⟩,
              by simp [hlim], by simp [hlim]⟩
      | closingTag tag =>
        simp only [P.dispatch]
        cases stack with
        | nil =>
          have hl := finalize_eq ⟨⟨content, loc⟩, mode, [], options⟩ ha
          refine .inr ⟨_, rfl, ?_⟩
          simp only [hl, dropped]
        | cons x st =>
          obtain ⟨t, y⟩ := x
          cases ht : tag.eq t with
          | true => exact .inl ⟨.closingTag tag, ⟨rest, nextMode, st, options⟩, by simp [ht], by simp [ht]⟩
          | false =>
            have hl := finalize_eq ⟨⟨content, loc⟩, mode, st, options⟩ ha
            refine .inr ⟨.mismatchedClosingTag t.str y tag.str location, by simp [ht], ?_⟩
            simp [ht, hl, dropped]
      | _ => exact .inl ⟨_, _, rfl, rfl⟩

theorem dropped_locate (st : List Opened) (e : ParseError) :
    dropped (locate st) e = locate (stillOpen st e) := by
  cases e <;> simp [dropped, stillOpen, locate]

/-- At the end of the text the iterator complains about each open element and ends. -/
theorem yields_complaints (l : Location) (m : Mode) (o : Options) : ∀ st : List Opened,
    Yields ⟨⟨[], l⟩, m, locate st, o⟩ ((complaints st).map .error) := by
  intro st
  induction st with
  | nil => exact .done rfl
  | cons x st ih =>
    refine .item (it' := ⟨⟨[], l⟩, m, locate st, o⟩) ?_ ih
    change Except.ok (some (Except.error (ParseError.missingClosingTags (x.1.str, posAfter x.2)
      ((locate st).reverse.map fun (t, l) => (t.str, l)))), _) = _
    congr 3
    simp only [locate, ← List.map_reverse, List.map_map]
    rfl

/-- What the iterator yields from a state. -/
theorem yields_total (o : Options) : ∀ (n : Nat) (a b : Str) (m : Mode) (st : List Opened),
    measure m b < n →
    (∃ d, b = Doc.text d ∧ ReadsFrom m d [] ∧ Opens o.maxStackDepth a st d [] ∧
      Yields (stateAt a b m st o) ((Doc.events d).map .ok)) ∨
    (∃ d r st' e, b = Doc.text d ++ r ∧ ReadsFrom m d r ∧ Opens o.maxStackDepth a st d st' ∧
      (r = [] ∨ modeEnd m d = .data) ∧ Fails o.maxStackDepth (a ++ Doc.text d) st' r e ∧
      Yields (stateAt a b m st o) ((Doc.events d).map .ok ++
        (e :: complaints (stillOpen st' e)).map .error)) := by
  intro n
  induction n with
  | zero => intro a b m st h; omega
  | succ n ih =>
    intro a b m st hf
    rcases next_cases a b m st o with ⟨hb, hst, hn⟩ | ⟨e, p, r, st', hb, hbp, hl, hst, hn⟩ |
      ⟨err, hm, hfail, hn⟩
    · subst hb hst
      exact .inl ⟨[], rfl, .nil, .nil, .done rfl⟩
    · have hs : (stateAt a b m st o).step =
          .ok (some (.ok e), stateAt (a ++ p) r (modeAfter e) st' o) := by
        rcases step_eq (stateAt a b m st o) a rfl with ⟨h, -⟩ | ⟨e', it', h, h'⟩ | ⟨e', h, -⟩ <;>
          rw [hn] at h <;> cases h
        exact h'
      have hlt := measure_lt hl
      rw [← hbp] at hlt
      rcases ih (a ++ p) r (modeAfter e) st' (by omega) with ⟨d, hd, hr, ho, hy⟩ |
        ⟨d, r', st'', err, hd, hr, ho, hm, hfail, hy⟩
      · have ht : Doc.text d ++ [] = r := by rw [← hd]; simp
        exact .inl ⟨(e, p) :: d, by rw [hbp, hd]; rfl,
          .cons (by rw [ht]; exact hl) (by rw [ht, ← hbp]; exact hb) hr,
          opens_cons.2 ⟨_, hst, ho⟩, .item hs hy⟩
      · exact .inr ⟨(e, p) :: d, r', st'', err, by rw [hbp, hd]; simp [Doc.text],
          .cons (by rw [← hd]; exact hl) (by rw [← hd, ← hbp]; exact hb) hr,
          opens_cons.2 ⟨_, hst, ho⟩, hm, by simpa [Doc.text] using hfail, .item hs hy⟩
    · rcases step_eq (stateAt a b m st o) a rfl with ⟨h, -⟩ | ⟨e', it', h, -⟩ | ⟨e', h, h'⟩ <;>
          rw [hn] at h <;> cases h
      refine .inr ⟨[], b, st, err, rfl, .nil, .nil, hm.imp id id, by simpa [Doc.text] using hfail, ?_⟩
      refine .item h' ?_
      change Yields ⟨⟨[], posAfter (a ++ b)⟩, m, dropped (locate st) err, o⟩ _
      rw [dropped_locate]
      exact yields_complaints _ m o _

theorem yields_unique {it : Iter} {xs ys : List (Except ParseError Event)} (h : Yields it xs) :
    Yields it ys → xs = ys := by
  intro h'
  induction h generalizing ys with
  | done h =>
    cases h' with
    | done => rfl
    | item h2 => rw [h] at h2; cases h2
  | item h _ ih =>
    cases h' with
    | done h2 => rw [h] at h2; cases h2
    | item h2 hr =>
      rw [h] at h2
      cases h2
      rw [ih hr]

theorem firstError_ok (es : List Event) : firstError (es.map .ok) = .ok es := by
  induction es with
  | nil => rfl
  | cons e es ih => simp [firstError, ih]

theorem firstError_error (es : List Event) (e : ParseError) (xs : List (Except ParseError Event)) :
    firstError (es.map .ok ++ .error e :: xs) = .error e := by
  induction es with
  | nil => rfl
  | cons x es ih => simp [firstError, ih]

/-! ## The states of the iterator -/

/-- What holds in every state: the rest and the open elements are where they are said to be. -/
def StateOf (s : Str) (o : Options) (it : Iter) : Prop :=
  ∃ a b m st, s = a ++ b ∧ it = stateAt a b m st o ∧ (∀ x ∈ st, ∃ y, s = x.2 ++ '<' :: y) ∧
    st.length ≤ a.count '<'

theorem stateOf_step {s : Str} {o : Options} {it it' : Iter} {x : Option (Except ParseError Event)}
    (h : StateOf s o it) (hs : it.step = .ok (x, it')) : StateOf s o it' := by
  obtain ⟨a, b, m, st, rfl, rfl, hst, hc⟩ := h
  rcases step_eq (stateAt a b m st o) a rfl with ⟨-, h'⟩ | ⟨e, it'', h, h'⟩ | ⟨e, -, h'⟩ <;>
    rw [h'] at hs <;> cases hs
  · exact ⟨a, b, m, st, rfl, rfl, hst, hc⟩
  · rcases next_cases a b m st o with ⟨-, -, hn⟩ | ⟨e', p, r, st', hb, rfl, hl, hstep, hn⟩ |
      ⟨err, -, -, hn⟩ <;> rw [hn] at h <;> cases h
    refine ⟨a ++ p, r, _, st', by simp, rfl, ?_, ?_⟩
    · cases hstep with
      | opening _ =>
        intro x hx
        rcases List.mem_cons.1 hx with rfl | hx
        · cases m with
          | rawData t => cases hl.1
          | data =>
            rcases piece_head hl.1 with ⟨⟨s, h⟩, -⟩ | ⟨-, h⟩
            · cases h
            · cases p with
              | nil => cases h
              | cons c p =>
                cases h
                exact ⟨p ++ r, rfl⟩
        · exact hst x hx
      | closing _ => exact fun x hx => hst x (List.mem_cons_of_mem _ hx)
      | leaf _ => exact hst
    · rw [List.count_append]
      cases hstep with
      | opening _ =>
        have : 0 < p.count '<' := by
          cases m with
          | rawData t => cases hl.1
          | data =>
            rcases piece_head hl.1 with ⟨⟨s, h⟩, -⟩ | ⟨-, h⟩
            · cases h
            · exact List.count_pos_iff.2 (List.mem_of_mem_head? (by simpa using h))
        rw [List.length_cons]
        omega
      | closing _ =>
        rw [List.length_cons] at hc
        omega
      | leaf _ => omega
  · have hsub : (stillOpen st e).Sublist st := by
      unfold stillOpen
      split
      · exact List.tail_sublist st
      · exact List.tail_sublist st
      · exact List.Sublist.refl st
    refine ⟨a ++ b, [], m, stillOpen st e, by simp, ?_, fun x hx => hst x (hsub.subset hx), ?_⟩
    · change (⟨⟨[], posAfter (a ++ b)⟩, m, dropped (locate st) e, o⟩ : Iter) = _
      rw [dropped_locate]
      rfl
    · rw [List.count_append]
      have := hsub.length_le
      omega

theorem stateOf_reaches {s : Str} {o : Options} {it : Iter} (h : Reaches (Iter.new s o) it) :
    StateOf s o it := by
  induction h with
  | start => exact ⟨[], s, .data, [], rfl, rfl, by simp, by simp⟩
  | call _ hs ih => exact stateOf_step ih hs

theorem posAfter_bounds (a b : Str) : (posAfter a).offset ≤ ((a ++ b).map Char.utf8Size).sum ∧
    (posAfter a).line ≤ 1 + ((a ++ b).map Char.utf8Size).sum ∧
    (posAfter a).column ≤ 1 + ((a ++ b).map Char.utf8Size).sum := by
  have hl : ∀ x : Str, x.length ≤ (x.map Char.utf8Size).sum := by
    intro x
    induction x with
    | nil => simp
    | cons c x ih =>
      have := c.utf8Size_pos
      simp only [List.length_cons, List.map_cons, List.sum_cons]
      omega
  have h1 := List.count_le_length (a := '\n') (l := a)
  have h2 : (a.reverse.takeWhile (· ≠ '\n')).length ≤ a.length := by
    simpa using (List.takeWhile_sublist (fun c : Char => decide (c ≠ '\n')) (l := a.reverse)).length_le
  have h3 := hl a
  rw [List.map_append, List.sum_append]
  refine ⟨?_, ?_, ?_⟩
  · change (a.map Char.utf8Size).sum ≤ _
    omega
  · change 1 + a.count '\n' ≤ _
    omega
  · change 1 + (a.reverse.takeWhile (· ≠ '\n')).length ≤ _
    omega

end Fuser
