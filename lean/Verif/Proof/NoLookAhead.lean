import Verif.Spec.Ahead
import Verif.Proof.Yields
import Verif.Proof.Respell

/-!
# The parser does not look ahead
-/

namespace Fuser
open Spec

theorem closesAt_more {t s : Str} (z : Str) (h : ClosesAt t s) : ClosesAt t (s ++ z) := by
  obtain ⟨n, p, r, rfl, hp, hn⟩ := h
  exact ⟨n, p, r ++ z, by simp, hp, hn⟩

/-- What has been read stays what it is when the text goes on. -/
theorem lexeme_more {m : Mode} {e : Event} {p r : Str} (z : Str) (h : Lexeme m e p r)
    (hr : isText e = true → r ≠ []) : Lexeme m e p (r ++ z) := by
  cases m with
  | data =>
    refine ⟨h.1, fun s c he hc => ?_⟩
    subst he
    cases r with
    | nil => exact absurd rfl (hr rfl)
    | cons x r => exact h.2 s c rfl hc
  | rawData t =>
    obtain ⟨h1, h2, h3⟩ := h
    subst h1
    have hne : r ≠ [] := hr rfl
    have hc : ClosesAt t r := h3.resolve_left hne
    refine ⟨rfl, fun x y hp hy hcl => h2 x y hp hy ?_, .inr (closesAt_more z hc)⟩
    refine closesAt_cut hcl hy fun c hc' => ?_
    have := closesAt_head hc
    cases r with
    | nil => exact absurd rfl hne
    | cons x r =>
      cases this
      cases hc'
      rfl

theorem mem_gt_ne {s : Str} (h : '>' ∈ s) : s ≠ [] := by
  rintro rfl
  cases h

theorem head_more {s z : Str} (h : s ≠ []) : (s ++ z).head? = s.head? := by
  cases s with
  | nil => exact absurd rfl h
  | cons => rfl

theorem badWord_more {e : IdentifierError} {s : Str} (z : Str) (h : BadWord e s) (hs : '>' ∈ s) :
    BadWord e (s ++ z) := by
  obtain ⟨n, r, rfl, h1, h2, h3, h4⟩ := h
  have : '>' ∈ r := by
    rcases List.mem_append.1 hs with h | h
    · exact absurd (by decide) (h2 _ h)
    · exact h
  exact ⟨n, r ++ z, by simp, h1, h2, h3.append (mem_gt_ne this), h4⟩

theorem name_no_gt {n : Str} (h : Name n) : '>' ∉ n := fun hm => h.2 _ hm (by decide)

theorem attrsThen_more {as : Attributes} {t r : Str} (z : Str) (h : AttrsThen as t r) (hr : r ≠ []) :
    AttrsThen as t (r ++ z) := by
  induction h with
  | nil h => exact .nil (h.append hr)
  | bare h1 h2 h3 h4 _ ih =>
    refine .bare h1 h2 ?_ ?_ (ih hr)
    · rw [← List.append_assoc, ← List.append_assoc]
      refine Spec.Ends.append ?_ (by simp [hr])
      rwa [List.append_assoc]
    · rw [← List.append_assoc, head_more (by simp [hr])]
      exact h4
  | valued h1 h2 h3 h4 h5 h6 h7 h8 _ ih => exact .valued h1 h2 h3 h4 h5 h6 h7 h8 (ih hr)

theorem tailFail_more {n a r : Str} {e : ParseError} (z : Str) (h : TailFail n a r e)
    (hf : ¬ Unfinished e) (hr : '>' ∈ r) : TailFail n a (r ++ z) e := by
  cases h with
  | identifier h => exact .identifier (badWord_more z h hr)
  | @value n w₁ w₂ r h1 h2 h3 h4 h5 h6 =>
    have hne : '>' ∈ r := by
      simp only [List.mem_append, List.mem_cons] at hr
      rcases hr with ((h | h) | h | h) | h
      · exact absurd h (name_no_gt h1)
      · exact absurd h h2.no_gt
      · cases h
      · exact absurd h h4.no_gt
      · exact h
    rw [List.append_assoc]
    exact .value h1 h2 h3 h4 (h5.append (mem_gt_ne hne)) (by rwa [head_more (mem_gt_ne hne)])
  | unclosedValue => exact absurd trivial hf
  | noEnd h1 h2 h3 =>
    have := mem_gt_ne hr
    exact .noEnd (h1.append this) (by rwa [head_more this]) (by rwa [head_more this])
  | @noEndSlash w r h1 h2 h3 =>
    have hne : '>' ∈ r := by
      simp only [List.mem_append, List.mem_cons] at hr
      rcases hr with (h | h) | h
      · cases h
      · exact absurd h h1.no_gt
      · exact h
    rw [List.append_assoc]
    exact .noEndSlash h1 (h2.append (mem_gt_ne hne)) (by rwa [head_more (mem_gt_ne hne)])

theorem last_mem {s : Str} (h : s.getLast? = some '>') : '>' ∈ s := List.mem_of_getLast? h

theorem last_right {u v : Str} (h : (u ++ v).getLast? = some '>') (hu : u.getLast? ≠ some '>') :
    v.getLast? = some '>' := by
  cases v with
  | nil => rw [List.append_nil] at h; exact absurd h hu
  | cons c v => rwa [List.getLast?_append_of_ne_nil _ (by simp)] at h

theorem last_append {u v : Str} (hu : '>' ∉ u) (hv : v.getLast? ≠ some '>') :
    (u ++ v).getLast? ≠ some '>' := by
  intro h
  exact hv (last_right h fun h' => hu (last_mem h'))

/-- Attributes do not end with `>`. -/
theorem attrsThen_last {as : Attributes} {t r : Str} (h : AttrsThen as t r) :
    t.getLast? ≠ some '>' := by
  induction h with
  | nil h => simp
  | bare h1 h2 _ _ _ ih =>
    refine last_append ?_ ih
    simp only [List.mem_append, not_or]
    exact ⟨name_no_gt h1, h2.no_gt⟩
  | @valued n w₁ w₂ w₃ v w₄ t r as _ _ _ _ _ _ _ h8 _ ih =>
    have : ('"' :: w₄ ++ t).getLast? ≠ some '>' :=
      last_append (by simp [h8.no_gt]) ih
    intro h
    apply this
    have h' : (n ++ w₁ ++ '=' :: w₂ ++ '"' :: w₃ ++ v ++ ('"' :: w₄ ++ t)).getLast? = some '>' := by
      simpa using h
    rwa [List.getLast?_append_of_ne_nil _ (by simp)] at h'

theorem lexFail_more {a b : Str} {e : ParseError} (z : Str) (h : LexFail a b e)
    (hf : Final e ∨ (¬ Unfinished e ∧ b.getLast? = some '>')) : LexFail a (b ++ z) e := by
  cases h with
  | unclosedComment => exact hf.elim (fun h => h.elim) fun h => absurd trivial h.1
  | unclosedDoctype => exact hf.elim (fun h => h.elim) fun h => absurd trivial h.1
  | unsupportedDoctype h1 h2 h3 h4 h5 h6 h7 h8 h9 =>
    rw [List.append_assoc]
    exact .unsupportedDoctype h1 h2 h3 h4 h5 h6 h7 h8 h9
  | @closingIdentifier w₁ w₂ r h1 h2 h3 h4 =>
    have hb := last_mem (hf.elim (fun h => h.elim) fun h => h.2)
    have hr : '>' ∈ r := by
      simp only [List.mem_append, List.mem_cons] at hb
      rcases hb with ((h | h) | h | h) | h
      · cases h
      · exact absurd h h1.no_gt
      · cases h
      · exact absurd h h2.no_gt
      · exact h
    rw [List.append_assoc]
    exact .closingIdentifier h1 h2 (h3.append (mem_gt_ne hr)) (h4.append (mem_gt_ne hr))
  | @closingInvalid w₁ w₂ r e h1 h2 h3 h4 =>
    have hb := last_mem (hf.elim (fun h => h.elim) fun h => h.2)
    have hr : '>' ∈ r := by
      simp only [List.mem_append, List.mem_cons] at hb
      rcases hb with ((h | h) | h | h) | h
      · cases h
      · exact absurd h h1.no_gt
      · cases h
      · exact absurd h h2.no_gt
      · exact h
    rw [List.append_assoc]
    exact .closingInvalid h1 h2 (h3.append (mem_gt_ne hr)) (badWord_more z h4 hr)
  | @closingEnd w₁ w₂ n w₃ r h1 h2 h3 h4 h5 h6 h7 =>
    have hb := last_mem (hf.elim (fun h => h.elim) fun h => h.2)
    have hr : '>' ∈ r := by
      simp only [List.mem_append, List.mem_cons] at hb
      rcases hb with ((((h | h) | h | h) | h) | h) | h
      · cases h
      · exact absurd h h1.no_gt
      · cases h
      · exact absurd h h2.no_gt
      · exact absurd h (name_no_gt h3)
      · exact absurd h h4.no_gt
      · exact h
    rw [List.append_assoc]
    refine .closingEnd h1 h2 h3 h4 ?_ (h6.append (mem_gt_ne hr)) (by rwa [head_more (mem_gt_ne hr)])
    rw [← List.append_assoc]
    exact h5.append (by simp [mem_gt_ne hr])
  | @openingIdentifier w₁ r h1 h2 h3 h4 =>
    have hb := last_mem (hf.elim (fun h => h.elim) fun h => h.2)
    have hr : '>' ∈ r := by
      simp only [List.mem_append, List.mem_cons] at hb
      rcases hb with (h | h) | h
      · cases h
      · exact absurd h h1.no_gt
      · exact h
    rw [List.append_assoc]
    exact .openingIdentifier h1 (h2.append (mem_gt_ne hr)) (h3.append (mem_gt_ne hr))
      (by rwa [head_more (mem_gt_ne hr)])
  | @openingInvalid w₁ r e h1 h2 h3 h4 h5 =>
    have hb := last_mem (hf.elim (fun h => h.elim) fun h => h.2)
    have hr : '>' ∈ r := by
      simp only [List.mem_append, List.mem_cons] at hb
      rcases hb with (h | h) | h
      · cases h
      · exact absurd h h1.no_gt
      · exact h
    rw [← commentStart_append hb (r := z), List.append_assoc] at h4
    rw [← doctypeStart_append hb (r := z), List.append_assoc] at h5
    rw [List.append_assoc]
    exact .openingInvalid h1 (h2.append (mem_gt_ne hr)) (badWord_more z h3 hr) h4 h5
  | @openingTail w₁ n w₂ as t r _ h1 h2 h3 h4 h5 h6 h7 h8 =>
    have hfin : ¬ Final e := by
      intro hfin
      cases h6 <;> exact hfin
    obtain ⟨hu, hl⟩ := hf.resolve_left hfin
    have hb := last_mem hl
    have hr : '>' ∈ r := by
      refine last_mem (last_right hl ?_)
      refine last_append ?_ (attrsThen_last h5)
      simp only [List.mem_append, List.mem_cons, not_or]
      exact ⟨⟨⟨by decide, h1.no_gt⟩, name_no_gt h2⟩, h3.no_gt⟩
    have hne := mem_gt_ne hr
    rw [← commentStart_append hb (r := z), List.append_assoc] at h7
    rw [← doctypeStart_append hb (r := z), List.append_assoc] at h8
    rw [List.append_assoc]
    refine .openingTail h1 h2 h3 ?_ (attrsThen_more z h5 hne) (tailFail_more z h6 hu hr) h7 h8
    rw [← List.append_assoc, ← List.append_assoc]
    refine Spec.Ends.append ?_ (by simp [hne])
    rwa [List.append_assoc]

theorem fails_more {L : Option Nat} {a b : Str} {st : List Opened} {e : ParseError} (z : Str)
    (h : Fails L a st b e) (hf : Final e ∨ (¬ Unfinished e ∧ b.getLast? = some '>')) :
    Fails L a st (b ++ z) e := by
  cases h with
  | missing => exact hf.elim (fun h => h.elim) fun h => absurd trivial h.1
  | lex h1 h2 => exact .lex (by simp [h1]) (lexFail_more z h2 hf)
  | tooDeep h1 h2 h3 => rw [List.append_assoc]; exact .tooDeep h1 h2 h3
  | unexpected h1 => rw [List.append_assoc]; exact .unexpected h1
  | mismatched h1 h2 => rw [List.append_assoc]; exact .mismatched h1 h2

/-! ## The iterator -/

theorem step_ok {a p r : Str} {m : Mode} {st st' : List Opened} {o : Options} {e : Event}
    (h1 : Lexeme m e p r) (h2 : StackStep o.maxStackDepth a st e st') (h3 : p ++ r ≠ []) :
    (stateAt a (p ++ r) m st o).step =
      .ok (some (.ok e), stateAt (a ++ p) r (modeAfter e) st' o) := by
  have hn := next_ok h1 h2 h3
  rcases step_eq (stateAt a (p ++ r) m st o) a rfl with ⟨h, -⟩ | ⟨e', it', h, h'⟩ | ⟨e', h, -⟩ <;>
    rw [hn] at h <;> cases h
  exact h'

theorem isOver_complaints : ∀ st : List Opened, isOver ((complaints st).map .error) = true
  | [] => rfl
  | _ :: st => isOver_complaints st

theorem isOver_of {a : Str} {m : Mode} {st : List Opened} {o : Options}
    {xs : List (Except ParseError Event)} (h : Yields (stateAt a [] m st o) xs) :
    isOver xs = true := by
  rw [yields_unique h (yields_complaints (posAfter a) m o st)]
  exact isOver_complaints st

theorem firstError_over : ∀ {xs : List (Except ParseError Event)} {e : ParseError},
    isOver xs = true → firstError xs = .error e → Unfinished e ∧ ¬ Final e
  | .error (.missingClosingTags ..) :: _, _, _, h => by cases h; exact ⟨trivial, id⟩

theorem firstError_cons {x : Event} {xs : List (Except ParseError Event)} {e : ParseError}
    (h : firstError (.ok x :: xs) = .error e) : firstError xs = .error e := by
  unfold firstError at h
  cases h' : firstError xs with
  | ok es => rw [h'] at h; cases h
  | error e' => rw [h'] at h; cases h; rfl

/-- The events that do not end with the text are the same when the text goes on. -/
theorem settled_prefix (o : Options) (z : Str) : ∀ {it : Iter} {xs : List (Except ParseError Event)},
    Yields it xs → ∀ {a b : Str} {m : Mode} {st : List Opened}, it = stateAt a b m st o →
    ∀ {ys}, Yields (stateAt a (b ++ z) m st o) ys → (settled xs).map .ok <+: ys := by
  intro it xs h
  induction h with
  | done => intros; exact List.nil_prefix
  | @item it x it' xs hs hy ih =>
    rintro a b m st rfl ys hys
    rcases next_cases a b m st o with ⟨rfl, rfl, hn⟩ | ⟨e, p, r, st', hb, rfl, hl, hst, hn⟩ |
      ⟨err, -, -, hn⟩
    · rcases step_eq (stateAt a [] m [] o) a rfl with ⟨-, h'⟩ | ⟨e', it'', h, -⟩ | ⟨e', h, -⟩
      · rw [h'] at hs; cases hs
      · rw [hn] at h; cases h
      · rw [hn] at h; cases h
    · rw [step_ok hl hst hb] at hs
      cases hs
      unfold settled
      by_cases ht : (isText e && isOver xs) = true
      · rw [if_pos ht]
        exact List.nil_prefix
      · rw [if_neg ht]
        have hr : isText e = true → r ≠ [] := by
          rintro h rfl
          rw [h, isOver_of hy] at ht
          exact ht rfl
        rw [List.append_assoc] at hys
        have hs' := step_ok (o := o) (lexeme_more z hl hr) hst (by simp at hb ⊢; tauto)
        cases hys with
        | done h => rw [hs'] at h; cases h
        | item h hys =>
          rw [hs'] at h
          cases h
          rw [List.map_cons]
          exact List.cons_prefix_cons.2 ⟨rfl, ih rfl hys⟩
    · rcases step_eq (stateAt a b m st o) a rfl with ⟨h, -⟩ | ⟨e', it'', h, -⟩ | ⟨e', h, h'⟩ <;>
        rw [hn] at h <;> cases h
      rw [h'] at hs
      cases hs
      exact List.nil_prefix

/-- An error in what has been read stays, with all that follows. -/
theorem final_same (o : Options) (z : Str) : ∀ {it : Iter} {xs : List (Except ParseError Event)},
    Yields it xs → ∀ {a b : Str} {m : Mode} {st : List Opened} {e : ParseError},
    it = stateAt a b m st o → firstError xs = .error e →
    Final e ∨ (¬ Unfinished e ∧ (b = [] ∨ b.getLast? = some '>')) →
    Yields (stateAt a (b ++ z) m st o) xs := by
  intro it xs h
  induction h with
  | done => rintro a b m st e rfl h; cases h
  | @item it x it' xs hs hy ih =>
    rintro a b m st e rfl he hf
    rcases next_cases a b m st o with ⟨rfl, rfl, hn⟩ | ⟨ev, p, r, st', hb, rfl, hl, hst, hn⟩ |
      ⟨err, hm, hfail, hn⟩
    · rcases step_eq (stateAt a [] m [] o) a rfl with ⟨-, h'⟩ | ⟨e', it'', h, -⟩ | ⟨e', h, -⟩
      · rw [h'] at hs; cases hs
      · rw [hn] at h; cases h
      · rw [hn] at h; cases h
    · rw [step_ok hl hst hb] at hs
      cases hs
      have he' := firstError_cons he
      have hr : r ≠ [] := by
        rintro rfl
        have := firstError_over (isOver_of hy) he'
        rcases hf with hf | hf
        · exact this.2 hf
        · exact hf.1 this.1
      rw [List.append_assoc]
      refine .item (step_ok (o := o) (lexeme_more z hl fun _ => hr) hst (by simp at hb ⊢; tauto))
        (ih rfl he' ?_)
      refine hf.imp id fun hf => ⟨hf.1, .inr ?_⟩
      have := hf.2.resolve_left hb
      rwa [List.getLast?_append_of_ne_nil _ hr] at this
    · rcases step_eq (stateAt a b m st o) a rfl with ⟨h, -⟩ | ⟨e', it'', h, -⟩ | ⟨e', h, h'⟩ <;>
        rw [hn] at h <;> cases h
      rw [h'] at hs
      cases hs
      cases he
      have hb : b ≠ [] := by
        intro hb
        cases hfail with
        | missing => exact hf.elim (fun h => h.elim) fun h => absurd trivial h.1
        | lex h => exact h hb
        | tooDeep h => exact piece_ne_nil h (List.append_eq_nil_iff.1 hb).1
        | unexpected h => exact piece_ne_nil h (List.append_eq_nil_iff.1 hb).1
        | mismatched h => exact piece_ne_nil h (List.append_eq_nil_iff.1 hb).1
      have hfail' := fails_more z hfail (hf.imp id fun h => ⟨h.1, h.2.resolve_left hb⟩)
      have hn' := fails_next (.inr (hm.resolve_left hb)) hfail'
      rcases step_eq (stateAt a (b ++ z) m st o) a rfl with ⟨h, -⟩ | ⟨e', it'', h, -⟩ | ⟨e', h, k⟩ <;>
        rw [hn'] at h <;> cases h
      refine .item k ?_
      change Yields ⟨⟨[], _⟩, m, dropped (locate st) _, o⟩ xs at hy
      change Yields ⟨⟨[], _⟩, m, dropped (locate st) _, o⟩ xs
      rw [dropped_locate] at hy ⊢
      rw [yields_unique hy (yields_complaints _ m o _)]
      exact yields_complaints _ m o _

end Fuser
