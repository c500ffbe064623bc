import Verif.Proof.Doc

/-!
# `Template::from_str` in terms of the grammar
-/

namespace Fuser
open Spec

theorem utf8Len_sum (s : Str) : utf8Len s = (s.map Char.utf8Size).sum := rfl

theorem templateFromStr_eq {s : Str} {o : Options} :
    Template.fromStr s o = match o.maxInputLen with
      | some n => if (s.map Char.utf8Size).sum > n then .ok (.error (.lengthLimitExceeded n))
        else match parseEvents s o with
          | .error h => .error h
          | .ok (.ok es) => .ok (.ok ⟨es⟩)
          | .ok (.error e) => .ok (.error (.parse e))
      | none => match parseEvents s o with
          | .error h => .error h
          | .ok (.ok es) => .ok (.ok ⟨es⟩)
          | .ok (.error e) => .ok (.error (.parse e)) := by
  unfold Template.fromStr
  rw [utf8Len_sum]
  cases o.maxInputLen with
  | none =>
    cases parseEvents s o with
    | error h => rfl
    | ok r => cases r <;> rfl
  | some n =>
    simp only
    split
    · rfl
    · cases parseEvents s o with
      | error h => rfl
      | ok r => cases r <;> rfl

theorem fromStr_fits {s : Str} {o : Options} (h : Fits o.maxInputLen s) :
    Template.fromStr s o = match parseEvents s o with
          | .error h => .error h
          | .ok (.ok es) => .ok (.ok ⟨es⟩)
          | .ok (.error e) => .ok (.error (.parse e)) := by
  rw [templateFromStr_eq]
  cases hl : o.maxInputLen with
  | none => rfl
  | some n =>
    simp only
    rw [if_neg]
    have := h n hl
    omega

theorem fromStr_not_fits {s : Str} {o : Options} (h : ¬ Fits o.maxInputLen s) :
    ∃ n, o.maxInputLen = some n ∧ (s.map Char.utf8Size).sum > n ∧
      Template.fromStr s o = .ok (.error (.lengthLimitExceeded n)) := by
  rw [templateFromStr_eq]
  cases hl : o.maxInputLen with
  | none => simp [Fits, hl] at h
  | some n =>
    have : (s.map Char.utf8Size).sum > n := by simpa [Fits, hl] using h
    exact ⟨n, rfl, this, by simp [this]⟩

theorem fromStr_ok {s : Str} {o : Options} {t : Template} :
    Template.fromStr s o = .ok (.ok t) ↔
      Fits o.maxInputLen s ∧ parseEvents s o = .ok (.ok t.events) := by
  by_cases h : Fits o.maxInputLen s
  · rw [fromStr_fits h]
    cases parseEvents s o with
    | error h => simp
    | ok r =>
      cases r with
      | error e => simp
      | ok es => cases t; simp [h]
  · obtain ⟨n, -, -, h2⟩ := fromStr_not_fits h
    simp [h2, h]

theorem fromStr_error {s : Str} {o : Options} {e : ParseError} :
    Template.fromStr s o = .ok (.error (.parse e)) ↔
      Fits o.maxInputLen s ∧ parseEvents s o = .ok (.error e) := by
  by_cases h : Fits o.maxInputLen s
  · rw [fromStr_fits h]
    cases parseEvents s o with
    | error h => simp
    | ok r => cases r <;> simp [h]
  · obtain ⟨n, -, -, h2⟩ := fromStr_not_fits h
    simp [h2, h]

/-! ## Facts about documents -/

/-- Every event of a document has a spelling. -/
theorem reads_piece {d : Doc} {b : Str} (h : Reads d b) : ∀ {e p}, (e, p) ∈ d →
    Piece e p ∨ e = .rawData (.actual p) := by
  induction h with
  | nil => intro e p h; cases h
  | plain hp _ _ _ ih =>
    intro e p h
    rcases List.mem_cons.1 h with h | h
    · cases h; exact .inl hp
    · exact ih h
  | rawStart hp _ =>
    intro e p h
    rcases List.mem_cons.1 h with h | h
    · cases h; exact .inl hp
    · cases h
  | raw hp _ _ _ _ _ ih =>
    intro e p h
    rcases List.mem_cons.1 h with h | h
    · cases h; exact .inl hp
    · rcases List.mem_cons.1 h with h | h
      · cases h; exact .inr rfl
      · exact ih h

theorem mem_events {d : Doc} {e : Event} (h : e ∈ Doc.events d) : ∃ p, (e, p) ∈ d := by
  obtain ⟨⟨e', p⟩, h1, rfl⟩ := List.mem_map.1 h
  exact ⟨p, h1⟩

/-- Where open elements come from. -/
theorem opens_origin {L : Option Nat} {a : Str} {st st' : List Opened} {d : Doc}
    (h : Opens L a st d st') : ∀ o ∈ st', o ∈ st ∨
      ∃ d₁ as p d₂, d = d₁ ++ (.openingTag o.1 as, p) :: d₂ ∧ o.2 = a ++ Doc.text d₁ := by
  induction h with
  | nil => intro o ho; exact .inl ho
  | @opening a st t as p d st' _ _ ih =>
    intro o ho
    rcases ih o ho with h | ⟨d1, as', q, d2, rfl, h2⟩
    · rcases List.mem_cons.1 h with rfl | h
      · exact .inr ⟨[], as, p, d, rfl, by simp [Doc.text]⟩
      · exact .inl h
    · exact .inr ⟨(.openingTag t as, p) :: d1, as', q, d2, rfl, by simp [h2, Doc.text]⟩
  | @closing a st c t x p d st' _ _ ih =>
    intro o ho
    rcases ih o ho with h | ⟨d1, as', q, d2, rfl, h2⟩
    · exact .inl (List.mem_cons_of_mem _ h)
    · exact .inr ⟨_ :: d1, as', q, d2, rfl, by simp [h2, Doc.text]⟩
  | @leaf a st e p d st' _ _ ih =>
    intro o ho
    rcases ih o ho with h | ⟨d1, as', q, d2, rfl, h2⟩
    · exact .inl h
    · exact .inr ⟨_ :: d1, as', q, d2, rfl, by simp [h2, Doc.text]⟩

/-- The opening tag of an open element, in the text. -/
theorem opened_piece {L : Option Nat} {st : List Opened} {d : Doc} {b : Str}
    (h : Opens L [] [] d st) (hr : Reads d b) {o : Opened} (ho : o ∈ st) :
    ∃ as p r, Piece (.openingTag o.1 as) p ∧ Doc.text d ++ b = o.2 ++ p ++ r := by
  rcases opens_origin h o ho with h | ⟨d1, as, p, d2, rfl, h2⟩
  · cases h
  · refine ⟨as, p, Doc.text d2 ++ b, ?_, by simp [Doc.text, h2]⟩
    rcases reads_piece hr (e := .openingTag o.1 as) (p := p) (by simp) with h | h
    · exact h
    · cases h

/-- The next piece of a text is unique. -/
theorem piece_unique {e e' : Event} {p p' r r' : Str} (h : Piece e p) (h' : Piece e' p')
    (heq : p ++ r = p' ++ r') (hd : ∀ s c, e = .data s → r.head? = some c → c = '<')
    (hd' : ∀ s c, e' = .data s → r'.head? = some c → c = '<') : e = e' ∧ p = p' ∧ r = r' := by
  have h1 := dataMode_iff.2 ⟨e, p, (Input.new (p ++ r)).after p r, h, Eats.of rfl,
    fun x hx c => hd x c hx, rfl⟩
  have h2 := dataMode_iff.2 ⟨e', p', (Input.new (p ++ r)).after p' r', h', Eats.of heq,
    fun x hx c => hd' x c hx, rfl⟩
  rw [h1] at h2
  simp only [Except.ok.injEq, Parsed.mk.injEq, Input.after, Input.mk.injEq] at h2
  obtain ⟨he, -, -, hr, -⟩ := h2
  subst hr
  exact ⟨he, List.append_cancel_right heq, rfl⟩

end Fuser
