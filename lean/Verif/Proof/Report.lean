import Verif.Proof.FromStr
import Verif.Spec.Report

/-!
# Helper lemmas on what the parser reports
-/

namespace Fuser
open Spec

/-! ## Locations -/

theorem tailFail_loc {tag a r : Str} {e : ParseError} (h : TailFail tag a r e) :
    ∀ l ∈ locations e, ∃ b, IsPos (a ++ r) l b := by
  cases h with
  | identifier =>
    simp only [locations, List.mem_singleton, forall_eq]
    exact ⟨_, _, rfl, rfl⟩
  | @value n w1 w2 r =>
    simp only [locations, List.mem_singleton, forall_eq]
    exact ⟨r, _, by simp, rfl⟩
  | @unclosedValue n w1 w2 r =>
    simp only [locations, List.mem_singleton, forall_eq]
    exact ⟨'"' :: r, _, by simp, rfl⟩
  | noEnd =>
    simp only [locations, List.mem_singleton, forall_eq]
    exact ⟨_, _, rfl, rfl⟩
  | @noEndSlash w r =>
    simp only [locations, List.mem_singleton, forall_eq]
    exact ⟨r, _, by simp, rfl⟩

theorem lexFail_loc {a b : Str} {e : ParseError} (h : LexFail a b e) :
    ∀ l ∈ locations e, ∃ x, IsPos (a ++ b) l x := by
  cases h with
  | openingTail _ _ _ _ _ h =>
    intro l hl
    obtain ⟨x, y, h1, h2⟩ := tailFail_loc h l hl
    exact ⟨x, y, by rw [← h1]; simp, h2⟩
  | @closingIdentifier w1 w2 r =>
    simp only [locations, List.mem_singleton, forall_eq]
    exact ⟨r, _, by simp, rfl⟩
  | @closingInvalid w1 w2 r =>
    simp only [locations, List.mem_singleton, forall_eq]
    exact ⟨r, _, by simp, rfl⟩
  | @closingEnd w1 w2 n w3 r =>
    simp only [locations, List.mem_singleton, forall_eq]
    exact ⟨r, _, by simp, rfl⟩
  | @openingIdentifier w1 r =>
    simp only [locations, List.mem_singleton, forall_eq]
    exact ⟨r, _, by simp, rfl⟩
  | @openingInvalid w1 r =>
    simp only [locations, List.mem_singleton, forall_eq]
    exact ⟨r, _, by simp, rfl⟩
  | _ =>
    simp only [locations, List.mem_singleton, forall_eq]
    exact ⟨_, _, rfl, rfl⟩

theorem lexFail_tags {a b : Str} {e : ParseError} (h : LexFail a b e) : namedTags e = [] := by
  cases h with
  | openingTail _ _ _ _ _ h => cases h <;> rfl
  | _ => rfl

theorem lexFail_unexpected {a b : Str} {l : Location} : ¬ LexFail a b (.unexpectedInput l) := by
  intro h
  cases h with
  | openingTail _ _ _ _ _ h => cases h

theorem opening_tagAt {n : Identifier} {as : Attributes} {p a r : Str}
    (h : Piece (.openingTag n as) p) : TagAt (a ++ p ++ r) false n.str (posAfter a) := by
  cases h with
  | @start w1 n w2 as' sc q e hw1 hn hw2 he ht _ _ hs =>
    cases hs with
    | opening _ =>
      refine ⟨a, w1, [], w2 ++ q ++ r, by simp [owned, Identifier.str, Deferred.str], hw1,
        by simp [Blank], hn.ne_nil, hn.2, ?_, rfl⟩
      exact he.append (by simp [ht.ne_nil])

theorem closing_tagAt {n : Identifier} {p a r : Str}
    (h : Piece (.closingTag n) p) : TagAt (a ++ p ++ r) true n.str (posAfter a) := by
  cases h with
  | @closing w1 w2 n w3 hw1 hw2 hn hw3 he =>
    refine ⟨a, w1, w2, w3 ++ ['>'] ++ r, by simp [owned, Identifier.str, Deferred.str], hw1,
      hw2, hn.ne_nil, hn.2, ?_, rfl⟩
    exact he.append (by simp)
  | start _ _ _ _ _ _ _ hs => cases hs

theorem tagAt_pos {s n : Str} {c : Bool} {l : Location} (h : TagAt s c n l) :
    ∃ b, IsPos s l b := by
  obtain ⟨a, w, w', r, h1, -, -, -, -, -, h2⟩ := h
  exact ⟨_, a, h1, h2⟩

theorem fails_tags {L : Option Nat} {st : List Opened} {d : Doc} {b : Str} {e : ParseError}
    (hr : Reads d b) (ho : Opens L [] [] d st) (h : Fails L (Doc.text d) st b e) :
    ∀ x ∈ namedTags e, TagAt (Doc.text d ++ b) x.1 x.2.1 x.2.2 := by
  cases h with
  | @missing o st =>
    intro x hx
    simp only [namedTags, List.mem_map] at hx
    obtain ⟨y, hy, rfl⟩ := hx
    have : ∃ z ∈ o :: st, y = z.report := by
      rcases List.mem_cons.1 hy with rfl | hy
      · exact ⟨o, by simp, rfl⟩
      · obtain ⟨z, hz, rfl⟩ := List.mem_map.1 hy
        exact ⟨z, by simp [List.mem_reverse.1 hz], rfl⟩
    obtain ⟨z, hz, rfl⟩ := this
    obtain ⟨as, p, r, hp, heq⟩ := opened_piece ho hr hz
    rw [heq]
    exact opening_tagAt hp
  | lex _ h => intro x hx; rw [lexFail_tags h] at hx; cases hx
  | tooDeep hp _ _ =>
    simp only [namedTags, List.mem_singleton, forall_eq]
    rw [← List.append_assoc]
    exact opening_tagAt hp
  | unexpected hp =>
    simp only [namedTags, List.mem_singleton, forall_eq]
    rw [← List.append_assoc]
    exact closing_tagAt hp
  | @mismatched o st c p r hp _ =>
    simp only [namedTags, List.mem_cons, List.not_mem_nil, or_false, forall_eq_or_imp, forall_eq]
    constructor
    · obtain ⟨as, p, r, hp, heq⟩ := opened_piece ho hr (o := o) (by simp)
      rw [heq]
      exact opening_tagAt hp
    · rw [← List.append_assoc]
      exact closing_tagAt hp

theorem fails_loc {L : Option Nat} {st : List Opened} {d : Doc} {b : Str} {e : ParseError}
    (hr : Reads d b) (ho : Opens L [] [] d st) (h : Fails L (Doc.text d) st b e) :
    ∀ l ∈ locations e, ∃ x, IsPos (Doc.text d ++ b) l x := by
  have ht := fails_tags hr ho h
  have key : ∀ l ∈ locations e, (∃ x ∈ namedTags e, x.2.2 = l) → 
      ∃ x, IsPos (Doc.text d ++ b) l x := by
    rintro l - ⟨x, hx, rfl⟩
    exact tagAt_pos (ht x hx)
  intro l hl
  cases h with
  | missing =>
    refine key l hl ?_
    simp only [locations, List.mem_cons, List.mem_map] at hl
    rcases hl with rfl | ⟨y, hy, rfl⟩
    · exact ⟨_, List.mem_cons_self .., rfl⟩
    · exact ⟨(false, y.1, y.2), by simp only [namedTags, List.mem_map]; exact ⟨y, List.mem_cons_of_mem _ (List.mem_map.2 hy), rfl⟩, rfl⟩
  | lex _ h => exact lexFail_loc h l hl
  | tooDeep =>
    simp only [locations, List.mem_singleton] at hl
    exact key l (by simpa [locations]) ⟨_, by simp [namedTags]; rfl, hl.symm⟩
  | unexpected =>
    simp only [locations, List.mem_singleton] at hl
    exact key l (by simpa [locations]) ⟨_, by simp [namedTags]; rfl, hl.symm⟩
  | mismatched =>
    simp only [locations, List.mem_cons, List.not_mem_nil, or_false] at hl
    rcases hl with rfl | rfl
    · exact key _ (by simp [locations]) ⟨_, List.mem_cons_self .., rfl⟩
    · exact key _ (by simp [locations]) ⟨_, List.mem_cons_of_mem _ (List.mem_cons_self ..), rfl⟩

/-! ## Raw text -/

/-- Raw text events and raw text elements go together. -/
inductive RawPlaced : List Event → Prop
  | nil : RawPlaced []
  | plain {e es} : (∀ t as, e = .openingTag t as → ¬ RawName t.str) → (∀ c, e ≠ .rawData c) →
      RawPlaced es → RawPlaced (e :: es)
  | raw {t as x c es} : RawName t.str → SameName c.str t.str → RawPlaced (.closingTag c :: es) →
      RawPlaced (.openingTag t as :: .rawData x :: .closingTag c :: es)

theorem reads_rawPlaced {d : Doc} {b : Str} (h : Reads d b) (hb : b = []) :
    ∀ {L a st}, Opens L a st d [] → RawPlaced (Doc.events d) := by
  induction h with
  | nil => intros; exact .nil
  | @plain e p d b hp hraw _ _ ih =>
    intro L a st ho
    refine .plain ?_ ?_ ?_
    · rintro t as rfl ht
      obtain ⟨w, rfl, -⟩ := piece_opening_name hp
      exact hraw ⟨w, as, rfl, ht⟩
    · rintro c rfl
      cases hp with
      | start _ _ _ _ _ _ _ hs => cases hs
    · cases ho with
      | opening _ h => exact ih hb h
      | closing _ h => exact ih hb h
      | leaf _ h => exact ih hb h
  | rawStart hp hraw =>
    intro L a st ho
    obtain ⟨as, rfl, ht⟩ := hraw
    cases ho with
    | opening _ h => cases h
    | leaf h => cases h
  | @raw e p t c d b hp hraw _ _ hclose hr ih =>
    intro L a st ho
    subst hb
    obtain ⟨as, rfl, ht⟩ := hraw
    cases ho with
    | leaf h => cases h
    | opening _ h =>
      cases h with
      | leaf _ h =>
        by_cases he : Doc.text d ++ [] = []
        · -- no text left: no event left, but an element is open
          cases d with
          | nil => cases h
          | cons x d =>
            obtain ⟨e, q⟩ := x
            have hq : q = [] := by
              simp only [Doc.text, List.flatMap_cons, List.append_nil, List.append_eq_nil_iff] at he
              exact he.1
            exfalso
            cases hr with
            | plain h1 _ _ _ => exact piece_ne_nil h1 hq
            | rawStart h1 _ => exact piece_ne_nil h1 hq
            | raw h1 _ _ _ _ _ => exact piece_ne_nil h1 hq
        · obtain ⟨n, q, r, heq, hq, hn⟩ := hclose he
          have key : ∀ e' q' d', d = (e', q') :: d' → Piece e' q' →
              (∀ s c, e' = .data s → (Doc.text d' ++ []).head? = some c → c = '<') →
              e' = .closingTag n := by
            rintro e' q' d' rfl hp' hd'
            have : q' ++ Doc.text d' = q ++ r := by simpa [Doc.text] using heq
            exact (piece_unique hp' hq this (by simpa using hd') (by simp)).1
          have hrp := ih rfl h
          cases hr with
          | nil => simp [Doc.text] at he
          | plain h1 _ h3 _ =>
            have := key _ _ _ rfl h1 h3
            subst this
            exact .raw ht hn hrp
          | rawStart h1 h2 =>
            obtain ⟨as, rfl, -⟩ := h2
            have := key _ _ _ rfl h1 (by simp)
            cases this
          | raw h1 h2 _ _ _ _ =>
            obtain ⟨as, rfl, -⟩ := h2
            have := key _ _ _ rfl h1 (by simp)
            cases this

theorem rawPlaced_opening {es : List Event} (h : RawPlaced es) : ∀ {pre t as post},
    es = pre ++ .openingTag t as :: post → RawName t.str →
    ∃ x c post', post = .rawData x :: .closingTag c :: post' ∧ SameName c.str t.str := by
  induction h with
  | nil => intro pre t as post h; simp at h
  | plain h1 _ _ ih =>
    intro pre t as post heq ht
    cases pre with
    | nil =>
      simp only [List.nil_append, List.cons.injEq] at heq
      exact absurd ht (h1 t as heq.1)
    | cons x pre =>
      simp only [List.cons_append, List.cons.injEq] at heq
      exact ih heq.2 ht
  | @raw t' as' x c es h1 h2 _ ih =>
    intro pre t as post heq ht
    cases pre with
    | nil =>
      simp only [List.nil_append, List.cons.injEq, Event.openingTag.injEq] at heq
      obtain ⟨⟨rfl, rfl⟩, rfl⟩ := heq
      exact ⟨x, c, es, rfl, h2⟩
    | cons y pre =>
      simp only [List.cons_append, List.cons.injEq] at heq
      cases pre with
      | nil => simp at heq
      | cons z pre =>
        simp only [List.cons_append, List.cons.injEq] at heq
        exact ih heq.2.2 ht

theorem rawPlaced_raw {es : List Event} (h : RawPlaced es) : ∀ {pre x post},
    es = pre ++ .rawData x :: post →
    ∃ pre' t as c post', pre = pre' ++ [.openingTag t as] ∧ post = .closingTag c :: post' ∧
      RawName t.str ∧ SameName c.str t.str := by
  induction h with
  | nil => intro pre x post h; simp at h
  | @plain e es _ h2 _ ih =>
    intro pre x post heq
    cases pre with
    | nil =>
      simp only [List.nil_append, List.cons.injEq] at heq
      exact absurd heq.1 (h2 x)
    | cons y pre =>
      simp only [List.cons_append, List.cons.injEq] at heq
      obtain ⟨pre', t, as, c, post', rfl, h⟩ := ih heq.2
      exact ⟨y :: pre', t, as, c, post', rfl, h⟩
  | @raw t' as' x' c es h1 h2 _ ih =>
    intro pre x post heq
    cases pre with
    | nil => simp at heq
    | cons y pre =>
      simp only [List.cons_append, List.cons.injEq] at heq
      obtain ⟨rfl, heq⟩ := heq
      cases pre with
      | nil =>
        simp only [List.nil_append, List.cons.injEq] at heq
        exact ⟨[], t', as', c, es, rfl, heq.2.symm, h1, h2⟩
      | cons z pre =>
        simp only [List.cons_append, List.cons.injEq] at heq
        obtain ⟨pre', t, as, c', post', rfl, h⟩ := ih heq.2
        exact ⟨_ :: _ :: pre', t, as, c', post', rfl, h⟩

/-! ## Tags -/

theorem nests_closing {n : Nat} {es : List Event} (h : Nests n es) : ∀ c, .closingTag c ∈ es →
    ∃ t as, .openingTag t as ∈ es ∧ SameName c.str t.str := by
  induction h with
  | nil => intro c h; cases h
  | leaf hl _ ih =>
    intro c h
    rcases List.mem_cons.1 h with rfl | h
    · cases hl
    · obtain ⟨t, as, h1, h2⟩ := ih c h
      exact ⟨t, as, List.mem_cons_of_mem _ h1, h2⟩
  | @element n t as c' inner es hc _ _ ih1 ih2 =>
    intro c h
    simp only [List.mem_cons, List.mem_append, reduceCtorEq, false_or] at h
    rcases h with h | h | h
    · obtain ⟨t, as, h1, h2⟩ := ih1 c h
      exact ⟨t, as, by simp [h1], h2⟩
    · cases h
      exact ⟨t, as, by simp, hc⟩
    · obtain ⟨t, as, h1, h2⟩ := ih2 c h
      exact ⟨t, as, by simp [h1], h2⟩

theorem voidName_congr {a b : Str} (h : SameName a b) : VoidName a ↔ VoidName b := by
  constructor
  · rintro ⟨v, hv, h'⟩; exact ⟨v, hv, h.symm.trans h'⟩
  · rintro ⟨v, hv, h'⟩; exact ⟨v, hv, h.trans h'⟩

theorem piece_void {n : Identifier} {as : Attributes} {p : Str} (h : Piece (.voidTag n as) p) :
    VoidName n.str := by
  cases h with
  | start _ _ _ _ _ _ _ hs => cases hs with | void h => exact h

theorem piece_selfClosed {n : Identifier} {as : Attributes} {p : Str}
    (h : Piece (.selfClosedTag n as) p) : ¬ VoidName n.str := by
  cases h with
  | start _ _ _ _ _ _ _ hs => cases hs with | selfClosed h => exact h

theorem tagTail_last {as : Attributes} {sc : Bool} {t : Str} (h : TagTail as sc t) :
    ∃ r, t = r ++ ['>'] := by
  induction h with
  | «open» => exact ⟨[], rfl⟩
  | @selfClose w _ => exact ⟨'/' :: w, by simp⟩
  | @bare n w r as sc _ _ _ _ ih =>
    obtain ⟨q, rfl⟩ := ih
    exact ⟨n ++ w ++ q, by simp⟩
  | @valued n w1 w2 w3 v w4 r as sc _ _ _ _ _ _ _ _ _ ih =>
    obtain ⟨q, rfl⟩ := ih
    exact ⟨n ++ w1 ++ '=' :: w2 ++ '"' :: w3 ++ v ++ '"' :: w4 ++ q, by simp⟩

theorem tagTail_value {as : Attributes} {sc : Bool} {t : Str} (h : TagTail as sc t) :
    ∀ x v, x ∈ as → x.value = some v → ∃ p w₁ w₂ w₃ q,
      t = p ++ x.name.str ++ w₁ ++ '=' :: w₂ ++ '"' :: w₃ ++ v.str ++ '"' :: q ∧
      Blank w₁ ∧ Blank w₂ ∧ Blank w₃ ∧ Tight v.str ∧ '"' ∉ v.str := by
  induction h with
  | «open» => intro x v h; cases h
  | selfClose => intro x v h; cases h
  | @bare n w r as sc _ _ _ _ ih =>
    intro x v hx hv
    rcases List.mem_cons.1 hx with rfl | hx
    · cases hv
    · obtain ⟨p, w1, w2, w3, q, rfl, h⟩ := ih x v hx hv
      exact ⟨n ++ w ++ p, w1, w2, w3, q, by simp, h⟩
  | @valued n w1 w2 w3 v' w4 r as sc _ h1 _ h2 h3 h4 h5 _ _ ih =>
    intro x v hx hv
    rcases List.mem_cons.1 hx with rfl | hx
    · cases hv
      exact ⟨[], w1, w2, w3, w4 ++ r, by simp [owned, Identifier.str, Deferred.str], h1, h2, h3, h4, h5⟩
    · obtain ⟨p, w1', w2', w3', q, rfl, h⟩ := ih x v hx hv
      exact ⟨n ++ w1 ++ '=' :: w2 ++ '"' :: w3 ++ v' ++ '"' :: w4 ++ p, w1', w2', w3', q, by simp, h⟩

theorem piece_carries {e : Event} {p : Str} (h : Piece e p) : Carries e p := by
  cases h with
  | data h _ => exact ⟨rfl, h⟩
  | comment _ => rfl
  | @doctype w1 d w2 c w3 h1 h2 h3 _ _ h4 => exact ⟨w1, d, w2, w3, rfl, h2, h1, h3, h4⟩
  | @closing w1 w2 n w3 h1 h2 _ h3 => exact ⟨w1, w2, w3, rfl, h1, h2, h3⟩
  | @start w1 n w2 as sc r e h1 _ _ _ ht _ _ hs =>
    obtain ⟨q, rfl⟩ := tagTail_last ht
    cases hs <;> exact ⟨w1, w2 ++ q, by simp [owned, Identifier.str, Deferred.str], h1⟩

theorem piece_value {e : Event} {s : Str} (h : Piece e s) :
    ∀ x v, x ∈ attributesOf e → x.value = some v → ∃ p w₁ w₂ w₃ q,
      s = p ++ x.name.str ++ w₁ ++ '=' :: w₂ ++ '"' :: w₃ ++ v.str ++ '"' :: q ∧
      Blank w₁ ∧ Blank w₂ ∧ Blank w₃ ∧ Tight v.str ∧ '"' ∉ v.str := by
  intro x v hx hv
  cases h with
  | @start w1 n w2 as sc r e h1 _ _ _ ht _ _ hs =>
    have hx : x ∈ as := by cases hs <;> exact hx
    obtain ⟨p, u1, u2, u3, q, rfl, h⟩ := tagTail_value ht x v hx hv
    exact ⟨'<' :: w1 ++ n ++ w2 ++ p, u1, u2, u3, q, by simp, h⟩
  | _ => cases hx

end Fuser
