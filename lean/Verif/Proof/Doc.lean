import Verif.Proof.Iter

/-!
# Documents

The parser in terms of the specification only.
-/

namespace Fuser
open Spec

theorem ascii_raw : ∀ r ∈ ["script".toList, "style".toList, "title".toList, "textarea".toList],
    Ascii r := by
  intro r hr
  rw [← isAscii_iff']
  have : ∀ v ∈ ["script".toList, "style".toList, "title".toList, "textarea".toList],
    isAscii v = true := by decide
  exact this r hr

theorem rawName_iff {t : Str} : RawName t ↔
    ∃ r ∈ ["script".toList, "style".toList, "title".toList, "textarea".toList], SameName t r := by
  simp [RawName]

theorem findRawTag_cases (t : Str) : ∀ l : List Str, (∀ r ∈ l, Ascii r) →
    ((∃ r ∈ l, SameName t r ∧ findRawTag t l = .rawData r) ∨
     ((¬ ∃ r ∈ l, SameName t r) ∧ findRawTag t l = .data)) := by
  intro l
  induction l with
  | nil => intro _; exact .inr ⟨by simp, rfl⟩
  | cons r l ih =>
    intro ha
    have hr := ha r List.mem_cons_self
    unfold findRawTag
    by_cases h : identifierEq t r = true
    · rw [if_pos h]
      exact .inl ⟨r, List.mem_cons_self, (identifierEq_right hr).1 h, rfl⟩
    · rw [if_neg h]
      rw [identifierEq_right hr] at h
      rcases ih (fun x hx => ha x (List.mem_cons_of_mem _ hx)) with ⟨x, hx, h1, h2⟩ | ⟨h1, h2⟩
      · exact .inl ⟨x, List.mem_cons_of_mem _ hx, h1, h2⟩
      · refine .inr ⟨?_, h2⟩
        rintro ⟨x, hx, hx'⟩
        rcases List.mem_cons.1 hx with rfl | hx
        · exact h hx'
        · exact h1 ⟨x, hx, hx'⟩

theorem mode_cases (t : Str) : (RawName t ∧ ∃ r, modeForTag t false = .rawData r ∧ SameName t r) ∨
    (¬ RawName t ∧ modeForTag t false = .data) := by
  rw [rawName_iff]
  rcases findRawTag_cases t _ ascii_raw with ⟨r, hr, h1, h2⟩ | ⟨h1, h2⟩
  · exact .inl ⟨⟨r, hr, h1⟩, r, h2, h1⟩
  · exact .inr ⟨h1, h2⟩

theorem closesAt_congr {t t' s : Str} (h : SameName t t') : ClosesAt t s ↔ ClosesAt t' s := by
  constructor
  · rintro ⟨n, p, r, h1, h2, h3⟩
    exact ⟨n, p, r, h1, h2, h3.trans h⟩
  · rintro ⟨n, p, r, h1, h2, h3⟩
    exact ⟨n, p, r, h1, h2, h3.trans h.symm⟩

/-- Start tags have parsed names. -/
theorem piece_opening_name {n : Identifier} {as : Attributes} {p : Str}
    (h : Piece (.openingTag n as) p) : ∃ w, n = owned w ∧ Name w ∧ ¬ VoidName w := by
  cases h with
  | start _ hn _ _ _ _ _ hs =>
    cases hs with
    | opening h => exact ⟨_, rfl, hn, h⟩

theorem modeAfter_cases {e : Event} {p : Str} (h : Piece e p) :
    (∃ t r, OpensRaw e t ∧ modeAfter e = .rawData r ∧ SameName t r) ∨
    ((¬ ∃ t, OpensRaw e t) ∧ modeAfter e = .data) := by
  cases e with
  | openingTag n as =>
    obtain ⟨w, rfl, -⟩ := piece_opening_name h
    rcases mode_cases w with ⟨h1, r, h2, h3⟩ | ⟨h1, h2⟩
    · exact .inl ⟨w, r, ⟨as, rfl, h1⟩, h2, h3⟩
    · refine .inr ⟨?_, h2⟩
      rintro ⟨t, as', heq, ht⟩
      simp only [owned, Event.openingTag.injEq, Identifier.mk.injEq, Deferred.actual.injEq] at heq
      rw [heq.1] at h1
      exact h1 ht
  | _ =>
    refine .inr ⟨?_, rfl⟩
    rintro ⟨t, as', heq, ht⟩
    cases heq

theorem reads_of_readsFrom (N : Nat) : ∀ {d : Doc} {b : Str}, d.length ≤ N →
    ReadsFrom .data d b → Reads d b := by
  induction N with
  | zero =>
    intro d b hN h
    have : d = [] := List.eq_nil_of_length_eq_zero (Nat.le_zero.1 hN)
    subst this
    exact .nil
  | succ N ih =>
    intro d b hN h
    cases h with
    | nil => exact .nil
    | @cons _ e p d _ hl hne hr =>
      simp only [List.length_cons] at hN
      rcases modeAfter_cases hl.1 with ⟨t, r, h1, h2, h3⟩ | ⟨h1, h2⟩
      · rw [h2] at hr
        cases hr with
        | nil => exact .rawStart hl.1 h1
        | @cons _ e' c d _ hl' hne' hr' =>
          obtain ⟨rfl, k1, k2⟩ := hl'
          simp only [List.length_cons] at hN
          refine .raw hl.1 h1 ?_ ?_ ?_ (ih (by omega) hr')
          · intro x y hxy hy
            rw [closesAt_congr h3]
            exact k1 x y hxy hy
          · intro hnil hc
            rw [hnil, hc] at hne'
            exact hne' rfl
          · intro hnn
            rw [closesAt_congr h3]
            exact k2.resolve_left hnn
      · rw [h2] at hr
        exact .plain hl.1 h1 hl.2 (ih (by omega) hr)

theorem readsFrom_of_reads {d : Doc} {b : Str} (h : Reads d b) : ReadsFrom .data d b := by
  induction h with
  | nil => exact .nil
  | plain hp h1 h2 _ ih =>
    refine .cons ⟨hp, h2⟩ (by simp [piece_ne_nil hp]) ?_
    rcases modeAfter_cases hp with ⟨t, r, k1, -⟩ | ⟨-, k2⟩
    · exact absurd ⟨t, k1⟩ h1
    · rw [k2]; exact ih
  | rawStart hp h1 =>
    refine .cons ⟨hp, ?_⟩ (by simp [piece_ne_nil hp]) .nil
    rintro s c rfl
    obtain ⟨as, h, -⟩ := h1
    cases h
  | @raw e p t c d b hp h1 h2 h3 h4 _ ih =>
    refine .cons ⟨hp, ?_⟩ (by simp [piece_ne_nil hp]) ?_
    · rintro s c rfl
      obtain ⟨as, h, -⟩ := h1
      cases h
    · rcases modeAfter_cases hp with ⟨t', r, k1, k2, k3⟩ | ⟨k1, -⟩
      · have : t' = t := by
          obtain ⟨as, rfl, -⟩ := h1
          obtain ⟨as', heq, -⟩ := k1
          simp only [owned, Event.openingTag.injEq, Identifier.mk.injEq, Deferred.actual.injEq] at heq
          exact heq.1.symm
        subst this
        rw [k2]
        refine .cons ⟨rfl, ?_, ?_⟩ ?_ ih
        · intro x y hxy hy
          rw [← closesAt_congr k3]
          exact h2 x y hxy hy
        · rw [← closesAt_congr k3]
          by_cases hn : Doc.text d ++ b = []
          · exact .inl hn
          · exact .inr (h4 hn)
        · intro hn
          obtain ⟨hc, hn⟩ := List.append_eq_nil_iff.1 hn
          exact h3 hn hc
      · exact absurd ⟨t, h1⟩ k1

theorem reads_iff {d : Doc} {b : Str} : ReadsFrom .data d b ↔ Reads d b :=
  ⟨reads_of_readsFrom _ (Nat.le_refl _), readsFrom_of_reads⟩

theorem modeEnd_iff {m : Mode} {d : Doc} {b : Str} (h : ReadsFrom m d b) (hm : m = .data ∨ d ≠ []) :
    modeEnd m d = .data ↔ ¬ InRaw d := by
  induction h with
  | nil =>
    rcases hm with rfl | hm
    · simp [modeEnd, InRaw]
    · exact absurd rfl hm
  | @cons m e p d b hl hne hr ih =>
    by_cases hd : d = []
    · subst hd
      change modeAfter e = .data ↔ _
      have hin : InRaw [(e, p)] ↔ ∃ t, OpensRaw e t := by
        constructor
        · rintro ⟨d', e', p', t, h1, h2⟩
          cases d' with
          | nil => simp at h1; rw [h1.1]; exact ⟨t, h2⟩
          | cons x d' => simp at h1
        · rintro ⟨t, h⟩
          exact ⟨[], e, p, t, rfl, h⟩
      rw [hin]
      cases m with
      | data =>
        rcases modeAfter_cases hl.1 with ⟨t, r, h1, h2, h3⟩ | ⟨h1, h2⟩
        · rw [h2]
          simp only [reduceCtorEq, false_iff, not_not]
          exact ⟨t, h1⟩
        · simp only [h2, true_iff]
          exact h1
      | rawData t =>
        obtain ⟨rfl, -⟩ := hl
        simp only [modeAfter, true_iff]
        rintro ⟨t, as, h, -⟩
        cases h
    · have h1 : modeEnd m ((e, p) :: d) = modeEnd (modeAfter e) d := rfl
      rw [h1, ih (.inr hd)]
      have : InRaw ((e, p) :: d) ↔ InRaw d := by
        constructor
        · rintro ⟨d', e', p', t, h1, h2⟩
          cases d' with
          | nil => simp at h1; exact absurd h1.2 hd
          | cons x d' =>
            simp at h1
            exact ⟨d', e', p', t, h1.2, h2⟩
        · rintro ⟨d', e', p', t, rfl, h2⟩
          exact ⟨(e, p) :: d', e', p', t, rfl, h2⟩
      rw [this]

/-- The parser in terms of the specification: success. -/
theorem parseEvents_ok {s : Str} {o : Options} {es : List Event} :
    parseEvents s o = .ok (.ok es) ↔
    ∃ d, s = Doc.text d ∧ es = Doc.events d ∧ Reads d [] ∧ Opens o.maxStackDepth [] [] d [] := by
  have hst : Iter.new s o = stateAt [] s .data [] o := rfl
  have hf : measure .data s < 2 * s.length + 2 := by simp [measure]
  unfold parseEvents
  rw [hst]
  constructor
  · intro h
    obtain ⟨r, h1, h2⟩ := collect_total o _ [] s .data [] hf
    rw [h] at h1
    cases h1
    cases h2 with
    | ok hd hr ho => exact ⟨_, hd, rfl, reads_iff.1 hr, ho⟩
  · rintro ⟨d, hd, rfl, hr, ho⟩
    exact collects_collect (.ok hd (reads_iff.2 hr) ho) _ hf

/-- The parser in terms of the specification: failure. -/
theorem parseEvents_error {s : Str} {o : Options} {e : ParseError} :
    parseEvents s o = .ok (.error e) ↔
    ∃ d b st, s = Doc.text d ++ b ∧ Reads d b ∧ Opens o.maxStackDepth [] [] d st ∧
      (b = [] ∨ ¬ InRaw d) ∧ Fails o.maxStackDepth (Doc.text d) st b e := by
  have hst : Iter.new s o = stateAt [] s .data [] o := rfl
  have hf : measure .data s < 2 * s.length + 2 := by simp [measure]
  unfold parseEvents
  rw [hst]
  constructor
  · intro h
    obtain ⟨r, h1, h2⟩ := collect_total o _ [] s .data [] hf
    rw [h] at h1
    cases h1
    cases h2 with
    | error hd hr ho hm hfail =>
      exact ⟨_, _, _, hd, reads_iff.1 hr, ho, by rwa [modeEnd_iff hr (.inl rfl)] at hm, hfail⟩
  · rintro ⟨d, b, st, hd, hr, ho, hm, hfail⟩
    rw [← reads_iff] at hr
    exact collects_collect (.error hd hr ho (by rwa [modeEnd_iff hr (.inl rfl)]) hfail) _ hf

theorem parseEvents_total (s : Str) (o : Options) : ∃ r, parseEvents s o = .ok r := by
  have hf : measure .data s < 2 * s.length + 2 := by simp [measure]
  obtain ⟨r, h1, -⟩ := collect_total o _ [] s .data [] hf
  exact ⟨r, h1⟩

/-! ## Nesting -/

/-- The remaining events close the open elements one after the other. -/
inductive CloseSeq (L : Nat) : List Opened → List Event → Prop
  | nil {es} : Nests L es → CloseSeq L [] es
  | cons {o st inner c es} : st.length + 1 ≤ L → SameName c.str o.1.str →
      Nests (L - (st.length + 1)) inner → CloseSeq L st es →
      CloseSeq L (o :: st) (inner ++ .closingTag c :: es)

theorem CloseSeq.leaf {L : Nat} {st : List Opened} {es : List Event} {e : Event}
    (h : CloseSeq L st es) (he : Leaf e) : CloseSeq L st (e :: es) := by
  cases h with
  | nil h => exact .nil (.leaf he h)
  | cons h1 h2 h3 h4 => exact .cons (inner := e :: _) h1 h2 (.leaf he h3) h4

theorem CloseSeq.element {L : Nat} {st : List Opened} {es inner : List Event} {t c : Identifier}
    {as : Attributes} (h : CloseSeq L st es) (hl : st.length < L)
    (hi : Nests (L - (st.length + 1)) inner) (hc : SameName c.str t.str) :
    CloseSeq L st (.openingTag t as :: (inner ++ .closingTag c :: es)) := by
  cases h with
  | nil h =>
    simp only [List.length_nil] at hl hi
    obtain ⟨n, rfl⟩ : ∃ n, L = n + 1 := ⟨L - 1, by omega⟩
    exact .nil (.element hc (by simpa using hi) h)
  | @cons o st inner' c' es h1 h2 h3 h4 =>
    have := CloseSeq.cons (o := o) (L := L) (inner := .openingTag t as :: (inner ++ .closingTag c :: inner'))
      h1 h2 ?_ h4
    · simpa using this
    · simp only [List.length_cons] at hl hi
      obtain ⟨n, hn⟩ : ∃ n, L - (st.length + 1) = n + 1 := ⟨L - (st.length + 1) - 1, by omega⟩
      rw [hn] at h3 ⊢
      refine .element hc ?_ h3
      have : L - (st.length + 1 + 1) = n := by omega
      rw [this] at hi
      exact hi

theorem opens_closeSeq {L : Nat} {a : Str} {st : List Opened} {d : Doc} {st' : List Opened}
    (h : Opens (some L) a st d st') (hst' : st' = []) (hl : st.length ≤ L) :
    CloseSeq L st (Doc.events d) := by
  induction h with
  | nil => subst hst'; exact .nil .nil
  | @opening a st t as p d st' hlim _ ih =>
    have hlt : st.length < L := by
      have : L ≠ st.length := by simpa using hlim
      omega
    have := ih hst' (by simp only [List.length_cons]; omega)
    change CloseSeq L st (.openingTag t as :: Doc.events d)
    generalize hes : Doc.events d = es at this
    cases this with
    | cons h1 h2 h3 h4 => exact h4.element hlt h3 h2
  | closing hc _ ih =>
    simp only [List.length_cons] at hl
    exact .cons (inner := []) hl hc .nil (ih hst' (by omega))
  | leaf he _ ih => exact (ih hst' hl).leaf he

theorem opens_nests {L : Nat} {d : Doc} (h : Opens (some L) [] [] d []) :
    Nests L (Doc.events d) := by
  have := opens_closeSeq h rfl (Nat.zero_le _)
  cases this with
  | nil h => exact h

theorem opens_weaken {L L' : Option Nat} {a : Str} {st st' : List Opened} {d : Doc}
    (h : Opens L a st d st') (hl : ∀ n, L' = some n → st.length + d.length ≤ n) :
    Opens L' a st d st' := by
  induction h with
  | nil => exact .nil
  | @opening a st t as p d st' _ _ ih =>
    refine .opening ?_ (ih ?_)
    · intro hh
      have := hl _ hh
      simp at this
      omega
    · intro n hn
      have := hl n hn
      simp at this ⊢
      omega
  | closing hc _ ih =>
    refine .closing hc (ih ?_)
    intro n hn
    have := hl n hn
    simp at this ⊢
    omega
  | leaf he _ ih =>
    refine .leaf he (ih ?_)
    intro n hn
    have := hl n hn
    simp at this ⊢
    omega

theorem opens_balanced {L : Option Nat} {d : Doc} (h : Opens L [] [] d []) :
    Balanced (Doc.events d) :=
  ⟨d.length, opens_nests (opens_weaken h (by simp))⟩

theorem opens_none {L : Option Nat} {a : Str} {st st' : List Opened} {d : Doc}
    (h : Opens L a st d st') : Opens none a st d st' := opens_weaken h (by simp)

theorem opens_append {L : Option Nat} {a : Str} {st st₁ st₂ : List Opened} {d d' : Doc}
    (h : Opens L a st d st₁) (h' : Opens L (a ++ Doc.text d) st₁ d' st₂) :
    Opens L a st (d ++ d') st₂ := by
  induction h with
  | nil => simpa [Doc.text] using h'
  | opening h _ ih => exact .opening h (ih (by simpa [Doc.text] using h'))
  | closing h _ ih => exact .closing h (ih (by simpa [Doc.text] using h'))
  | leaf h _ ih => exact .leaf h (ih (by simpa [Doc.text] using h'))

theorem nests_opens {n : Nat} {es : List Event} (h : Nests n es) : ∀ {L : Option Nat} {a : Str}
    {st : List Opened} {d : Doc}, Doc.events d = es → (∀ k, L = some k → st.length + n ≤ k) →
    Opens L a st d st := by
  induction h with
  | nil =>
    intro L a st d hd _
    have : d = [] := by simpa [Doc.events] using hd
    subst this
    exact .nil
  | @leaf n e es he _ ih =>
    intro L a st d hd hL
    cases d with
    | nil => simp [Doc.events] at hd
    | cons x d =>
      obtain ⟨e', p⟩ := x
      simp only [Doc.events, List.map_cons, List.cons.injEq] at hd
      obtain ⟨rfl, hd⟩ := hd
      exact .leaf he (ih hd hL)
  | @element n t as c inner es hc _ _ ih1 ih2 =>
    intro L a st d hd hL
    cases d with
    | nil => simp [Doc.events] at hd
    | cons x d =>
      obtain ⟨e', p⟩ := x
      simp only [Doc.events, List.map_cons, List.cons.injEq] at hd
      obtain ⟨rfl, hd⟩ := hd
      obtain ⟨d1, d2, rfl, h1, h2⟩ := List.map_eq_append_iff.1 hd
      cases d2 with
      | nil => simp at h2
      | cons y d2 =>
        obtain ⟨e'', q⟩ := y
        simp only [List.map_cons, List.cons.injEq] at h2
        obtain ⟨rfl, h2⟩ := h2
        refine .opening ?_ (opens_append (ih1 h1 ?_) (.closing hc (ih2 h2 hL)))
        · intro hh
          have := hL _ hh
          omega
        · intro k hk
          have := hL k hk
          simp only [List.length_cons]
          omega

theorem balanced_opens {d : Doc} (h : Balanced (Doc.events d)) : Opens none [] [] d [] := by
  obtain ⟨n, hn⟩ := h
  exact nests_opens hn rfl (by simp)

/-- Success in terms of nesting. -/
theorem opens_iff {L : Option Nat} {d : Doc} : Opens L [] [] d [] ↔
    Balanced (Doc.events d) ∧ ∀ n, L = some n → Nests n (Doc.events d) := by
  constructor
  · intro h
    exact ⟨opens_balanced h, fun n hn => opens_nests (hn ▸ h)⟩
  · rintro ⟨h1, h2⟩
    cases L with
    | none => exact balanced_opens h1
    | some n => exact nests_opens (h2 n rfl) rfl (by simp)

end Fuser
