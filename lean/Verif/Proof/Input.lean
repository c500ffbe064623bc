import Verif.Proof.Text
import Verif.Model.Input
import Mathlib.Data.List.Forall2
import Mathlib.Tactic.Common

/-!
# Pure form of the input primitives

Every primitive of `Input` is shown to be total and equal to a plain list function.
-/

namespace Fuser

/-- Moving a location over one character. -/
def stepLoc (l : Location) (c : Char) : Location :=
  if c = '\n' then ⟨l.line + 1, 1, l.offset + c.utf8Size⟩
  else ⟨l.line, l.column + 1, l.offset + c.utf8Size⟩

/-- Moving a location over a text. -/
def addLoc (l : Location) (a : Str) : Location := a.foldl stepLoc l

@[simp] theorem addLoc_nil (l : Location) : addLoc l [] = l := rfl

@[simp] theorem addLoc_append (l : Location) (a b : Str) :
    addLoc l (a ++ b) = addLoc (addLoc l a) b := by simp [addLoc]

theorem addLoc_cons (l : Location) (c : Char) (a : Str) :
    addLoc l (c :: a) = addLoc (stepLoc l c) a := rfl

theorem addLoc_offset (l : Location) (a : Str) : (addLoc l a).offset = l.offset + utf8Len a := by
  induction a generalizing l with
  | nil => simp
  | cons c a ih =>
    rw [addLoc_cons, ih, utf8Len_cons]
    unfold stepLoc
    split <;> simp only <;> omega

theorem rfindChar_none {x : Char} {s : Str} : rfindChar x s = none ↔ x ∉ s := by
  induction s with
  | nil => simp [rfindChar]
  | cons c s ih =>
    unfold rfindChar
    cases h : rfindChar x s with
    | some n =>
      have : x ∈ s := by
        by_contra h'
        rw [← ih, h] at h'
        cases h'
      simp [this]
    | none =>
      have := ih.1 h
      by_cases hc : c = x
      · simp [hc]
      · simp [hc, this, Ne.symm hc]

theorem rfindChar_some {x : Char} {s : Str} {n : Nat} (h : rfindChar x s = some n) :
    ∃ a b, s = a ++ x :: b ∧ n = utf8Len a ∧ x ∉ b := by
  induction s generalizing n with
  | nil => simp [rfindChar] at h
  | cons c s ih =>
    unfold rfindChar at h
    cases h' : rfindChar x s with
    | some m =>
      rw [h'] at h
      obtain ⟨a, b, rfl, rfl, hb⟩ := ih h'
      cases h
      exact ⟨c :: a, b, rfl, by simp; omega, hb⟩
    | none =>
      rw [h'] at h
      simp only at h
      split at h
      · next hc =>
        cases h
        exact ⟨[], s, by simp [hc], rfl, rfindChar_none.1 h'⟩
      · cases h

theorem addLoc_noNl (l : Location) (a : Str) (h : '\n' ∉ a) :
    addLoc l a = ⟨l.line, l.column + a.length, l.offset + utf8Len a⟩ := by
  induction a generalizing l with
  | nil => simp
  | cons c a ih =>
    simp only [List.mem_cons, not_or] at h
    rw [addLoc_cons, ih _ h.2]
    unfold stepLoc
    rw [if_neg (Ne.symm h.1)]
    simp only [utf8Len_cons, List.length_cons, Location.mk.injEq, true_and]
    omega

theorem addLoc_line (l : Location) (a : Str) : (addLoc l a).line = l.line + a.count '\n' := by
  induction a generalizing l with
  | nil => simp
  | cons c a ih =>
    rw [addLoc_cons, ih, List.count_cons]
    unfold stepLoc
    by_cases h : c = '\n'
    · simp [h]; omega
    · simp [h]

theorem withConsumed_eq (l : Location) (a : Str) : l.withConsumed a = .ok (addLoc l a) := by
  unfold Location.withConsumed
  have hcount : (a.filter fun c => c == '\n').length = a.count '\n' := by
    rw [List.count_eq_length_filter]
  cases h : rfindChar '\n' a with
  | none =>
    have h' := rfindChar_none.1 h
    have : a.count '\n' = 0 := List.count_eq_zero.2 h'
    simp only [hcount, this, bind, Except.bind, pure, Except.pure]
    rw [addLoc_noNl l a h']
    simp
    omega
  | some n =>
    obtain ⟨p, q, rfl, rfl, hq⟩ := rfindChar_some h
    have hs : sliceFrom (p ++ '\n' :: q) (utf8Len p + 1) = .ok q := by
      have := sliceFrom_append (p ++ ['\n']) q
      have hn : ('\n').utf8Size = 1 := rfl
      simpa [hn] using this
    have hn : ('\n').utf8Size = 1 := rfl
    simp only [hcount, hs, bind, Except.bind, pure, Except.pure]
    congr 1
    have h1 := addLoc_line l (p ++ '\n' :: q)
    have h2 := addLoc_offset l (p ++ '\n' :: q)
    have h3 : (addLoc l (p ++ '\n' :: q)).column = q.length + 1 := by
      rw [addLoc_append, addLoc_cons, addLoc_noNl _ q hq]
      simp [stepLoc]
      omega
    have h4 : 0 < (p ++ '\n' :: q).count '\n' := List.count_pos_iff.2 (by simp)
    cases hl : addLoc l (p ++ '\n' :: q) with
    | mk x y z =>
      rw [hl] at h1 h2 h3
      simp only at h1 h2 h3
      simp only [Location.mk.injEq]
      refine ⟨by omega, ?_, by omega⟩
      rw [if_pos h4]
      omega

/-- The input after a consumed piece. -/
def Input.after (i : Input) (a b : Str) : Input := ⟨b, addLoc i.location a⟩

theorem advanced_eq {i : Input} {a b : Str} (h : i.content = a ++ b) :
    i.advanced (utf8Len a) = .ok (i.after a b) := by
  unfold Input.advanced
  rw [h, sliceFrom_append, sliceTo_append]
  simp [bind, Except.bind, pure, Except.pure, withConsumed_eq, Input.after]

theorem consumed_eq {i : Input} {a b : Str} (h : i.content = a ++ b) :
    i.consumed (utf8Len a) = .ok (a, i.after a b) := by
  unfold Input.consumed
  rw [advanced_eq h, h, sliceTo_append]
  rfl

/-! ## The primitives -/

namespace P

/-- One given character. -/
def char (c : Char) (i : Input) : Option Input :=
  match i.content with
  | d :: r => if d = c then some (i.after [c] r) else none
  | [] => none

/-- White space. -/
def ws (i : Input) : Input :=
  i.after (i.content.takeWhile isWhitespace) (i.content.dropWhile isWhitespace)

/-- Everything before a character. -/
def untilChar (c : Char) (i : Input) : Option (Str × Input) :=
  if c ∈ i.content then
    some (i.content.takeWhile (fun d => !(d == c)),
      i.after (i.content.takeWhile (fun d => !(d == c))) (i.content.dropWhile (fun d => !(d == c))))
  else none

/-- Cut before the first occurrence of a text. -/
def cutStr (pat : Str) : Str → Option (Str × Str)
  | [] => if pat.isEmpty then some ([], []) else none
  | c :: s =>
    if pat.isPrefixOf (c :: s) then some ([], c :: s)
    else (cutStr pat s).map fun (a, b) => (c :: a, b)

/-- Everything before a text. -/
def untilStr (pat : Str) (i : Input) : Option (Str × Input) :=
  (cutStr pat i.content).map fun (a, b) => (a, i.after a b)

/-- A given text. -/
def str (pat : Str) (i : Input) : Option Input :=
  if pat.isPrefixOf i.content then some (i.after pat (i.content.drop pat.length)) else none

/-- Everything. -/
def all (i : Input) : Str × Input := (i.content, i.after i.content [])

/-- A word. -/
def word (i : Input) : Option (Str × Input) :=
  let w := i.content.takeWhile fun c => !terminator c
  if w = [] then none else some (w, i.after w (i.content.dropWhile fun c => !terminator c))

/-- An identifier. -/
def ident (i : Input) : Except IdentifierError (Option (Identifier × Input)) :=
  match word i with
  | none => .ok none
  | some (w, r) =>
    match validate w with
    | .ok _ => .ok (some (⟨.actual w⟩, r))
    | .error e => .error e

/-- A given identifier. -/
def exact (name : Str) (i : Input) : Option (Identifier × Input) :=
  match word i with
  | none => none
  | some (w, r) =>
    match validate w with
    | .ok _ => if identifierEq w name then some (⟨.actual w⟩, r) else none
    | .error _ => none

/-- Search for a position at a given character where a check succeeds. -/
def search (c : Char) (check : Input → Bool) (i : Input) (a : Str) : Str → Option (Str × Input)
  | [] => none
  | d :: r =>
    if d = c ∧ check (i.after a (d :: r)) = true then some (a, i.after a (d :: r))
    else search c check i (a ++ [d]) r

end P

theorem takeChar_eq (i : Input) (c : Char) : i.takeChar c = .ok (P.char c i) := by
  unfold Input.takeChar P.char
  cases h : i.content with
  | nil => simp [List.isPrefixOf]
  | cons d r =>
    by_cases hd : d = c
    · subst hd
      have := advanced_eq (i := i) (a := [d]) (b := r) (by simp [h])
      simp [List.isPrefixOf, bind, Except.bind, pure, Except.pure] at this ⊢
      rw [this]
    · have : (c == d) = false := by simp [Ne.symm hd]
      simp [List.isPrefixOf, this, hd]

theorem skipWhitespace_eq (i : Input) : i.skipWhitespace = .ok (P.ws i) := by
  unfold Input.skipWhitespace P.ws trimLeft
  have h : i.content = i.content.takeWhile isWhitespace ++ i.content.dropWhile isWhitespace :=
    List.takeWhile_append_dropWhile.symm
  have : utf8Len i.content - utf8Len (i.content.dropWhile isWhitespace) =
      utf8Len (i.content.takeWhile isWhitespace) := by
    conv_lhs => rw [h]
    rw [utf8Len_append, ← h]
    omega
  simp only [this]
  exact advanced_eq h

theorem takeUntilChar_eq (i : Input) (c : Char) : i.takeUntilChar c = .ok (P.untilChar c i) := by
  unfold Input.takeUntilChar P.untilChar
  have h : i.content = i.content.takeWhile (fun d => !(d == c)) ++
      i.content.dropWhile (fun d => !(d == c)) := List.takeWhile_append_dropWhile.symm
  have hm : c ∈ i.content ↔ i.content.dropWhile (fun d => !(d == c)) ≠ [] := by
    constructor
    · intro hc hd
      rw [hd, List.append_nil] at h
      rw [h] at hc
      have := takeWhile_forall _ hc
      simp at this
    · intro hd
      obtain ⟨d, r, hr⟩ := List.exists_cons_of_ne_nil hd
      have := dropWhile_cons hr
      simp at this
      rw [h, hr, this]
      simp
  rw [findChar_eq]
  by_cases hc : c ∈ i.content
  · rw [if_pos hc, if_neg (hm.1 hc)]
    simp only [consumed_eq h, bind, Except.bind, pure, Except.pure]
  · rw [if_neg hc, if_pos (by_contra fun h' => hc (hm.2 h'))]

theorem cutStr_eq (pat s : Str) : (P.cutStr pat s).map (fun p => utf8Len p.1) = findStr pat s ∧
    ∀ a b, P.cutStr pat s = some (a, b) → s = a ++ b := by
  induction s with
  | nil =>
    unfold P.cutStr findStr
    by_cases h : pat.isEmpty = true
    · simp [h]
    · simp [h]
  | cons c s ih =>
    unfold P.cutStr findStr
    by_cases h : pat.isPrefixOf (c :: s) = true
    · simp [h]
    · rw [if_neg h, if_neg h, ← ih.1]
      constructor
      · cases P.cutStr pat s <;> simp; omega
      · intro a b hab
        cases hc : P.cutStr pat s with
        | none => simp [hc] at hab
        | some p =>
          rw [hc] at hab
          simp only [Option.map_some, Option.some.injEq, Prod.mk.injEq] at hab
          rw [ih.2 p.1 p.2 hc, ← hab.1, ← hab.2]
          rfl

theorem takeUntilStr_eq (i : Input) (pat : Str) : i.takeUntilStr pat = .ok (P.untilStr pat i) := by
  unfold Input.takeUntilStr P.untilStr
  obtain ⟨h1, h2⟩ := cutStr_eq pat i.content
  rw [← h1]
  cases hc : P.cutStr pat i.content with
  | none => rfl
  | some p =>
    simp only [Option.map_some]
    simp [consumed_eq (h2 p.1 p.2 hc), bind, Except.bind, pure, Except.pure]

theorem takeStr_eq (i : Input) (pat : Str) : i.takeStr pat = .ok (P.str pat i) := by
  unfold Input.takeStr P.str
  split
  · next h =>
    have h' : i.content = pat ++ i.content.drop pat.length := by
      obtain ⟨t, ht⟩ := List.isPrefixOf_iff_prefix.1 h
      rw [← ht]; simp
    simp [advanced_eq h', bind, Except.bind, pure, Except.pure]
  · rfl

theorem takeAll_eq (i : Input) : i.takeAll = .ok (P.all i) := consumed_eq (by simp)

theorem takeWord_eq (i : Input) : i.takeWord = .ok (P.word i) := by
  unfold Input.takeWord P.word
  rw [findChar_getD]
  simp only [utf8Len_eq_zero]
  split
  · rfl
  · have h : i.content = i.content.takeWhile (fun c => !terminator c) ++
        i.content.dropWhile (fun c => !terminator c) := List.takeWhile_append_dropWhile.symm
    simp [consumed_eq h, bind, Except.bind, pure, Except.pure]

theorem fromStr_eq (w : Str) : Identifier.fromStr w = match validate w with
    | .ok _ => .ok ⟨.actual w⟩
    | .error e => .error e := by
  unfold Identifier.fromStr
  cases h : validate w with
  | ok v => simp [bind, Except.bind, pure, Except.pure, (validate_ok h).1]
  | error e => simp [bind, Except.bind]

theorem takeIdentifier_eq (i : Input) : i.takeIdentifier = .ok (P.ident i) := by
  unfold Input.takeIdentifier P.ident
  rw [takeWord_eq]
  cases hw : P.word i with
  | none => rfl
  | some p =>
    simp only [bind, Except.bind, fromStr_eq]
    cases validate p.1 <;> simp [pure, Except.pure]

theorem tryTakeExactIdentifier_eq (i : Input) (name : Str) :
    i.tryTakeExactIdentifier name = .ok (P.exact name i) := by
  unfold Input.tryTakeExactIdentifier P.exact
  rw [takeWord_eq]
  cases hw : P.word i with
  | none => rfl
  | some p =>
    simp only [bind, Except.bind, fromStr_eq]
    cases validate p.1 with
    | error e => simp [pure, Except.pure]
    | ok v =>
      simp only [pure, Except.pure, Identifier.str, Deferred.str]
      by_cases hi : identifierEq p.1 name = true
      · simp [hi]
      · simp [hi]

theorem takeUntilEndChar_eq (i : Input) (c : Char) (check : Input → M Bool) (pc : Input → Bool)
    (hc : ∀ i, check i = .ok (pc i)) :
    i.takeUntilEndChar c check = .ok (P.search c pc i [] i.content) := by
  unfold Input.takeUntilEndChar
  have gen : ∀ s a, i.content = a ++ s →
      i.takeUntilEndCharLoop check ((matchIndices c s).map (utf8Len a + ·)) =
        .ok (P.search c pc i a s) := by
    intro s
    induction s with
    | nil => intro a _; rfl
    | cons d r ih =>
      intro a h
      have h' : i.content = (a ++ [d]) ++ r := by simp [h]
      have hmap : ((matchIndices c r).map (· + d.utf8Size)).map (utf8Len a + ·) =
          (matchIndices c r).map (utf8Len (a ++ [d]) + ·) := by
        rw [List.map_map]
        apply List.map_congr_left
        intro n _
        simp
        omega
      unfold matchIndices P.search
      by_cases hd : d = c
      · simp only [hd, if_true, true_and, List.map_cons, Nat.add_zero]
        rw [Input.takeUntilEndCharLoop, ← hd, advanced_eq h]
        simp only [bind, Except.bind, hc]
        cases hp : pc (i.after a (d :: r)) with
        | true => simp [consumed_eq h, pure, Except.pure]
        | false =>
          simp only [Bool.false_eq_true, if_false]
          rw [← hd] at hmap ih
          rw [hmap]
          exact ih _ h'
      · simp only [hd, if_false, false_and]
        rw [hmap]
        exact ih _ h'
  have := gen i.content [] rfl
  simpa using this

end Fuser
