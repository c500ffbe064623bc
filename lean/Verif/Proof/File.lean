import Verif.Proof.Utf8

/-!
# The loop of `from_file`
-/

namespace Fuser
open Spec

/-- What the loop does with the data of one round. -/
def fileStep (limit : Option Nat) (fuel : Nat) (data : List UInt8) (reads : ReadCalls) (input : Str) :
    M (Except FileError Str) :=
  match fromUtf8 data with
  | .ok s => go s []
  | .error (s, rest) => if s = [] then .ok (.error .decode) else go s rest
where
  go (s : Str) (rest : List UInt8) : M (Except FileError Str) :=
    match limit with
    | some l =>
      if l < utf8Len (input ++ s) then .ok (.error (.input (.lengthLimitExceeded l)))
      else fromFileLoop limit fuel rest reads (input ++ s)
    | none => fromFileLoop limit fuel rest reads (input ++ s)

theorem loop_eq (limit : Option Nat) (fuel : Nat) (buffer : List UInt8) (reads : ReadCalls)
    (input : Str) : fromFileLoop limit (fuel + 1) buffer reads input =
      match fillBuf buffer reads with
      | .error () => .ok (.error .read)
      | .ok (data, reads) =>
        if data = [] then .ok (.ok input) else fileStep limit fuel data reads input := by
  rw [fromFileLoop]
  cases fillBuf buffer reads with
  | error u => rfl
  | ok q =>
    obtain ⟨data, reads⟩ := q
    simp only
    split
    · rfl
    · unfold fileStep fileStep.go
      cases fromUtf8 data with
      | ok s => cases limit <;> rfl
      | error q =>
        obtain ⟨s, rest⟩ := q
        by_cases hs : s = []
        · simp only [hs, if_true]
          rfl
        · simp only [hs, if_false]
          cases limit <;> rfl

theorem encode_nil_iff {s : Str} : encodeUtf8 s = [] ↔ s = [] := by
  cases s with
  | nil => simp [encodeUtf8]
  | cons c s => simp [encodeUtf8, encode_ne_nil]

/-- Reading pieces that are valid texts. -/
theorem loop_valid (limit : Option Nat) : ∀ (ts : List Str) (fuel : Nat) (input : Str),
    (∀ t ∈ ts, t ≠ []) → (encodeUtf8 ts.flatten).length < fuel →
    Fits limit input →
    ∃ r, fromFileLoop limit fuel [] (ts.map fun t => .ok (encodeUtf8 t)) input = .ok r ∧
      (Fits limit (input ++ ts.flatten) → r = .ok (input ++ ts.flatten)) ∧
      ∀ l, limit = some l → ¬ Fits limit (input ++ ts.flatten) →
        r = .error (.input (.lengthLimitExceeded l)) := by
  intro ts
  induction ts with
  | nil =>
    intro fuel input _ hf hfit
    cases fuel with
    | zero => simp at hf
    | succ fuel =>
      rw [loop_eq]
      refine ⟨_, rfl, by simp, ?_⟩
      intro l _ hn
      rw [List.flatten_nil, List.append_nil] at hn
      exact absurd hfit hn
  | cons t ts ih =>
    intro fuel input hne hf hfit
    cases fuel with
    | zero => simp at hf
    | succ fuel =>
      have ht : t ≠ [] := hne t (by simp)
      have hlen : 0 < (encodeUtf8 t).length :=
        List.length_pos_of_ne_nil (by rwa [Ne, encode_nil_iff])
      rw [loop_eq]
      simp only [List.map_cons, fillBuf, ne_eq, not_true_eq_false, if_false, encode_nil_iff, ht]
      have hlen' : (encodeUtf8 ts.flatten).length < fuel := by
        rw [List.flatten_cons, encode_append, List.length_append] at hf
        omega
      have happ : input ++ (t :: ts).flatten = input ++ t ++ ts.flatten := by simp
      unfold fileStep
      rw [fromUtf8_encode]
      simp only [fileStep.go]
      cases limit with
      | none =>
        obtain ⟨r, h1, h2, h3⟩ := ih fuel (input ++ t) (fun x hx => hne x (by simp [hx])) hlen'
          (by simp [Fits])
        rw [happ]
        exact ⟨r, h1, h2, h3⟩
      | some l =>
        simp only
        split
        · next hl =>
          have hnf : ¬ Fits (some l) (input ++ (t :: ts).flatten) := by
            rw [happ]
            intro h
            have := h l rfl
            have hh : utf8Len (input ++ t) = ((input ++ t).map Char.utf8Size).sum := rfl
            rw [List.map_append, List.sum_append] at this
            omega
          refine ⟨_, rfl, fun h => absurd h hnf, ?_⟩
          rintro l' ⟨⟩ _
          rfl
        · next hl =>
          obtain ⟨r, h1, h2, h3⟩ := ih fuel (input ++ t) (fun x hx => hne x (by simp [hx])) hlen'
            (by
              rintro l' ⟨⟩
              have hh : utf8Len (input ++ t) = ((input ++ t).map Char.utf8Size).sum := rfl
              omega)
          rw [happ]
          exact ⟨r, h1, h2, h3⟩

/-- The loop always ends. -/
theorem loop_total (limit : Option Nat) : ∀ (fuel : Nat) (buffer : List UInt8) (reads : ReadCalls)
    (input : Str), buffer.length + reads.size < fuel →
    ∃ r, fromFileLoop limit fuel buffer reads input = .ok r := by
  intro fuel
  induction fuel with
  | zero => intro buffer reads input h; omega
  | succ fuel ih =>
    intro buffer reads input h
    rw [loop_eq]
    have hgo : ∀ (s : Str) (rest : List UInt8) (reads' : ReadCalls),
        rest.length + reads'.size < fuel →
        ∃ r, fileStep.go limit fuel reads' input s rest = .ok r := by
      intro s rest reads' hl
      unfold fileStep.go
      cases limit with
      | none => exact ih _ _ _ hl
      | some l =>
        simp only
        split
        · exact ⟨_, rfl⟩
        · exact ih _ _ _ hl
    have hstep : ∀ (data : List UInt8) (reads' : ReadCalls), data ≠ [] →
        data.length + reads'.size < fuel + 1 → ∃ r, fileStep limit fuel data reads' input = .ok r := by
      intro data reads' hd hl
      have hpos := List.length_pos_of_ne_nil hd
      unfold fileStep
      rcases fromUtf8_cases data with ⟨s, -, h2⟩ | ⟨s, r, h1, -, -, h2⟩
      · rw [h2]
        exact hgo s [] reads' (by simp; omega)
      · rw [h2]
        simp only
        split
        · exact ⟨_, rfl⟩
        · next hs =>
          refine hgo s r reads' ?_
          have : 0 < (encodeUtf8 s).length :=
            List.length_pos_of_ne_nil (by rwa [Ne, encode_nil_iff])
          rw [h1, List.length_append] at hl
          omega
    unfold fillBuf
    by_cases hb : buffer = []
    · subst hb
      simp only [ne_eq, not_true_eq_false, if_false]
      cases reads with
      | nil => exact ⟨_, rfl⟩
      | cons x rest =>
        cases x with
        | error u => exact ⟨_, rfl⟩
        | ok piece =>
          simp only
          split
          · exact ⟨_, rfl⟩
          · next hp => exact hstep piece rest hp (by simpa [ReadCalls.size] using h)
    · simp only [ne_eq, hb, not_false_eq_true, if_true, if_false]
      exact hstep buffer reads hb h

/-- If the loop succeeds, everything read was a valid text. -/
theorem loop_sound (limit : Option Nat) : ∀ (fuel : Nat) (buffer : List UInt8) (reads : ReadCalls)
    (input out : Str), (∀ p, .ok p ∈ reads → p ≠ []) →
    fromFileLoop limit fuel buffer reads input = .ok (.ok out) → Fits limit input →
    ∃ (pieces : List (List UInt8)) (s : Str), reads = pieces.map .ok ∧
      buffer ++ pieces.flatten = encodeUtf8 s ∧ out = input ++ s ∧ Fits limit out := by
  intro fuel
  induction fuel with
  | zero => intro buffer reads input out _ h; cases h
  | succ fuel ih =>
    intro buffer reads input out hne h hfit
    rw [loop_eq] at h
    have hgo : ∀ (s : Str) (rest : List UInt8) (reads' : ReadCalls), (∀ p, .ok p ∈ reads' → p ≠ []) →
        fileStep.go limit fuel reads' input s rest = .ok (.ok out) →
        ∃ (pieces : List (List UInt8)) (s' : Str), reads' = pieces.map .ok ∧
          rest ++ pieces.flatten = encodeUtf8 s' ∧ out = input ++ s ++ s' ∧ Fits limit out := by
      intro s rest reads' hne' h
      unfold fileStep.go at h
      cases limit with
      | none => exact ih _ _ _ _ hne' h (by simp [Fits])
      | some l =>
        simp only at h
        split at h
        · cases h
        · next hl =>
          refine ih _ _ _ _ hne' h ?_
          rintro l' ⟨⟩
          have hh : utf8Len (input ++ s) = ((input ++ s).map Char.utf8Size).sum := rfl
          omega
    have hstep : ∀ (data : List UInt8) (reads' : ReadCalls), (∀ p, .ok p ∈ reads' → p ≠ []) →
        fileStep limit fuel data reads' input = .ok (.ok out) →
        ∃ (pieces : List (List UInt8)) (s' : Str), reads' = pieces.map .ok ∧
          data ++ pieces.flatten = encodeUtf8 s' ∧ out = input ++ s' ∧ Fits limit out := by
      intro data reads' hne' h
      unfold fileStep at h
      rcases fromUtf8_cases data with ⟨s, h1, h2⟩ | ⟨s, r, h1, -, -, h2⟩
      · rw [h2] at h
        obtain ⟨ps, s', h3, h4, h5, h6⟩ := hgo s [] reads' hne' h
        refine ⟨ps, s ++ s', h3, ?_, by rw [h5, List.append_assoc], h6⟩
        rw [encode_append, ← h4, h1]
        rfl
      · rw [h2] at h
        simp only at h
        split at h
        · cases h
        · obtain ⟨ps, s', h3, h4, h5, h6⟩ := hgo s r reads' hne' h
          refine ⟨ps, s ++ s', h3, ?_, by rw [h5, List.append_assoc], h6⟩
          rw [encode_append, ← h4, h1, List.append_assoc]
    unfold fillBuf at h
    by_cases hb : buffer = []
    · subst hb
      simp only [ne_eq, not_true_eq_false, if_false] at h
      cases reads with
      | nil =>
        simp only [if_true, Except.ok.injEq] at h
        subst h
        exact ⟨[], [], rfl, rfl, by simp, hfit⟩
      | cons x rest =>
        cases x with
        | error u => cases h
        | ok piece =>
          have hp : piece ≠ [] := hne piece (by simp)
          simp only [hp, if_false] at h
          obtain ⟨ps, s', h3, h4, h5, h6⟩ := hstep piece rest (fun p hp => hne p (by simp [hp])) h
          exact ⟨piece :: ps, s', by simp [h3], by simpa using h4, h5, h6⟩
    · simp only [ne_eq, hb, not_false_eq_true, if_true, if_false] at h
      exact hstep buffer reads hne h

/-- Without a limit, a piece that is no valid text by itself makes the loop fail. -/
theorem loop_split : ∀ (pieces : List (List UInt8)) (fuel : Nat) (input : Str),
    (∀ p ∈ pieces, p ≠ []) → pieces.flatten.length < fuel →
    (∃ p ∈ pieces, ∀ t, p ≠ encodeUtf8 t) →
    fromFileLoop none fuel [] (pieces.map .ok) input = .ok (.error .decode) := by
  intro pieces
  induction pieces with
  | nil => intro fuel input _ _ h; obtain ⟨p, hp, -⟩ := h; cases hp
  | cons p ps ih =>
    intro fuel input hne hl hbad
    cases fuel with
    | zero => simp at hl
    | succ fuel =>
      have hp : p ≠ [] := hne p (by simp)
      have hpos := List.length_pos_of_ne_nil hp
      rw [List.flatten_cons, List.length_append] at hl
      rw [loop_eq]
      simp only [List.map_cons, fillBuf, ne_eq, not_true_eq_false, if_false, hp]
      unfold fileStep
      rcases fromUtf8_cases p with ⟨s, h1, h2⟩ | ⟨s, r, h1, h4, h3, h2⟩
      · rw [h2]
        simp only [fileStep.go]
        refine ih fuel _ (fun x hx => hne x (by simp [hx])) (by omega) ?_
        obtain ⟨x, hx, hx'⟩ := hbad
        rcases List.mem_cons.1 hx with rfl | hx
        · exact absurd h1 (hx' s)
        · exact ⟨x, hx, hx'⟩
      · rw [h2]
        simp only
        split
        · rfl
        · next hs =>
          simp only [fileStep.go]
          have hspos : 0 < (encodeUtf8 s).length :=
            List.length_pos_of_ne_nil (by rwa [Ne, encode_nil_iff])
          have hrl := List.length_pos_of_ne_nil h4
          cases fuel with
          | zero =>
            rw [h1, List.length_append] at hl
            omega
          | succ fuel =>
            rw [loop_eq]
            simp only [fillBuf, ne_eq, h4, not_false_eq_true, if_true, if_false]
            unfold fileStep
            have : fromUtf8 r = .error ([], r) := by
              unfold fromUtf8
              have hv := validPrefix_eq (s := []) h3
              simp only [encodeUtf8, List.flatMap_nil, List.nil_append] at hv
              rw [hv]
              cases r with
              | nil => exact absurd rfl h4
              | cons b r => rfl
            rw [this]
            rfl

theorem size_map (pieces : List (List UInt8)) :
    ReadCalls.size (pieces.map .ok) = pieces.flatten.length := by
  induction pieces with
  | nil => rfl
  | cons p ps ih => simp [ReadCalls.size, ih]

theorem noChar_iff {bs : List UInt8} : NoChar bs ↔ decodeChar bs = none := by
  constructor
  · intro h
    cases hd : decodeChar bs with
    | none => rfl
    | some q => exact absurd (decodeChar_sound hd) (h q.1 q.2)
  · intro h c rest he
    rw [he, decodeChar_encode] at h
    cases h

theorem fits_iff {limit : Option Nat} {s : Str} :
    Fits limit s ↔ ∀ l, limit = some l → ¬ l < utf8Len s := by
  unfold Fits
  exact forall_congr' fun n => imp_congr_right fun _ => Nat.not_lt.symm

theorem go_fits {limit : Option Nat} {fuel : Nat} {reads : ReadCalls} {input s : Str}
    {rest : List UInt8} (h : Fits limit (input ++ s)) :
    fileStep.go limit fuel reads input s rest = fromFileLoop limit fuel rest reads (input ++ s) := by
  unfold fileStep.go
  cases limit with
  | none => rfl
  | some l => simp only [if_neg (fits_iff.1 h l rfl)]

theorem fromUtf8_bad {r : List UInt8} (h : r ≠ []) (h3 : decodeChar r = none) :
    fromUtf8 r = .error ([], r) := by
  unfold fromUtf8
  have hv := validPrefix_eq (s := []) h3
  simp only [encodeUtf8, List.flatMap_nil, List.nil_append] at hv
  rw [hv]
  cases r with
  | nil => exact absurd rfl h
  | cons b r => rfl

theorem fileStep_fails {limit : Option Nat} {fuel : Nat} {reads : ReadCalls} {input : Str}
    {r : List UInt8} (h : r ≠ []) (h3 : decodeChar r = none) :
    fileStep limit fuel r reads input = .ok (.error .decode) := by
  unfold fileStep
  rw [fromUtf8_bad h h3]
  rfl

/-- The loop in terms of the specification. -/
theorem loop_loads (limit : Option Nat) : ∀ (reads : ReadCalls) (fuel : Nat) (input : Str),
    reads.size < fuel →
    ∃ r, fromFileLoop limit fuel [] reads input = .ok r ∧ Loads limit input reads r := by
  intro reads
  induction reads with
  | nil =>
    intro fuel input hf
    cases fuel with
    | zero => omega
    | succ fuel => exact ⟨_, by rw [loop_eq]; rfl, .none⟩
  | cons x reads ih =>
    intro fuel input hf
    cases fuel with
    | zero => omega
    | succ fuel =>
      rw [loop_eq]
      cases x with
      | error u => exact ⟨_, rfl, .failed⟩
      | ok piece =>
        simp only [fillBuf, ne_eq, not_true_eq_false, if_false]
        by_cases hp : piece = []
        · subst hp
          exact ⟨_, rfl, .empty⟩
        rw [if_neg hp]
        have hpos := List.length_pos_of_ne_nil hp
        simp only [ReadCalls.size] at hf
        have hlim : ∀ {s rest}, s ≠ [] → ¬ Fits limit (input ++ s) → NoChar rest →
            ∃ r, fileStep.go limit fuel reads input s [] = .ok r ∧
              fileStep.go limit fuel reads input s rest = .ok r ∧
              Loads limit input (.ok (encodeUtf8 s ++ rest) :: reads) r := by
          intro s rest hs hn hc
          rw [fits_iff] at hn
          cases limit with
          | none => exact absurd (fun l h => by cases h) hn
          | some l =>
            have hl : l < utf8Len (input ++ s) := by
              by_contra h
              exact hn fun l' h' => by cases h'; exact h
            exact ⟨_, by simp only [fileStep.go, if_pos hl], by simp only [fileStep.go, if_pos hl],
              .tooLong hs hc rfl hl⟩
        unfold fileStep
        rcases fromUtf8_cases piece with ⟨s, h1, h2⟩ | ⟨s, q, h1, h4, h3, h2⟩
        · rw [h2]
          have hs : s ≠ [] := by rintro rfl; exact hp h1
          by_cases hfit : Fits limit (input ++ s)
          · simp only [go_fits hfit]
            obtain ⟨r, h5, h6⟩ := ih fuel (input ++ s) (by omega)
            exact ⟨r, h5, h1 ▸ .text hs hfit h6⟩
          · obtain ⟨r, h5, -, h6⟩ := hlim hs hfit (rest := []) (noChar_iff.2 rfl)
            rw [List.append_nil, ← h1] at h6
            exact ⟨r, h5, h6⟩
        · rw [h2]
          simp only
          by_cases hs : s = []
          · subst hs
            rw [if_pos rfl]
            exact ⟨_, rfl, h1 ▸ .undecodable h4 (noChar_iff.2 h3) fun h => absurd rfl h⟩
          · rw [if_neg hs]
            by_cases hfit : Fits limit (input ++ s)
            · rw [go_fits hfit]
              have hspos : 0 < (encodeUtf8 s).length :=
                List.length_pos_of_ne_nil (by rwa [Ne, encode_nil_iff])
              cases fuel with
              | zero => rw [h1, List.length_append] at hf; omega
              | succ fuel =>
                rw [loop_eq]
                simp only [fillBuf, ne_eq, h4, not_false_eq_true, if_true, if_false]
                exact ⟨_, fileStep_fails h4 h3,
                  h1 ▸ .undecodable h4 (noChar_iff.2 h3) fun _ => hfit⟩
            · obtain ⟨r, -, h5, h6⟩ := hlim hs hfit (rest := q) (noChar_iff.2 h3)
              exact ⟨r, h5, h1 ▸ h6⟩

theorem noChar_nil : NoChar [] := noChar_iff.2 rfl

/-- The specification determines the outcome. -/
theorem loads_unique {limit : Option Nat} {input : Str} {reads : ReadCalls}
    {r r' : Except FileError Str} (h : Loads limit input reads r) :
    Loads limit input reads r' → r = r' := by
  intro h'
  have key : ∀ {s t : Str} {a b : List UInt8}, encodeUtf8 s ++ a = encodeUtf8 t ++ b → NoChar a →
      NoChar b → s = t ∧ a = b := fun h1 h2 h3 =>
    encode_unique h1 (noChar_iff.1 h2) (noChar_iff.1 h3)
  induction h generalizing r' with
  | none => cases h'; rfl
  | @empty input reads =>
    generalize hx : (Except.ok [] :: reads : ReadCalls) = xs at h'
    cases h' with
    | none => rfl
    | empty => rfl
    | failed => cases hx
    | text hs =>
      simp only [List.cons.injEq, Except.ok.injEq] at hx
      exact absurd (encode_nil_iff.1 hx.1.symm) hs
    | tooLong hs =>
      simp only [List.cons.injEq, Except.ok.injEq] at hx
      exact absurd (encode_nil_iff.1 (List.append_eq_nil_iff.1 hx.1.symm).1) hs
    | undecodable hr =>
      simp only [List.cons.injEq, Except.ok.injEq] at hx
      exact absurd (List.append_eq_nil_iff.1 hx.1.symm).2 hr
  | failed => cases h'; rfl
  | @text input s reads r hs hf _ ih =>
    generalize hx : (Except.ok (encodeUtf8 s) :: reads : ReadCalls) = xs at h'
    cases h' with
    | none => cases hx
    | empty =>
      simp only [List.cons.injEq, Except.ok.injEq] at hx
      exact absurd (encode_nil_iff.1 hx.1) hs
    | failed => cases hx
    | text hs' hf' h' =>
      simp only [List.cons.injEq, Except.ok.injEq] at hx
      obtain ⟨h1, rfl⟩ := hx
      cases encode_injective h1
      exact ih h'
    | @tooLong _ t rest _ l hs' hc hl hlt =>
      simp only [List.cons.injEq, Except.ok.injEq] at hx
      obtain ⟨rfl, rfl⟩ := key ((List.append_nil _).trans hx.1) noChar_nil hc
      exact absurd (hf l hl) (Nat.not_le.2 hlt)
    | @undecodable _ t rest _ hr hc _ =>
      simp only [List.cons.injEq, Except.ok.injEq] at hx
      exact absurd (key ((List.append_nil _).trans hx.1) noChar_nil hc).2.symm hr
  | @tooLong input s rest reads l hs hc hl hlt =>
    generalize hx : (Except.ok (encodeUtf8 s ++ rest) :: reads : ReadCalls) = xs at h'
    cases h' with
    | none => cases hx
    | empty =>
      simp only [List.cons.injEq, Except.ok.injEq] at hx
      exact absurd (encode_nil_iff.1 (List.append_eq_nil_iff.1 hx.1).1) hs
    | failed => cases hx
    | @text _ t _ _ hs' hf' h' =>
      simp only [List.cons.injEq, Except.ok.injEq] at hx
      obtain ⟨rfl, rfl⟩ := key (hx.1.trans (List.append_nil _).symm) hc noChar_nil
      exact absurd (hf' l hl) (Nat.not_le.2 hlt)
    | @tooLong _ t rest' _ l' hs' hc' hl' hlt' =>
      rw [hl] at hl'
      cases hl'
      rfl
    | @undecodable _ t rest' _ hr hc' hf' =>
      simp only [List.cons.injEq, Except.ok.injEq] at hx
      obtain ⟨rfl, rfl⟩ := key hx.1 hc hc'
      exact absurd (hf' hs l hl) (Nat.not_le.2 hlt)
  | @undecodable input s rest reads hr hc hf =>
    generalize hx : (Except.ok (encodeUtf8 s ++ rest) :: reads : ReadCalls) = xs at h'
    cases h' with
    | none => cases hx
    | empty =>
      simp only [List.cons.injEq, Except.ok.injEq] at hx
      exact absurd (List.append_eq_nil_iff.1 hx.1).2 hr
    | failed => cases hx
    | @text _ t _ _ hs' hf' h' =>
      simp only [List.cons.injEq, Except.ok.injEq] at hx
      exact absurd (key (hx.1.trans (List.append_nil _).symm) hc noChar_nil).2 hr
    | @tooLong _ t rest' _ l' hs' hc' hl' hlt' =>
      simp only [List.cons.injEq, Except.ok.injEq] at hx
      obtain ⟨rfl, rfl⟩ := key hx.1 hc hc'
      exact absurd (hf hs' l' hl') (Nat.not_le.2 hlt')
    | undecodable => rfl

end Fuser
