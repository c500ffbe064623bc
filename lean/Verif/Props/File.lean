import Verif.Proof.File

/-!
# Properties C31, C32, C60, C88: loading from files
-/

namespace Fuser

open Spec

/-- C31, the full claim: loading from a file is loading from its text, however the reads are split. -/
def FileLikeText : Prop :=
  ∀ (s : Str) (o : Options) (pieces : List (List UInt8)), (∀ p ∈ pieces, p ≠ []) →
    pieces.flatten = encodeUtf8 s →
    Template.fromFile (some (pieces.map .ok)) o = (Template.fromStr s o).map asFile

/-- C31 is false: when a character is split between two reads, the first of which holds further
text or not, loading fails with a decoding error. The file holds the text `x€y`. -/
theorem C31_file_like_text_false :
    ¬ FileLikeText ∧
    Template.fromFile (some [.ok [0x78, 0xE2], .ok [0x82, 0xAC, 0x79]]) {} =
      .ok (.error .decode) ∧
    Template.fromStr "x€y".toList {} = .ok (.ok ⟨[.data (.actual "x€y".toList)]⟩) := by
  have h1 : Template.fromFile (some [.ok [0x78, 0xE2], .ok [0x82, 0xAC, 0x79]]) {} =
      .ok (.error .decode) := rfl
  refine ⟨?_, h1, rfl⟩
  intro h
  have := h "x€y".toList {} [[0x78, 0xE2], [0x82, 0xAC, 0x79]] (by decide) (by decide)
  have h2 : (Template.fromStr "x€y".toList {}).map asFile =
    .ok (.ok ⟨[.data (.actual "x€y".toList)]⟩) := rfl
  rw [h2] at this
  rw [List.map_cons, List.map_cons, List.map_nil, h1] at this
  cases this

/-- A file read in pieces that are valid texts. -/
theorem fromFile_valid (ts : List Str) (o : Options) (hne : ∀ t ∈ ts, t ≠ []) :
    Template.fromFile (some (ts.map fun t => .ok (encodeUtf8 t))) o =
      (Template.fromStr ts.flatten o).map asFile := by
  have hsize : ReadCalls.size (ts.map fun t => .ok (encodeUtf8 t)) =
      (encodeUtf8 ts.flatten).length := by
    have := size_map (ts.map encodeUtf8)
    rw [List.map_map] at this
    have h2 : (ts.map encodeUtf8).flatten = encodeUtf8 ts.flatten := by
      induction ts with
      | nil => rfl
      | cons t ts ih =>
        have h := ih (fun x hx => hne x (by simp [hx])) (by
          have := size_map (ts.map encodeUtf8)
          rwa [List.map_map] at this)
        simp only [List.map_cons, List.flatten_cons, encode_append, h]
    rw [h2] at this
    exact this
  obtain ⟨r, h1, h2, h3⟩ := loop_valid o.maxInputLen ts (ReadCalls.size (ts.map fun t => .ok (encodeUtf8 t)) + 1)
    [] hne (by rw [hsize]; omega) (by intro n _; simp)
  unfold Template.fromFile
  simp only
  rw [h1]
  rw [List.nil_append] at h2 h3
  by_cases hf : Fits o.maxInputLen ts.flatten
  · rw [h2 hf]
    simp only [bind, Except.bind, pure, Except.pure]
    cases Template.fromStr ts.flatten o with
    | error h => rfl
    | ok r => cases r <;> rfl
  · obtain ⟨n, hn, -, h⟩ := fromStr_not_fits hf
    rw [h3 n hn hf, h]
    rfl

/-- C31, what holds: without an input length limit, loading from a file is loading from its text
exactly when no read splits a character; with any options it is if no read splits a character, and
otherwise a decoding error or exceeded limit is reported. Missing: reads that split a character. -/
theorem C31_file_like_text_partial (s : Str) (pieces : List (List UInt8))
    (hne : ∀ p ∈ pieces, p ≠ []) (hs : pieces.flatten = encodeUtf8 s) :
    (∀ o, (∀ p ∈ pieces, ∃ t, p = encodeUtf8 t) →
      Template.fromFile (some (pieces.map .ok)) o = (Template.fromStr s o).map asFile) ∧
    (∀ depth, Template.fromFile (some (pieces.map .ok)) ⟨depth, none⟩ =
      (Template.fromStr s ⟨depth, none⟩).map asFile ↔ ∀ p ∈ pieces, ∃ t, p = encodeUtf8 t) ∧
    ∀ depth, (¬ ∀ p ∈ pieces, ∃ t, p = encodeUtf8 t) →
      Template.fromFile (some (pieces.map .ok)) ⟨depth, none⟩ = .ok (.error .decode) := by
  have h1 : ∀ o, (∀ p ∈ pieces, ∃ t, p = encodeUtf8 t) →
      Template.fromFile (some (pieces.map .ok)) o = (Template.fromStr s o).map asFile := by
    intro o h
    have : ∃ ts : List Str, pieces = ts.map encodeUtf8 := by
      clear hs hne
      induction pieces with
      | nil => exact ⟨[], rfl⟩
      | cons p ps ih =>
        obtain ⟨ts, rfl⟩ := ih fun x hx => h x (by simp [hx])
        obtain ⟨t, rfl⟩ := h p (by simp)
        exact ⟨t :: ts, rfl⟩
    obtain ⟨ts, rfl⟩ := this
    have hts : ts.flatten = s := by
      apply encode_injective
      rw [← hs]
      clear hs hne h
      induction ts with
      | nil => rfl
      | cons t ts ih => simp only [List.map_cons, List.flatten_cons, encode_append, ih]
    have := fromFile_valid ts o fun t ht => by
      have := hne (encodeUtf8 t) (List.mem_map_of_mem ht)
      rwa [Ne, encode_nil_iff] at this
    rw [hts] at this
    rw [List.map_map]
    exact this
  have h3 : ∀ depth, (¬ ∀ p ∈ pieces, ∃ t, p = encodeUtf8 t) →
      Template.fromFile (some (pieces.map .ok)) ⟨depth, none⟩ = .ok (.error .decode) := by
    intro depth h
    have hbad : ∃ p ∈ pieces, ∀ t, p ≠ encodeUtf8 t := by
      by_contra hc
      apply h
      intro p hp
      by_contra hn
      exact hc ⟨p, hp, fun t ht => hn ⟨t, ht⟩⟩
    have := loop_split pieces (ReadCalls.size (pieces.map .ok) + 1) [] hne
      (by rw [size_map]; omega) hbad
    unfold Template.fromFile
    simp only
    rw [this]
    rfl
  refine ⟨h1, ?_, h3⟩
  intro depth
  refine ⟨?_, h1 _⟩
  intro h
  by_contra hn
  rw [h3 depth hn] at h
  rcases hr : Template.fromStr s ⟨depth, none⟩ with e | (e | t) <;> rw [hr] at h <;> cases h

example : ∀ p ∈ [[0x78], [0xE2, 0x82, 0xAC], [0x79]], ∃ t, p = encodeUtf8 t := by
  intro p hp
  rcases hp with _ | ⟨_, _ | ⟨_, _ | ⟨_, h⟩⟩⟩
  · exact ⟨['x'], by decide⟩
  · exact ⟨['€'], by decide⟩
  · exact ⟨['y'], by decide⟩
  · cases h

example : Template.fromFile (some [.ok [0x78], .ok [0xE2, 0x82, 0xAC], .ok [0x79]]) {} =
    .ok (.ok ⟨[.data (.actual "x€y".toList)]⟩) :=
  fromFile_valid ["x".toList, "€".toList, "y".toList] {} (by decide)

/-- C32. If loading from a file succeeds, no read failed, the bytes of the file are the UTF-8
encoding of a text, loading from the text gives the same template, and the file obeys the length
limit. An empty read is the end of the file. -/
theorem C32_file_sound (reads : ReadCalls) (o : Options) (t : Template)
    (hne : ∀ p, .ok p ∈ reads → p ≠ []) (h : Template.fromFile (some reads) o = .ok (.ok t)) :
    ∃ (pieces : List (List UInt8)) (s : Str), reads = pieces.map .ok ∧
      pieces.flatten = encodeUtf8 s ∧ Template.fromStr s o = .ok (.ok t) ∧
      ∀ n, o.maxInputLen = some n → pieces.flatten.length ≤ n := by
  unfold Template.fromFile at h
  simp only [bind, Except.bind, pure, Except.pure] at h
  cases hl : fromFileLoop o.maxInputLen (reads.size + 1) [] reads [] with
  | error e => rw [hl] at h; cases h
  | ok r =>
    rw [hl] at h
    cases r with
    | error e => cases h
    | ok input =>
      obtain ⟨ps, s, h1, h2, h3, h4⟩ := loop_sound _ _ _ _ _ _ hne hl (by intro n _; simp)
      rw [List.nil_append] at h2 h3
      subst h3
      refine ⟨ps, input, h1, h2, ?_, ?_⟩
      · simp only at h
        rcases hr : Template.fromStr input o with e | (e | t') <;> rw [hr] at h <;> cases h
        rfl
      · intro n hn
        rw [h2, encode_length]
        exact h4 n hn

example : ∃ t, Template.fromFile (some [.ok [0x3C, 0x62, 0x72], .ok [0x3E]]) ⟨none, some 4⟩ =
    .ok (.ok t) :=
  ⟨_, fromFile_valid ["<br".toList, ">".toList] ⟨none, some 4⟩ (by decide)⟩

/-- C60. Loading from a file always returns, for every outcome of opening and reading: it never
panics or loops. A failure to open or, before anything was read, to read is reported as such. -/
theorem C60_file_total (file : Option ReadCalls) (o : Options) :
    (∃ r, Template.fromFile file o = .ok r) ∧
    (file = none → Template.fromFile file o = .ok (.error .open)) ∧
    ∀ rest, file = some (.error () :: rest) → Template.fromFile file o = .ok (.error .read) := by
  refine ⟨?_, ?_, ?_⟩
  · cases file with
    | none => exact ⟨_, rfl⟩
    | some reads =>
      obtain ⟨r, hr⟩ := loop_total o.maxInputLen (reads.size + 1) [] reads [] (by simp)
      unfold Template.fromFile
      simp only
      rw [hr]
      cases r with
      | error e => exact ⟨_, rfl⟩
      | ok input =>
        simp only [bind, Except.bind, pure, Except.pure]
        have : ∃ r, Template.fromStr input o = .ok r := by
          by_cases h : Fits o.maxInputLen input
          · obtain ⟨r, hr⟩ := parseEvents_total input o
            rw [fromStr_fits h, hr]
            cases r <;> exact ⟨_, rfl⟩
          · obtain ⟨n, -, -, h⟩ := fromStr_not_fits h
            exact ⟨_, h⟩
        obtain ⟨r, hr⟩ := this
        rw [hr]
        cases r <;> exact ⟨_, rfl⟩
  · rintro rfl
    rfl
  · rintro rest rfl
    unfold Template.fromFile
    simp only
    rw [loop_eq]
    rfl

example : Template.fromFile (some [.ok [0x61], .error ()]) {} = .ok (.error .read) := rfl

/-- C88. What loading from a file gives, for every sequence of reads and all options: the reads
give a text or an error as described by `Loads`, exactly one, and a text is loaded like any text. -/
theorem C88_file_exact (reads : ReadCalls) (o : Options) :
    ∃ r, Loads o.maxInputLen [] reads r ∧ (∀ r', Loads o.maxInputLen [] reads r' → r' = r) ∧
      Template.fromFile (some reads) o = match r with
        | .ok s => (Template.fromStr s o).map asFile
        | .error e => .ok (.error e) := by
  obtain ⟨r, h1, h2⟩ := loop_loads o.maxInputLen reads (reads.size + 1) [] (Nat.lt_succ_self _)
  refine ⟨r, h2, fun r' h => loads_unique h h2, ?_⟩
  unfold Template.fromFile
  simp only
  rw [h1]
  cases r with
  | error e => rfl
  | ok s =>
    simp only [bind, Except.bind, pure, Except.pure]
    rcases Template.fromStr s o with e | (e | t) <;> rfl

/-- A limit that the valid part of a piece exceeds is reported before the broken character; a limit
that it meets is not. -/
example : Loads (some 1) [] [.ok [0x78, 0x78, 0xE2], .ok [0x82, 0xAC]]
      (.error (.input (.lengthLimitExceeded 1))) ∧
    Loads (some 2) [] [.ok [0x78, 0x78, 0xE2], .ok [0x82, 0xAC]] (.error .decode) := by
  have h : NoChar [0xE2] := noChar_iff.2 rfl
  exact ⟨.tooLong (s := ['x', 'x']) (by decide) h rfl (by decide),
    .undecodable (s := ['x', 'x']) (by decide) h fun _ n hn => by cases hn; decide⟩

example : Template.fromFile (some [.ok [0x78, 0x78, 0xE2], .ok [0x82, 0xAC]]) ⟨none, some 1⟩ =
      .ok (.error (.input (.lengthLimitExceeded 1))) ∧
    Template.fromFile (some [.ok [0x78, 0x78, 0xE2], .ok [0x82, 0xAC]]) ⟨none, some 2⟩ =
      .ok (.error .decode) := ⟨rfl, rfl⟩

end Fuser
