import Verif.Proof.Input
import Verif.Model.Parse

/-!
# Pure form of the parser

The model's parser functions (with byte offsets, panics and loop counters) equal these plain
functions.
-/

namespace Fuser

theorem Input.after_content (i : Input) (a b : Str) : (i.after a b).content = b := rfl

theorem char_some {c : Char} {i j : Input} (h : P.char c i = some j) :
    i.content = c :: j.content ∧ j.location = addLoc i.location [c] := by
  unfold P.char at h
  cases hi : i.content with
  | nil => simp [hi] at h
  | cons d r =>
    rw [hi] at h
    simp only at h
    split at h
    · next hd => cases h; rw [hd]; exact ⟨rfl, rfl⟩
    · cases h

theorem ws_content_le (i : Input) : (P.ws i).content.length ≤ i.content.length := by
  change (i.content.dropWhile isWhitespace).length ≤ _
  exact (List.dropWhile_suffix _).sublist.length_le

theorem word_some {i j : Input} {w : Str} (h : P.word i = some (w, j)) :
    i.content = w ++ j.content ∧ w ≠ [] ∧ (∀ c ∈ w, terminator c = false) ∧
    (∀ c, j.content.head? = some c → terminator c = true) ∧ j = i.after w j.content := by
  unfold P.word at h
  simp only at h
  split at h
  · cases h
  · next hw =>
    simp only [Option.some.injEq, Prod.mk.injEq] at h
    obtain ⟨rfl, rfl⟩ := h
    refine ⟨?_, hw, ?_, ?_, rfl⟩
    · exact List.takeWhile_append_dropWhile.symm
    · intro c hc
      simpa using takeWhile_forall c hc
    · intro c hc
      rw [Input.after_content] at hc
      cases hd : i.content.dropWhile (fun c => !terminator c) with
      | nil => rw [hd] at hc; cases hc
      | cons d r =>
        rw [hd] at hc
        cases hc
        simpa using dropWhile_cons hd

theorem ident_some {i j : Input} {n : Identifier} (h : P.ident i = .ok (some (n, j))) :
    P.word i = some (n.str, j) ∧ n = ⟨.actual n.str⟩ ∧ validate n.str = .ok n.str := by
  unfold P.ident at h
  cases hw : P.word i with
  | none => simp [hw] at h
  | some p =>
    rw [hw] at h
    simp only at h
    cases hv : validate p.1 with
    | error e => simp [hv] at h
    | ok v =>
      have := (validate_ok hv).1
      subst this
      rw [hv] at h
      simp only [Except.ok.injEq, Option.some.injEq, Prod.mk.injEq] at h
      obtain ⟨rfl, rfl⟩ := h
      exact ⟨rfl, rfl, hv⟩

namespace P

/-- `try_parse_tag_close`. -/
def tagClose (input : Input) : Option ParseResult :=
  match char '<' input with
  | none => none
  | some rest =>
    match char '/' (ws rest) with
    | none => none
    | some rest =>
      match ident (ws rest) with
      | .ok none => some (.error (.expectedClosingTagIdentifier (ws rest).location))
      | .error error => some (.error (.invalidClosingTagIdentifier (ws rest).location error))
      | .ok (some (identifier, rest)) =>
        match char '>' (ws rest) with
        | none => some (.error (.expectedClosingTagClose identifier.str (ws rest).location))
        | some rest => some (.ok ⟨.closingTag identifier, input.location, .data, rest⟩)

/-- `try_parse_attribute`. -/
def attr (tag : Str) (input : Input) : Except ParseError (Option (Attribute × Input)) :=
  match ident input with
  | .error error => .error (.invalidAttributeIdentifier input.location error)
  | .ok none => .ok none
  | .ok (some (name, rest)) =>
    match char '=' (ws rest) with
    | none => .ok (some (⟨name, none⟩, ws rest))
    | some rest =>
      match char '"' (ws rest) with
      | none => .error (.invalidAttributeValue (ws rest).location tag name.str)
      | some rest' =>
        match untilChar '"' (ws rest') with
        | none => .error (.unclosedAttributeValue (ws rest).location tag name.str)
        | some (value, rest) =>
          .ok (some (⟨name, some (fromRaw value)⟩, (rest.after ['"'] rest.content.tail)))

/-- The input shrinks. -/
def size (i : Input) : Nat := i.content.length

theorem attr_size {tag : Str} {i j : Input} {a : Attribute} (h : attr tag i = .ok (some (a, j))) :
    size j < size i := by
  unfold attr at h
  cases hi : ident i with
  | error e => simp [hi] at h
  | ok o =>
    rw [hi] at h
    cases o with
    | none => simp at h
    | some p =>
      obtain ⟨name, rest⟩ := p
      obtain ⟨hw, -, -⟩ := ident_some hi
      obtain ⟨h1, h2, -⟩ := word_some hw
      have hlt : size rest < size i := by
        unfold size
        rw [h1, List.length_append]
        have := List.length_pos_of_ne_nil h2
        omega
      have hws := fun i : Input => (show size (ws i) ≤ size i from ws_content_le i)
      simp only at h
      cases hc : char '=' (ws rest) with
      | none =>
        simp [hc] at h
        rw [← h.2]
        exact Nat.lt_of_le_of_lt (hws _) hlt
      | some r1 =>
        simp only [hc] at h
        have l1 : size r1 < size (ws rest) := by
          unfold size; rw [(char_some hc).1]; simp
        cases hc2 : char '"' (ws r1) with
        | none => simp [hc2] at h
        | some r2 =>
          simp only [hc2] at h
          have l2 : size r2 < size (ws r1) := by
            unfold size; rw [(char_some hc2).1]; simp
          cases hu : untilChar '"' (ws r2) with
          | none => simp [hu] at h
          | some q =>
            obtain ⟨v, r3⟩ := q
            simp only [hu, Except.ok.injEq, Option.some.injEq, Prod.mk.injEq] at h
            have l3 : size r3 ≤ size (ws r2) := by
              unfold untilChar at hu
              split at hu
              · simp only [Option.some.injEq, Prod.mk.injEq] at hu
                rw [← hu.2]
                change (((ws r2).content).dropWhile _).length ≤ _
                exact (List.dropWhile_suffix _).sublist.length_le
              · cases hu
            have l4 : size j ≤ size r3 := by
              rw [← h.2]
              change r3.content.tail.length ≤ r3.content.length
              simp
            have := hws rest
            have := hws r1
            have := hws r2
            omega

/-- `parse_attributes`, from after the white space. -/
def attrs (tag : Str) (input : Input) : Except ParseError (Attributes × Input) :=
  if input.content = [] then .ok ([], input)
  else
    match h : attr tag input with
    | .error e => .error e
    | .ok none => .ok ([], input)
    | .ok (some (a, rest)) =>
      match attrs tag (ws rest) with
      | .error e => .error e
      | .ok (as, rest) => .ok (a :: as, rest)
termination_by size input
decreasing_by exact Nat.lt_of_le_of_lt (ws_content_le rest) (attr_size h)

theorem attrs_eq (tag : Str) (input : Input) : attrs tag input =
    if input.content = [] then .ok ([], input)
    else match attr tag input with
      | .error e => .error e
      | .ok none => .ok ([], input)
      | .ok (some (a, rest)) =>
        match attrs tag (ws rest) with
        | .error e => .error e
        | .ok (as, rest) => .ok (a :: as, rest) := by
  conv_lhs => rw [attrs]
  split
  · rfl
  · split <;> simp_all

/-- The optional slash. -/
def slash (i : Input) : Bool × Input :=
  match char '/' i with
  | some rest => (true, ws rest)
  | none => (false, i)

/-- The event of a start tag. -/
def startEvent (tag : Identifier) (as : Attributes) (selfClose : Bool) : Event :=
  if isVoidTag tag.str then .voidTag tag as
  else if selfClose then .selfClosedTag tag as
  else .openingTag tag as

/-- `try_parse_tag_open`. -/
def tagOpen (input : Input) : Option ParseResult :=
  match char '<' input with
  | none => none
  | some rest =>
    match ident (ws rest) with
    | .ok none => some (.error (.expectedOpeningTagIdentifier (ws rest).location))
    | .error error => some (.error (.invalidOpeningTagIdentifier (ws rest).location error))
    | .ok (some (tag, rest)) =>
      match attrs tag.str (ws (ws rest)) with
      | .error error => some (.error error)
      | .ok (attributes, rest) =>
        match char '>' (slash (ws rest)).2 with
        | none => some (.error (.expectedOpeningTagClose tag.str (slash (ws rest)).2.location))
        | some rest' =>
          some (.ok ⟨startEvent tag attributes (slash (ws rest)).1, input.location,
            modeForTag tag.str (slash (ws rest)).1, rest'⟩)

/-- `try_parse_data`. -/
def data (input : Input) : Option ParseResult :=
  let p := (untilChar '<' input).getD (all input)
  if p.1 = [] then none
  else some (.ok ⟨.data (fromRaw p.1), input.location, .data, p.2⟩)

/-- `try_parse_comment`. -/
def comment (input : Input) : Option ParseResult :=
  match str "<!--".toList input with
  | none => none
  | some rest =>
    match untilStr "-->".toList rest with
    | none => some (.error (.unclosedComment input.location))
    | some (content, rest) =>
      some (.ok ⟨.comment (fromRaw content), input.location, .data,
        rest.after "-->".toList (rest.content.drop 3)⟩)

/-- `try_parse_doctype`. -/
def doctype (input : Input) : Option ParseResult :=
  match str "<!".toList input with
  | none => none
  | some rest =>
    match exact "doctype".toList (ws rest) with
    | none => none
    | some (_, rest) =>
      match untilChar '>' (ws rest) with
      | none => some (.error (.unclosedDoctype input.location))
      | some (content, rest) =>
        if identifierEq (trim content) "html".toList = true then
          some (.ok ⟨.doctype (fromRaw (trim content)), input.location, .data,
            rest.after ['>'] rest.content.tail⟩)
        else some (.error (.unsupportedDoctype input.location (trim content)))

/-- `parse_data_mode`. -/
def dataMode (input : Input) : ParseResult :=
  ((((comment input).orElse fun _ => doctype input).orElse fun _ => tagClose input).orElse
    fun _ => (tagOpen input).orElse fun _ => data input).getD (.error (.unexpectedInput input.location))

/-- The check for the end of raw text. -/
def rawEnd (searched : Str) (rest : Input) : Bool :=
  match tagClose rest with
  | some (.ok parsed) => parsed.event.isClosingTagForStr searched
  | _ => false

/-- `parse_raw_data`. -/
def rawData (input : Input) (searched : Str) : ParseResult :=
  let p := (search '<' (rawEnd searched) input [] input.content).getD (all input)
  .ok ⟨.rawData (fromRaw p.1), input.location, .data, p.2⟩

/-- `parse`. -/
def parse (mode : Mode) (input : Input) : ParseResult :=
  match mode with
  | .data => dataMode input
  | .rawData tag => rawData input tag

end P

theorem tryParseTagClose_eq (i : Input) : tryParseTagClose i = .ok (P.tagClose i) := by
  unfold tryParseTagClose P.tagClose
  simp only [takeChar_eq, skipWhitespace_eq, takeIdentifier_eq, bind, Except.bind, pure, Except.pure]
  cases P.char '<' i with
  | none => rfl
  | some r1 =>
    simp only
    cases P.char '/' (P.ws r1) with
    | none => rfl
    | some r2 =>
      simp only
      cases P.ident (P.ws r2) with
      | error e => rfl
      | ok o =>
        cases o with
        | none => rfl
        | some p =>
          simp only
          cases P.char '>' (P.ws p.2) with
          | none => rfl
          | some r3 => rfl

theorem untilChar_some {c : Char} {i j : Input} {a : Str} (h : P.untilChar c i = some (a, j)) :
    i.content = a ++ j.content ∧ c ∉ a ∧ (∃ r, j.content = c :: r) ∧ j = i.after a j.content := by
  unfold P.untilChar at h
  split at h
  · next hm =>
    simp only [Option.some.injEq, Prod.mk.injEq] at h
    obtain ⟨rfl, rfl⟩ := h
    have hsplit : i.content.takeWhile (fun d => !(d == c)) ++
        i.content.dropWhile (fun d => !(d == c)) = i.content := List.takeWhile_append_dropWhile
    have hna : c ∉ i.content.takeWhile (fun d => !(d == c)) := by
      intro hc
      have := takeWhile_forall c hc
      simp at this
    refine ⟨hsplit.symm, hna, ?_, rfl⟩
    rw [Input.after_content]
    cases hd : i.content.dropWhile (fun d => !(d == c)) with
    | nil =>
      rw [hd, List.append_nil] at hsplit
      rw [hsplit] at hna
      exact absurd hm hna
    | cons d r =>
      have := dropWhile_cons hd
      simp at this
      exact ⟨r, by rw [this]⟩
  · cases h

theorem untilChar_none {c : Char} {i : Input} (h : P.untilChar c i = none) : c ∉ i.content := by
  unfold P.untilChar at h
  split at h
  · cases h
  · assumption

theorem char_of_content {c : Char} {i : Input} {r : Str} (h : i.content = c :: r) :
    P.char c i = some (i.after [c] r) := by
  simp [P.char, h]

theorem tryParseAttribute_eq (tag : Str) (i : Input) :
    tryParseAttribute tag i = .ok (P.attr tag i) := by
  unfold tryParseAttribute P.attr
  simp only [takeChar_eq, skipWhitespace_eq, takeIdentifier_eq, takeUntilChar_eq, bind, Except.bind,
    pure, Except.pure]
  cases P.ident i with
  | error e => rfl
  | ok o =>
    cases o with
    | none => rfl
    | some p =>
      simp only
      cases P.char '=' (P.ws p.2) with
      | none => rfl
      | some r1 =>
        simp only
        cases P.char '"' (P.ws r1) with
        | none => rfl
        | some r2 =>
          simp only
          cases hu : P.untilChar '"' (P.ws r2) with
          | none => rfl
          | some q =>
            obtain ⟨v, r3⟩ := q
            obtain ⟨-, -, ⟨r, hr⟩, -⟩ := untilChar_some hu
            simp only
            rw [char_of_content hr]
            simp [hr]

theorem parseAttributesLoop_eq (tag : Str) (fuel : Nat) (acc : Attributes) (i : Input)
    (hf : P.size i < fuel) :
    parseAttributesLoop tag fuel acc i = .ok (match P.attrs tag i with
      | .error e => .error e
      | .ok (as, rest) => .ok (acc ++ as, rest)) := by
  induction fuel generalizing acc i with
  | zero => omega
  | succ fuel ih =>
    unfold parseAttributesLoop
    rw [P.attrs_eq]
    by_cases he : i.content = []
    · have : i.isEmpty = true := by simp [Input.isEmpty, he]
      simp [this, he]
    · have : i.isEmpty = false := by simp [Input.isEmpty, he]
      simp only [this, Bool.false_eq_true, if_false, he, tryParseAttribute_eq, bind, Except.bind,
        skipWhitespace_eq, pure, Except.pure]
      cases h : P.attr tag i with
      | error e => rfl
      | ok o =>
        cases o with
        | none => simp
        | some p =>
          obtain ⟨a, r⟩ := p
          have hlt := P.attr_size h
          have hws : P.size (P.ws r) ≤ P.size r := ws_content_le r
          simp only
          rw [ih (acc ++ [a]) (P.ws r) (by omega)]
          cases P.attrs tag (P.ws r) with
          | error e => rfl
          | ok q => simp

theorem parseAttributes_eq (tag : Str) (i : Input) :
    parseAttributes tag i = .ok (P.attrs tag (P.ws i)) := by
  unfold parseAttributes
  simp only [skipWhitespace_eq, bind, Except.bind]
  rw [parseAttributesLoop_eq _ _ _ _ (by unfold P.size; omega)]
  cases P.attrs tag (P.ws i) with
  | error e => rfl
  | ok p => simp

theorem tryParseTagOpen_eq (i : Input) : tryParseTagOpen i = .ok (P.tagOpen i) := by
  unfold tryParseTagOpen P.tagOpen
  simp only [takeChar_eq, skipWhitespace_eq, takeIdentifier_eq, parseAttributes_eq, bind, Except.bind,
    pure, Except.pure]
  cases P.char '<' i with
  | none => rfl
  | some r1 =>
    simp only
    cases P.ident (P.ws r1) with
    | error e => rfl
    | ok o =>
      cases o with
      | none => rfl
      | some p =>
        simp only
        cases P.attrs p.1.str (P.ws (P.ws p.2)) with
        | error e => rfl
        | ok q =>
          simp only [P.slash]
          cases P.char '/' (P.ws q.2) with
          | none =>
            simp only
            cases P.char '>' (P.ws q.2) with
            | none => rfl
            | some r => rfl
          | some r2 =>
            simp only
            cases P.char '>' (P.ws r2) with
            | none => rfl
            | some r => rfl

theorem tryParseData_eq (i : Input) : tryParseData i = .ok (P.data i) := by
  unfold tryParseData P.data
  simp only [takeUntilChar_eq, takeAll_eq, bind, Except.bind, pure, Except.pure]
  cases P.untilChar '<' i with
  | none =>
    simp only [Option.getD_none, List.isEmpty_iff]
    split <;> rfl
  | some p =>
    simp only [Option.getD_some, List.isEmpty_iff]
    split <;> rfl

theorem cutStr_prefix {pat s a b : Str} (h : P.cutStr pat s = some (a, b)) :
    ∃ r, b = pat ++ r := by
  induction s generalizing a with
  | nil =>
    unfold P.cutStr at h
    split at h
    · next hp => cases h; exact ⟨[], by simpa using hp.symm⟩
    · cases h
  | cons c s ih =>
    unfold P.cutStr at h
    split at h
    · next hp =>
      cases h
      obtain ⟨r, hr⟩ := List.isPrefixOf_iff_prefix.1 hp
      exact ⟨r, hr.symm⟩
    · cases hc : P.cutStr pat s with
      | none => simp [hc] at h
      | some p =>
        rw [hc] at h
        cases h
        exact ih hc

theorem untilStr_some {pat : Str} {i j : Input} {a : Str} (h : P.untilStr pat i = some (a, j)) :
    i.content = a ++ j.content ∧ (∃ r, j.content = pat ++ r) ∧ j = i.after a j.content := by
  unfold P.untilStr at h
  cases hc : P.cutStr pat i.content with
  | none => simp [hc] at h
  | some p =>
    rw [hc] at h
    cases h
    exact ⟨(cutStr_eq pat i.content).2 _ _ hc, cutStr_prefix hc, rfl⟩

theorem tryParseComment_eq (i : Input) : tryParseComment i = .ok (P.comment i) := by
  unfold tryParseComment P.comment
  simp only [takeStr_eq, takeUntilStr_eq, bind, Except.bind, pure, Except.pure]
  cases P.str "<!--".toList i with
  | none => rfl
  | some r1 =>
    simp only
    cases hu : P.untilStr "-->".toList r1 with
    | none => rfl
    | some p =>
      obtain ⟨-, ⟨r, hr⟩, -⟩ := untilStr_some hu
      simp only
      have : P.str "-->".toList p.2 = some (p.2.after "-->".toList r) := by
        unfold P.str
        rw [hr, if_pos (List.isPrefixOf_iff_prefix.2 ⟨r, rfl⟩)]
        simp
      rw [this, hr]
      simp

theorem tryParseDoctype_eq (i : Input) : tryParseDoctype i = .ok (P.doctype i) := by
  unfold tryParseDoctype P.doctype
  simp only [takeStr_eq, skipWhitespace_eq, tryTakeExactIdentifier_eq, takeUntilChar_eq, takeChar_eq,
    bind, Except.bind, pure, Except.pure]
  cases P.str "<!".toList i with
  | none => rfl
  | some r1 =>
    simp only
    cases P.exact "doctype".toList (P.ws r1) with
    | none => rfl
    | some p =>
      simp only
      cases hu : P.untilChar '>' (P.ws p.2) with
      | none => rfl
      | some q =>
        obtain ⟨v, r3⟩ := q
        obtain ⟨-, -, ⟨r, hr⟩, -⟩ := untilChar_some hu
        simp only
        rw [char_of_content hr]
        simp only [hr, List.tail_cons]
        by_cases hi : identifierEq (trim v) "html".toList = true
        · rw [if_pos hi, hi]; rfl
        · rw [if_neg hi]
          simp only [Bool.not_eq_true] at hi
          rw [hi]; rfl

theorem parseDataMode_eq (i : Input) : parseDataMode i = .ok (P.dataMode i) := by
  unfold parseDataMode P.dataMode tryParseTag
  simp only [tryParseComment_eq, tryParseDoctype_eq, tryParseTagClose_eq, tryParseTagOpen_eq,
    tryParseData_eq, bind, Except.bind, pure, Except.pure]
  cases P.comment i with
  | some r => rfl
  | none =>
    cases P.doctype i with
    | some r => rfl
    | none =>
      cases P.tagClose i with
      | some r => rfl
      | none =>
        cases P.tagOpen i with
        | some r => rfl
        | none =>
          cases P.data i with
          | some r => rfl
          | none => rfl

theorem isRawEnd_eq (s : Str) (i : Input) : isRawEnd s i = .ok (P.rawEnd s i) := by
  unfold isRawEnd P.rawEnd
  simp only [tryParseTagClose_eq, bind, Except.bind, pure, Except.pure]
  cases P.tagClose i with
  | none => rfl
  | some r => cases r <;> rfl

theorem parseRawData_eq (i : Input) (s : Str) : parseRawData i s = .ok (P.rawData i s) := by
  unfold parseRawData P.rawData
  rw [takeUntilEndChar_eq i '<' _ _ (isRawEnd_eq s)]
  simp only [takeAll_eq, bind, Except.bind, pure, Except.pure]
  cases P.search '<' (P.rawEnd s) i [] i.content with
  | none => rfl
  | some p => rfl

theorem parse_eq (mode : Mode) (i : Input) : parse mode i = .ok (P.parse mode i) := by
  cases mode with
  | data => exact parseDataMode_eq i
  | rawData tag => exact parseRawData_eq i tag

end Fuser
