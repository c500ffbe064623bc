import Verif.Proof.Report

/-!
# Properties C15-C18, C21-C30, C58, C59: parsing
-/

namespace Fuser

open Spec

/-- C15. Parsing returns a template or an error for every text: it never panics and terminates. -/
theorem C15_parse_total (s : Str) (o : Options) :
    (∃ t, Template.fromStr s o = .ok (.ok t)) ∨ ∃ e, Template.fromStr s o = .ok (.error e) := by
  by_cases h : Fits o.maxInputLen s
  · obtain ⟨r, hr⟩ := parseEvents_total s o
    rw [fromStr_fits h, hr]
    cases r with
    | ok es => exact .inl ⟨⟨es⟩, rfl⟩
    | error e => exact .inr ⟨.parse e, rfl⟩
  · obtain ⟨n, -, -, h⟩ := fromStr_not_fits h
    exact .inr ⟨_, h⟩

example : Template.fromStr "<é/> < ".toList {} = .ok (.error (.parse
    (.invalidOpeningTagIdentifier ⟨1, 2, 1⟩ .notAscii))) := rfl

/-- C58. A text is accepted exactly if it obeys the length limit and is a document of the grammar
`Reads` whose events nest well and not too deeply; the template holds the events of the document. -/
theorem C58_accepted_iff (s : Str) (o : Options) (t : Template) :
    Template.fromStr s o = .ok (.ok t) ↔
      Fits o.maxInputLen s ∧ ∃ d, Doc.text d = s ∧ Doc.events d = t.events ∧ Reads d [] ∧
        Balanced t.events ∧ ∀ n, o.maxStackDepth = some n → Nests n t.events := by
  rw [fromStr_ok, parseEvents_ok]
  refine and_congr_right fun _ => ?_
  constructor
  · rintro ⟨d, h1, h2, h3, h4⟩
    rw [opens_iff] at h4
    exact ⟨d, h1.symm, h2.symm, h3, h2 ▸ h4.1, h2 ▸ h4.2⟩
  · rintro ⟨d, h1, h2, h3, h4⟩
    exact ⟨d, h1.symm, h2.symm, h3, opens_iff.2 (h2 ▸ h4)⟩

example : Template.fromStr "<p>x<BR></p >".toList {} = .ok (.ok ⟨[.openingTag (owned ['p']) [],
    .data (.actual ['x']), .voidTag (owned ['B', 'R']) [], .closingTag (owned ['p'])]⟩) := rfl

/-- C59. A text within the length limit is rejected with an error exactly if a readable document
is followed by a defect of the kind of the error, at the reported places. -/
theorem C59_rejected_iff (s : Str) (o : Options) (e : ParseError) :
    Template.fromStr s o = .ok (.error (.parse e)) ↔
      Fits o.maxInputLen s ∧ ∃ d b st, s = Doc.text d ++ b ∧ Reads d b ∧
        Opens o.maxStackDepth [] [] d st ∧ (b = [] ∨ ¬ InRaw d) ∧
        Fails o.maxStackDepth (Doc.text d) st b e := by
  rw [fromStr_error, parseEvents_error]

example : Template.fromStr "<p>x<b a=1>".toList {} = .ok (.error (.parse
    (.invalidAttributeValue ⟨1, 10, 9⟩ ['b'] ['a']))) := rfl

/-- C16. Accepted templates are well nested. -/
theorem C16_well_nested (s : Str) (o : Options) (t : Template)
    (h : Template.fromStr s o = .ok (.ok t)) : Balanced t.events := by
  obtain ⟨-, d, -, -, -, hb, -⟩ := (C58_accepted_iff s o t).1 h
  exact hb

example : ∃ t, Template.fromStr "<p><b></B></p>".toList {} = .ok (.ok t) ∧ t.events.length = 4 :=
  ⟨_, rfl, rfl⟩

example : ¬ Balanced [.openingTag (owned ['p']) [], .closingTag (owned ['b'])] := by
  rintro ⟨n, h⟩
  generalize hes : [Event.openingTag (owned ['p']) [], .closingTag (owned ['b'])] = es at h
  cases h with
  | nil => cases hes
  | leaf hl _ => cases hes; cases hl
  | @element n t as c inner es hc h1 h2 =>
    simp only [List.cons.injEq, Event.openingTag.injEq] at hes
    obtain ⟨⟨rfl, -⟩, hes⟩ := hes
    cases inner with
    | nil =>
      simp only [List.nil_append, List.cons.injEq, Event.closingTag.injEq] at hes
      obtain ⟨rfl, -⟩ := hes
      revert hc
      simp [SameName, owned, Identifier.str, Deferred.str, SameLetter]
    | cons x inner =>
      simp only [List.cons_append, List.cons.injEq] at hes
      have := congrArg List.length hes.2
      simp at this

/-- A failure that is not about the nesting limit is independent of it. -/
theorem fails_none {L : Option Nat} {a b : Str} {st : List Opened} {e : ParseError}
    (h : Fails L a st b e) (he : ∀ t l n, e ≠ .stackLimitExceeded t l n) : Fails none a st b e := by
  cases h with
  | missing => exact .missing
  | lex h1 h2 => exact .lex h1 h2
  | tooDeep => exact absurd rfl (he _ _ _)
  | unexpected h => exact .unexpected h
  | mismatched h1 h2 => exact .mismatched h1 h2

/-- C17. The nesting limit `d` is exact. A text is accepted with it exactly if it is accepted
without it and nests at most `d` deep, with the same result. The error for exceeded nesting carries
the limit and is reported at an opening tag inside exactly `d` open elements. Other errors are those
reported without the limit, and without the limit there are no errors about it. -/
theorem C17_nesting_limit (s : Str) (m : Option Nat) (d : Nat) :
    (∀ t, Template.fromStr s ⟨some d, m⟩ = .ok (.ok t) ↔
      Template.fromStr s ⟨none, m⟩ = .ok (.ok t) ∧ Nests d t.events) ∧
    (∀ tag l k, Template.fromStr s ⟨some d, m⟩ = .ok (.error (.parse (.stackLimitExceeded tag l k))) →
      k = d ∧ ∃ doc st n as p r, s = Doc.text doc ++ p ++ r ∧ Reads doc (p ++ r) ∧
        Opens none [] [] doc st ∧ st.length = d ∧ Piece (.openingTag n as) p ∧ n.str = tag ∧
        l = posAfter (Doc.text doc)) ∧
    (∀ e, (∀ tag l k, e ≠ .parse (.stackLimitExceeded tag l k)) →
      Template.fromStr s ⟨some d, m⟩ = .ok (.error e) →
      Template.fromStr s ⟨none, m⟩ = .ok (.error e)) ∧
    ∀ tag l k, Template.fromStr s ⟨none, m⟩ ≠ .ok (.error (.parse (.stackLimitExceeded tag l k))) := by
  refine ⟨?_, ?_, ?_, ?_⟩
  · intro t
    rw [C58_accepted_iff, C58_accepted_iff]
    constructor
    · rintro ⟨h1, doc, h2, h3, h4, h5, h6⟩
      exact ⟨⟨h1, doc, h2, h3, h4, h5, by simp⟩, h6 d rfl⟩
    · rintro ⟨⟨h1, doc, h2, h3, h4, h5, -⟩, h6⟩
      exact ⟨h1, doc, h2, h3, h4, h5, by rintro n ⟨⟩; exact h6⟩
  · intro tag l k h
    rw [C59_rejected_iff] at h
    obtain ⟨-, doc, b, st, hs, hr, ho, -, hf⟩ := h
    cases hf with
    | lex _ h =>
      cases h with
      | openingTail _ _ _ _ _ h => cases h
    | tooDeep hp hn hl =>
      cases hn
      exact ⟨rfl, doc, st, _, _, _, _, by rw [hs, List.append_assoc], hr, opens_none ho, hl.symm, hp,
        rfl, rfl⟩
  · intro e he h
    cases e with
    | lengthLimitExceeded n =>
      have hnf : ¬ Fits m s := by
        intro hf
        have := fromStr_fits (s := s) (o := ⟨some d, m⟩) hf
        rw [h] at this
        revert this
        cases parseEvents s ⟨some d, m⟩ with
        | error h => simp
        | ok r => cases r <;> simp
      obtain ⟨n', h1, -, h2⟩ := fromStr_not_fits (s := s) (o := ⟨some d, m⟩) hnf
      obtain ⟨n'', h1', -, h2'⟩ := fromStr_not_fits (s := s) (o := ⟨none, m⟩) hnf
      rw [h] at h2
      cases h2
      have : n'' = n := by
        have : some n'' = some n := h1'.symm.trans h1
        cases this; rfl
      rw [h2', this]
    | parse e =>
      rw [C59_rejected_iff] at h ⊢
      obtain ⟨h1, doc, b, st, hs, hr, ho, hb, hf⟩ := h
      exact ⟨h1, doc, b, st, hs, hr, opens_none ho, hb,
        fails_none hf fun t l n heq => he t l n (by rw [heq])⟩
  · intro tag l k h
    rw [C59_rejected_iff] at h
    obtain ⟨-, doc, b, st, hs, hr, ho, -, hf⟩ := h
    cases hf with
    | lex _ h =>
      cases h with
      | openingTail _ _ _ _ _ h => cases h
    | tooDeep hp hn hl => cases hn

example : Template.fromStr "<a><b></b><b><c></c></b></a>".toList ⟨some 2, none⟩ =
    .ok (.error (.parse (.stackLimitExceeded ['c'] ⟨1, 14, 13⟩ 2))) := rfl

example : ∃ t, Template.fromStr "<a><b></b><b><c></c></b></a>".toList ⟨some 3, none⟩ = .ok (.ok t) :=
  ⟨_, rfl⟩

/-- C18. The length limit is exact: it is reported exactly for texts with more bytes, and otherwise
changes nothing. -/
theorem C18_length_limit (s : Str) (depth : Option Nat) (n : Nat) :
    ((∃ k, Template.fromStr s ⟨depth, some n⟩ = .ok (.error (.lengthLimitExceeded k))) ↔
      (s.map Char.utf8Size).sum > n) ∧
    (∀ k, Template.fromStr s ⟨depth, some n⟩ = .ok (.error (.lengthLimitExceeded k)) → k = n) ∧
    ((s.map Char.utf8Size).sum ≤ n →
      Template.fromStr s ⟨depth, some n⟩ = Template.fromStr s ⟨depth, none⟩) ∧
    ∀ k, Template.fromStr s ⟨depth, none⟩ ≠ .ok (.error (.lengthLimitExceeded k)) := by
  have hpe : parseEvents s ⟨depth, some n⟩ = parseEvents s ⟨depth, none⟩ := by
    obtain ⟨r, hr⟩ := parseEvents_total s ⟨depth, some n⟩
    rw [hr]
    cases r with
    | ok es => exact (parseEvents_ok (o := ⟨depth, none⟩).2 (parseEvents_ok (o := ⟨depth, some n⟩).1 hr)).symm
    | error e => exact (parseEvents_error (o := ⟨depth, none⟩).2 (parseEvents_error (o := ⟨depth, some n⟩).1 hr)).symm
  have hnone : ∀ k, Template.fromStr s ⟨depth, none⟩ ≠ .ok (.error (.lengthLimitExceeded k)) := by
    intro k
    rw [fromStr_fits (o := ⟨depth, none⟩) (by simp [Fits])]
    cases parseEvents s ⟨depth, none⟩ with
    | error h => simp
    | ok r => cases r <;> simp
  have hle : (s.map Char.utf8Size).sum ≤ n →
      Template.fromStr s ⟨depth, some n⟩ = Template.fromStr s ⟨depth, none⟩ := by
    intro h
    rw [fromStr_fits (o := ⟨depth, none⟩) (by simp [Fits]),
      fromStr_fits (o := ⟨depth, some n⟩) (by simpa [Fits] using h), hpe]
  have hgt : (s.map Char.utf8Size).sum > n →
      Template.fromStr s ⟨depth, some n⟩ = .ok (.error (.lengthLimitExceeded n)) := by
    intro h
    obtain ⟨k, hk, -, h⟩ := fromStr_not_fits (s := s) (o := ⟨depth, some n⟩)
      (fun hf => by have := hf n rfl; omega)
    cases hk
    exact h
  refine ⟨⟨?_, fun h => ⟨n, hgt h⟩⟩, ?_, hle, hnone⟩
  · rintro ⟨k, hk⟩
    by_contra hn
    rw [hle (by omega)] at hk
    exact hnone k hk
  · intro k hk
    by_cases h : (s.map Char.utf8Size).sum > n
    · rw [hgt h] at hk
      cases hk
      rfl
    · rw [hle (by omega)] at hk
      exact absurd hk (hnone k)

example : Template.fromStr "é€".toList ⟨none, some 4⟩ = .ok (.error (.lengthLimitExceeded 4)) ∧
    ∃ t, Template.fromStr "é€".toList ⟨none, some 5⟩ = .ok (.ok t) := ⟨rfl, _, rfl⟩

/-- C21. Every location in a parse error is the position of a point of the text. -/
theorem C21_locations (s : Str) (o : Options) (e : ParseError)
    (h : Template.fromStr s o = .ok (.error (.parse e))) :
    ∀ l ∈ locations e, ∃ a b, s = a ++ b ∧ l.offset = (a.map Char.utf8Size).sum ∧
      l.line = 1 + a.count '\n' ∧ l.column = 1 + (a.reverse.takeWhile (· ≠ '\n')).length := by
  obtain ⟨-, d, b, st, rfl, hr, ho, -, hf⟩ := (C59_rejected_iff s o e).1 h
  intro l hl
  obtain ⟨x, a, h1, rfl⟩ := fails_loc hr ho hf l hl
  exact ⟨a, x, h1, rfl, rfl, rfl⟩

example : ∃ e, Template.fromStr "a€\n<p>\n é<b></p>".toList {} = .ok (.error (.parse e)) ∧
    locations e = [⟨3, 3, 12⟩, ⟨3, 6, 15⟩] := ⟨_, rfl, rfl⟩

/-- C22. The errors about nesting are located at the `<` of the tags they name. -/
theorem C22_located_at_tag (s : Str) (o : Options) (e : ParseError)
    (h : Template.fromStr s o = .ok (.error (.parse e))) :
    ∀ x ∈ namedTags e, TagAt s x.1 x.2.1 x.2.2 := by
  obtain ⟨-, d, b, st, rfl, hr, ho, -, hf⟩ := (C59_rejected_iff s o e).1 h
  exact fails_tags hr ho hf

example : ∃ e, Template.fromStr "x<a><b c>y< / d>".toList {} = .ok (.error (.parse e)) ∧
    namedTags e = [(false, ['b'], ⟨1, 5, 4⟩), (true, ['d'], ⟨1, 11, 10⟩)] := ⟨_, rfl, rfl⟩

/-- C23, the full claim: the message puts the closing tag first, as its words say. -/
def MismatchMessageRight : Prop :=
  ∀ opening openingAt closing closingAt,
    (ParseError.mismatchedClosingTag opening openingAt closing closingAt).render =
      "Closing tag '".toList ++ closing ++ "' at ".toList ++ closingAt.render ++
      " does not match opening tag '".toList ++ opening ++ "' at ".toList ++ openingAt.render

/-- C23 is false: for the text `<a></b>` the message calls `a` the closing tag and `b` the opening
tag. -/
theorem C23_mismatch_message_false :
    ¬ MismatchMessageRight ∧
    ∃ e, Template.fromStr "<a></b>".toList {} = .ok (.error (.parse e)) ∧
      e.render = ("Closing tag 'a' at line 1 column 1 (byte offset 0) does not match " ++
        "opening tag 'b' at line 1 column 4 (byte offset 3)").toList := by
  constructor
  · intro h
    have := h ['a'] ⟨1, 1, 0⟩ ['b'] ⟨1, 4, 3⟩
    revert this
    decide +kernel
  · exact ⟨.mismatchedClosingTag ['a'] ⟨1, 1, 0⟩ ['b'] ⟨1, 4, 3⟩, rfl, by decide +kernel⟩

/-- C23, what holds: the error value itself has the tags and positions right, and the message
contains them, though in swapped places. Missing: the message assigns them the right roles. -/
theorem C23_mismatch_message_partial (s : Str) (o : Options) (opening closing : Str)
    (openingAt closingAt : Location)
    (h : Template.fromStr s o =
      .ok (.error (.parse (.mismatchedClosingTag opening openingAt closing closingAt)))) :
    TagAt s false opening openingAt ∧ TagAt s true closing closingAt ∧
    ¬ SameName closing opening ∧
    (∃ d b x st, s = Doc.text d ++ b ∧ Reads d b ∧ Opens o.maxStackDepth [] [] d (x :: st) ∧
      opening = x.1.str ∧ openingAt = posAfter x.2 ∧ closingAt = posAfter (Doc.text d)) ∧
    (ParseError.mismatchedClosingTag opening openingAt closing closingAt).render =
      "Closing tag '".toList ++ opening ++ "' at ".toList ++ openingAt.render ++
      " does not match opening tag '".toList ++ closing ++ "' at ".toList ++ closingAt.render := by
  have ht := C22_located_at_tag s o _ h
  simp only [namedTags, List.mem_cons, List.not_mem_nil, or_false, forall_eq_or_imp, forall_eq] at ht
  obtain ⟨-, d, b, st, rfl, hr, ho, -, hf⟩ := (C59_rejected_iff s o _).1 h
  refine ⟨ht.1, ht.2, ?_, ?_, rfl⟩
  · cases hf with
    | lex _ h =>
      cases h with
      | openingTail _ _ _ _ _ h => cases h
    | mismatched _ hn => exact hn
  · cases hf with
    | lex _ h =>
      cases h with
      | openingTail _ _ _ _ _ h => cases h
    | mismatched _ hn => exact ⟨d, _, _, _, rfl, hr, ho, rfl, rfl, rfl⟩

/-- C24. In an accepted template an opening tag of a raw text element is followed by exactly one raw
text event and then the closing tag of the element, raw text events occur nowhere else, and raw
text is a verbatim piece of the input. -/
theorem C24_raw_text (s : Str) (o : Options) (t : Template)
    (h : Template.fromStr s o = .ok (.ok t)) :
    (∀ pre n as post, t.events = pre ++ .openingTag n as :: post → RawName n.str →
      ∃ c n' post', post = .rawData c :: .closingTag n' :: post' ∧ SameName n'.str n.str) ∧
    (∀ pre c post, t.events = pre ++ .rawData c :: post →
      ∃ pre' n as n' post', pre = pre' ++ [.openingTag n as] ∧ post = .closingTag n' :: post' ∧
        RawName n.str ∧ SameName n'.str n.str) ∧
    ∀ c, .rawData c ∈ t.events → c.str <:+: s := by
  obtain ⟨-, h⟩ := fromStr_ok.1 h
  obtain ⟨d, rfl, h2, hr, ho⟩ := parseEvents_ok.1 h
  have hrp := reads_rawPlaced hr rfl ho
  rw [← h2] at hrp
  refine ⟨fun pre n as post h hn => rawPlaced_opening hrp h hn,
    fun pre c post h => rawPlaced_raw hrp h, ?_⟩
  intro c hc
  rw [h2] at hc
  obtain ⟨p, hp⟩ := mem_events hc
  have hpc : p = c.str := by
    rcases reads_piece hr hp with h | h
    · cases h with
      | start _ _ _ _ _ _ _ hs => cases hs
    · cases h; rfl
  subst hpc
  obtain ⟨d1, d2, rfl⟩ := List.append_of_mem hp
  exact ⟨Doc.text d1, Doc.text d2, by simp [Doc.text]⟩

example : ∃ t, Template.fromStr "<p><Script>a<b></c></ scripT></p><title></title>".toList {} =
    .ok (.ok t) ∧ .rawData (.actual "a<b></c>".toList) ∈ t.events ∧
      .rawData (.actual []) ∈ t.events := ⟨_, rfl, by decide, by decide⟩

/-- C25. In an accepted template the void element names occur only in void tags, void tags have
only these names, and no closing tag has such a name. -/
theorem C25_void_elements (s : Str) (o : Options) (t : Template)
    (h : Template.fromStr s o = .ok (.ok t)) :
    (∀ n as, .voidTag n as ∈ t.events → VoidName n.str) ∧
    (∀ n as, .openingTag n as ∈ t.events → ¬ VoidName n.str) ∧
    (∀ n as, .selfClosedTag n as ∈ t.events → ¬ VoidName n.str) ∧
    ∀ n, .closingTag n ∈ t.events → ¬ VoidName n.str := by
  obtain ⟨-, d, -, h2, hr, ⟨k, hb⟩, -⟩ := (C58_accepted_iff s o t).1 h
  rw [← h2] at hb ⊢
  have hopen : ∀ n as, .openingTag n as ∈ Doc.events d → ¬ VoidName n.str := by
    intro n as hn
    obtain ⟨p, hp⟩ := mem_events hn
    rcases reads_piece hr hp with h | h
    · obtain ⟨w, rfl, -, hv⟩ := piece_opening_name h
      exact hv
    · cases h
  refine ⟨?_, hopen, ?_, ?_⟩
  · intro n as hn
    obtain ⟨p, hp⟩ := mem_events hn
    rcases reads_piece hr hp with h | h
    · exact piece_void h
    · cases h
  · intro n as hn
    obtain ⟨p, hp⟩ := mem_events hn
    rcases reads_piece hr hp with h | h
    · exact piece_selfClosed h
    · cases h
  · intro n hn hv
    obtain ⟨t, as, h1, h2⟩ := nests_closing hb n hn
    exact hopen t as h1 ((voidName_congr h2).1 hv)

example : Template.fromStr "<iMg><br/>".toList {} = .ok (.ok
    ⟨[.voidTag (owned "iMg".toList) [], .voidTag (owned "br".toList) []]⟩) := rfl

/-- C26. The input is the concatenation of one piece for each event, in order, and events carry
their pieces. -/
theorem C26_whole_input (s : Str) (o : Options) (t : Template)
    (h : Template.fromStr s o = .ok (.ok t)) :
    ∃ ps : List Str, s = ps.flatten ∧ List.Forall₂ Carries t.events ps := by
  obtain ⟨-, d, rfl, h2, hr, -⟩ := (C58_accepted_iff s o t).1 h
  refine ⟨d.map Prod.snd, by simp [Doc.text, List.flatMap_def], ?_⟩
  rw [← h2]
  have : ∀ x ∈ d, Carries x.1 x.2 := by
    rintro ⟨e, p⟩ hx
    rcases reads_piece hr hx with h | rfl
    · exact piece_carries h
    · rfl
  clear hr h2 h
  induction d with
  | nil => exact .nil
  | cons x d ih => exact .cons (this x (by simp)) (ih fun y hy => this y (by simp [hy]))

example : ∃ t, Template.fromStr " x <!-- <p> -->y<b / >".toList {} = .ok (.ok t) ∧
    List.Forall₂ Carries t.events
      [" x ".toList, "<!-- <p> -->".toList, "y".toList, "<b / >".toList] := by
  refine ⟨_, rfl, .cons ⟨rfl, by decide⟩ (.cons rfl (.cons ⟨rfl, by decide⟩ (.cons ?_ .nil)))⟩
  exact ⟨[], " / ".toList, rfl, by simp [Blank]⟩

/-- C27. Only the html doctype is accepted; a text starting with another doctype is rejected as
unsupported. -/
theorem C27_doctype (s : Str) (o : Options) :
    (∀ t, Template.fromStr s o = .ok (.ok t) →
      ∀ c, .doctype c ∈ t.events → SameName c.str "html".toList) ∧
    (Fits o.maxInputLen s → ∀ w d u c v r,
      s = "<!".toList ++ w ++ d ++ u ++ c ++ v ++ '>' :: r → Blank w →
      SameName d "doctype".toList → Blank u → '>' ∉ c → Tight c → Tight c.reverse → Blank v →
      Ends (u ++ c ++ v ++ ['>']) → ¬ SameName c "html".toList →
      Template.fromStr s o = .ok (.error (.parse (.unsupportedDoctype ⟨1, 1, 0⟩ c)))) := by
  constructor
  · intro t h c hc
    obtain ⟨-, d, -, h2, hr, -⟩ := (C58_accepted_iff s o t).1 h
    rw [← h2] at hc
    obtain ⟨p, hp⟩ := mem_events hc
    rcases reads_piece hr hp with h | h
    · cases h with
      | doctype _ _ _ _ h _ => exact h
      | start _ _ _ _ _ _ _ hs => cases hs
    · cases h
  · rintro hfit w d u c v r rfl h1 h2 h3 h4 h5 h6 h7 h8 h9
    refine (C59_rejected_iff _ _ _).2 ⟨hfit, [], _, [], rfl, .nil, .nil, .inr ?_, .lex ?_
      (.unsupportedDoctype h1 h2 h3 h4 h5 h6 h7 h8 h9)⟩
    · rintro ⟨d', e, p, t, h, -⟩
      simp at h
    · simp

example : Template.fromStr "<! DocType  html PUBLIC x  >".toList {} =
    .ok (.error (.parse (.unsupportedDoctype ⟨1, 1, 0⟩ "html PUBLIC x".toList))) := rfl

example : ∃ t, Template.fromStr "<!DOCTYPE HTML ><p/>".toList {} = .ok (.ok t) ∧
    .doctype (.actual "HTML".toList) ∈ t.events := ⟨_, rfl, by decide⟩

/-- C28, the full claim: the value of an attribute is the text between its quotes. -/
def AttributeValuesVerbatim : Prop :=
  ∀ v : Str, '"' ∉ v → Template.fromStr ("<a b=\"".toList ++ v ++ "\"></a>".toList) {} =
    .ok (.ok ⟨[.openingTag (owned ['a']) [⟨owned ['b'], some (.actual v)⟩],
      .closingTag (owned ['a'])]⟩)

/-- C28 is false: white space at the start of a value is dropped. -/
theorem C28_values_verbatim_false : ¬ AttributeValuesVerbatim := by
  intro h
  have h1 := h " x".toList (by decide)
  have h2 : Template.fromStr ("<a b=\"".toList ++ " x".toList ++ "\"></a>".toList) {} =
    .ok (.ok ⟨[.openingTag (owned ['a']) [⟨owned ['b'], some (.actual "x".toList)⟩],
      .closingTag (owned ['a'])]⟩) := rfl
  rw [h1] at h2
  simp at h2

/-- C28, what holds: the value is the text between the quotes without leading white space.
Missing: the leading white space. -/
theorem C28_values_verbatim_partial :
    (∀ (s : Str) (o : Options) (t : Template), Template.fromStr s o = .ok (.ok t) →
      ∀ e ∈ t.events, ∀ x v, x ∈ attributesOf e → x.value = some v → ∃ p w₁ w₂ w₃ q,
        s = p ++ x.name.str ++ w₁ ++ '=' :: w₂ ++ '"' :: w₃ ++ v.str ++ '"' :: q ∧
        Blank w₁ ∧ Blank w₂ ∧ Blank w₃ ∧ Tight v.str ∧ '"' ∉ v.str) ∧
    ∀ w v : Str, Blank w → Tight v → '"' ∉ v →
      Template.fromStr ("<a b=\"".toList ++ (w ++ v) ++ "\"></a>".toList) {} =
        .ok (.ok ⟨[.openingTag (owned ['a']) [⟨owned ['b'], some (.actual v)⟩],
          .closingTag (owned ['a'])]⟩) := by
  constructor
  · intro s o t h e he x v hx hv
    obtain ⟨-, d, rfl, h2, hr, -⟩ := (C58_accepted_iff s o t).1 h
    rw [← h2] at he
    obtain ⟨p, hp⟩ := mem_events he
    rcases reads_piece hr hp with h | rfl
    · obtain ⟨p', w1, w2, w3, q, rfl, hh⟩ := piece_value h x v hx hv
      obtain ⟨d1, d2, rfl⟩ := List.append_of_mem hp
      exact ⟨Doc.text d1 ++ p', w1, w2, w3, q ++ Doc.text d2, by simp [Doc.text], hh⟩
    · cases hx
  · intro w v hw hv hq
    have hna : Name ['a'] := ⟨validate_iff.1 rfl, by decide⟩
    have hnb : Name ['b'] := ⟨validate_iff.1 rfl, by decide⟩
    have hva : ¬ VoidName ['a'] := by rw [← isVoidTag_iff]; decide
    have hra : ¬ RawName ['a'] := by
      rcases mode_cases ['a'] with ⟨-, r, h, -⟩ | ⟨h, -⟩
      · have : modeForTag ['a'] false = .data := rfl
        rw [this] at h
        cases h
      · exact h
    have hno : ¬ (∃ t, OpensRaw (.closingTag (owned ['a'])) t) := by rintro ⟨t, as, h, -⟩; cases h
    have hblank : Blank [] := by simp [Blank]
    have p1 : Piece (.openingTag (owned ['a']) [⟨owned ['b'], some (.actual v)⟩])
        ('<' :: [] ++ ['a'] ++ [' '] ++
          (['b'] ++ [] ++ '=' :: [] ++ '"' :: w ++ v ++ '"' :: [] ++ ['>'])) := by
      refine .start hblank hna (by simp [Blank]; decide) (by simp [Ends]; decide)
        (.valued hnb hblank (by simp [Ends]; decide) hblank hw hv hq hblank .open) ?_ ?_
        (.opening hva)
      · rintro ⟨r, h⟩; simp at h
      · rintro ⟨w, d, r, h, -⟩; simp at h
    have p2 : Piece (.closingTag (owned ['a'])) ('<' :: [] ++ '/' :: [] ++ ['a'] ++ [] ++ ['>']) :=
      .closing hblank hblank hna hblank (by simp [Ends]; decide)
    refine (C58_accepted_iff _ _ _).2 ⟨by simp [Fits], [(_, _), (_, _)], ?_, rfl,
      .plain p1 ?_ (by simp) (.plain p2 hno (by simp) .nil), ⟨1, ?_⟩, by simp⟩
    · simp [Doc.text]
    · rintro ⟨t, as, h, hr⟩
      simp only [owned, Event.openingTag.injEq, Identifier.mk.injEq, Deferred.actual.injEq] at h
      rw [← h.1] at hr
      exact hra hr
    · refine .element (inner := []) ?_ .nil .nil
      exact .cons (.inl rfl) .nil

example : Template.fromStr "<a b=\"\t x 'y' \"></a>".toList {} =
    .ok (.ok ⟨[.openingTag (owned ['a']) [⟨owned ['b'], some (.actual "x 'y' ".toList)⟩],
      .closingTag (owned ['a'])]⟩) := rfl

/-- C29. When the input ends with unclosed elements, the error names the innermost as `inner` and
all others from the outermost inwards, each with its position. -/
theorem C29_unclosed_reported (s : Str) (o : Options) (inner : Str × Location)
    (others : List (Str × Location)) :
    Template.fromStr s o = .ok (.error (.parse (.missingClosingTags inner others))) ↔
      Fits o.maxInputLen s ∧ ∃ d x st, Doc.text d = s ∧ Reads d [] ∧
        Opens o.maxStackDepth [] [] d (x :: st) ∧ inner = (x.1.str, posAfter x.2) ∧
        others = st.reverse.map fun y => (y.1.str, posAfter y.2) := by
  rw [C59_rejected_iff]
  refine and_congr_right fun _ => ?_
  constructor
  · rintro ⟨d, b, st, hs, hr, ho, -, hf⟩
    cases hf with
    | lex _ h =>
      cases h with
      | openingTail _ _ _ _ _ h => cases h
    | missing => exact ⟨d, _, _, by simp [hs], hr, ho, rfl, rfl⟩
  · rintro ⟨d, x, st, rfl, hr, ho, rfl, rfl⟩
    exact ⟨d, [], x :: st, by simp, hr, ho, .inl rfl, .missing⟩

example : Template.fromStr "<a><b></b>\n<c>x<d>".toList {} =
    .ok (.error (.parse (.missingClosingTags (['d'], ⟨2, 5, 15⟩)
      [(['a'], ⟨1, 1, 0⟩), (['c'], ⟨2, 1, 11⟩)]))) := rfl

/-- C30. `UnexpectedInput` is never reported. -/
theorem C30_no_unexpected_input (s : Str) (o : Options) (l : Location) :
    Template.fromStr s o ≠ .ok (.error (.parse (.unexpectedInput l))) := by
  intro h
  obtain ⟨-, d, b, st, -, -, -, -, hf⟩ := (C59_rejected_iff s o _).1 h
  cases hf with
  | lex _ h => exact lexFail_unexpected h

example : Template.fromStr "<=>".toList {} =
    .ok (.error (.parse (.expectedOpeningTagIdentifier ⟨1, 2, 1⟩))) := rfl

end Fuser
