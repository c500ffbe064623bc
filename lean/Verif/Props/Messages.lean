import Verif.Proof.Messages
import Verif.Proof.Report
import Verif.Proof.Named
import Verif.Props.Parse

/-!
# Properties C63-C69, C92: what errors report
-/

namespace Fuser

open Spec

/-- C63, full statement. For a tag that is started but not finished, the location in the error is
where the tag starts, as documented at the error (`parse.rs` 101-114). It does not hold:
`C63_unfinished_tag_false`. -/
def UnfinishedTagsAtStart : Prop :=
  ∀ (s : Str) (o : Options) (e : ParseError) (closing : Bool) (name : Str) (l : Location),
    Template.fromStr s o = .ok (.error (.parse e)) → unfinished e = some (closing, name, l) →
    TagAt s closing name l

/-- C63 does not hold: for `<a` the location is the end of the text. -/
theorem C63_unfinished_tag_false : ¬ UnfinishedTagsAtStart := by
  intro h
  have h := h "<a".toList {} (.expectedOpeningTagClose ['a'] ⟨1, 3, 2⟩) false ['a'] ⟨1, 3, 2⟩ rfl rfl
  obtain ⟨a, w, w', r, h1, -, -, -, -, -, h2⟩ := h
  have h3 : (a.map Char.utf8Size).sum = 2 := (congrArg Location.offset h2).symm
  match a, h1, h3 with
  | [], _, h3 => simp at h3
  | [c], h1, h3 =>
    obtain ⟨rfl, -⟩ := List.cons.inj h1
    revert h3
    decide
  | _ :: _ :: _, h1, _ =>
    have := congrArg List.length h1
    simp at this

/-- C63, what holds: the location is the place in the tag where its end was expected, the tag with
the reported name starts before it, and there is no `>` at the location. Missing: the location is
the start of the tag. -/
theorem C63_unfinished_tag_partial (s : Str) (o : Options) (e : ParseError) (closing : Bool)
    (name : Str) (l : Location) (h : Template.fromStr s o = .ok (.error (.parse e)))
    (hu : unfinished e = some (closing, name, l)) :
    ∃ a t r, s = a ++ t ++ r ∧ t ≠ [] ∧ TagAt s closing name (posAfter a) ∧ l = posAfter (a ++ t) ∧
      r.head? ≠ some '>' := by
  obtain ⟨-, d, b, st, rfl, hr, ho, -, hf⟩ := (C59_rejected_iff s o e).1 h
  cases hf with
  | lex _ h =>
    cases h with
    | @closingEnd w₁ w₂ _ w₃ r h1 h2 h3 h4 h5 h6 h7 =>
      cases hu
      refine ⟨Doc.text d, '<' :: w₁ ++ '/' :: w₂ ++ name ++ w₃, r, by simp, by simp,
        ⟨Doc.text d, w₁, w₂, w₃ ++ r, by simp, h1, h2, h3.1.1, h3.2, h5, rfl⟩, by simp, h7⟩
    | @openingTail w₁ _ w₂ _ t r _ h1 h2 h3 h4 h5 h6 =>
      cases h6 with
      | noEnd h6 h7 h8 =>
        cases hu
        exact ⟨Doc.text d, '<' :: w₁ ++ name ++ w₂ ++ t, r, by simp, by simp,
          ⟨Doc.text d, w₁, [], w₂ ++ (t ++ r), by simp, h1, by simp [Blank], h2.1.1, h2.2, h4, rfl⟩,
          by simp, h8⟩
      | @noEndSlash w r h6 h7 h8 =>
        cases hu
        exact ⟨Doc.text d, '<' :: w₁ ++ name ++ w₂ ++ t ++ '/' :: w, r, by simp, by simp,
          ⟨Doc.text d, w₁, [], w₂ ++ (t ++ ('/' :: w ++ r)), by simp, h1, by simp [Blank], h2.1.1,
            h2.2, h4, rfl⟩, by simp, h8⟩
      | _ => cases hu
    | _ => cases hu
  | _ => cases hu

example : Template.fromStr "x<p a / y".toList {} =
    .ok (.error (.parse (.expectedOpeningTagClose ['p'] ⟨1, 9, 8⟩))) := rfl

/-- C64, full statement. Parse errors of different kinds have different messages. It does not hold:
`C64_message_kinds_false`. -/
def MessagesTellKinds : Prop :=
  ∀ (s s' : Str) (o o' : Options) (e e' : ParseError),
    Template.fromStr s o = .ok (.error (.parse e)) →
    Template.fromStr s' o' = .ok (.error (.parse e')) →
    e.render = e'.render → parseKind e = parseKind e'

/-- C64 does not hold: the message for an invalid name in a closing tag talks about an opening tag,
so that `</é>` and `< é>` have the same message. -/
theorem C64_message_kinds_false : ¬ MessagesTellKinds := by
  intro h
  have := h "</é>".toList "< é>".toList {} {} (.invalidClosingTagIdentifier ⟨1, 3, 2⟩ .notAscii)
    (.invalidOpeningTagIdentifier ⟨1, 3, 2⟩ .notAscii) rfl rfl rfl
  cases this

/-- C64, what holds: the messages tell the kinds apart, except for invalid names in opening and
closing tags. This is for all parse errors, whether or not some text has them. Missing: telling
those two apart. -/
theorem C64_message_kinds_partial (e e' : ParseError) (h : e.render = e'.render) :
    parseKind e = parseKind e' ∨
    (parseKind e = .openingNameInvalid ∧ parseKind e' = .closingNameInvalid) ∨
    (parseKind e = .closingNameInvalid ∧ parseKind e' = .openingNameInvalid) := by
  have h1 := parse_words e
  have h2 := parse_words e'
  rw [h] at h1
  rcases List.prefix_or_prefix_of_prefix h1 h2 with h | h
  · exact parse_words_apart h
  · rcases parse_words_apart h with h | h | h
    · exact .inl h.symm
    · exact .inr (.inr ⟨h.2, h.1⟩)
    · exact .inr (.inl ⟨h.2, h.1⟩)

example : (ParseError.unclosedComment ⟨1, 2, 1⟩).render ≠
    (ParseError.unclosedDoctype ⟨1, 2, 1⟩).render := by decide

/-- C65. The message of a parse error contains all locations of the error, each after the word "at", except
those of the outer ones of several unclosed elements. Where an error has a single location, the location
can be told from the message. A location is shown as its line, its column and its offset in decimal, and
different positions are never shown alike. -/
theorem C65_message_locations (e e' : ParseError) :
    (∀ l ∈ shownLocations e, " at ".toList ++ l.render <:+: e.render) ∧
    (∀ l l', onlyLocation e = some l → onlyLocation e' = some l' → e.render = e'.render → l = l') ∧
    (∀ l : Location, ∃ a b c, l.render =
        "line ".toList ++ a ++ " column ".toList ++ b ++ " (byte offset ".toList ++ c ++ ")".toList ∧
      (∀ x ∈ a ++ b ++ c, '0' ≤ x ∧ x ≤ '9') ∧ a ≠ [] ∧ b ≠ [] ∧ c ≠ [] ∧
      readNat a = l.line ∧ readNat b = l.column ∧ readNat c = l.offset) ∧
    ∀ l l' : Location, l.render = l'.render → l = l' := by
  refine ⟨fun l h => shown_infix e h, fun l l' h h' hm => ?_, fun l => ?_, fun l l' h => ?_⟩
  · obtain ⟨x, hx⟩ := onlyLocation_suffix e h
    obtain ⟨y, hy⟩ := onlyLocation_suffix e' h'
    exact (location_suffix (hx.symm.trans (hm.trans hy))).2
  · obtain ⟨a1, a2, a3⟩ := formatNat_spec l.line
    obtain ⟨b1, b2, b3⟩ := formatNat_spec l.column
    obtain ⟨c1, c2, c3⟩ := formatNat_spec l.offset
    refine ⟨_, _, _, rfl, fun x hx => ?_, a2, b2, c2, a1, b1, c1⟩
    simp only [List.mem_append] at hx
    rcases hx with (h | h) | h
    · exact a3 x h
    · exact b3 x h
    · exact c3 x h
  · exact (location_suffix (x := []) (y := []) h).2

example : " at ".toList ++ (⟨2, 3, 40⟩ : Location).render <:+:
    (ParseError.missingClosingTags (['p'], ⟨2, 3, 40⟩) [(['q'], ⟨1, 2, 3⟩)]).render :=
  (C65_message_locations _ (.unclosedComment ⟨1, 2, 1⟩)).1 _ (by decide)

/-- C66. From every error of a transform, going from error to cause leads in at most four steps to
the error that says what is wrong, and this has no cause itself. -/
theorem C66_causes (e : StreamError) :
    ∃ n ≤ 4, followed n (.stream e) = some (defect e) ∧ (defect e).cause = none := by
  cases e with
  | assertion e => exact ⟨2, by decide, rfl, rfl⟩
  | input e =>
    cases e with
    | parse e => cases e <;> first | exact ⟨2, by decide, rfl, rfl⟩ | exact ⟨3, by decide, rfl, rfl⟩
    | lengthLimitExceeded n => exact ⟨1, by decide, rfl, rfl⟩
  | file e =>
    cases e with
    | input e =>
      cases e with
      | parse e =>
        cases e <;> first | exact ⟨3, by decide, rfl, rfl⟩ | exact ⟨4, by decide, rfl, rfl⟩
      | lengthLimitExceeded n => exact ⟨2, by decide, rfl, rfl⟩
    | _ => exact ⟨2, by decide, rfl, rfl⟩
  | identifier e => exact ⟨1, by decide, rfl, rfl⟩
  | selector e =>
    cases e with
    | classes e =>
      cases e with
      | empty => exact ⟨2, by decide, rfl, rfl⟩
      | identifier n i => exact ⟨3, by decide, rfl, rfl⟩
    | _ => exact ⟨2, by decide, rfl, rfl⟩
  | staticSelector e =>
    cases e with
    | unrestricted => exact ⟨1, by decide, rfl, rfl⟩
    | _ => exact ⟨2, by decide, rfl, rfl⟩

example : followed 4 (.stream (.file (.input (.parse (.invalidAttributeIdentifier ⟨1, 2, 1⟩
    (.forbidden '&')))))) = some (.identifier (.forbidden '&')) := rfl

/-- C67, full statement. Errors of different types of the crate have different descriptions. It does
not hold: `C67_descriptions_false`. -/
def DescriptionsTellTypes : Prop :=
  ∀ e e' : AnyError, e ≠ .std → e' ≠ .std → e.description = e'.description →
    errorType e = errorType e'

/-- C67 does not hold: errors in static selectors describe themselves as errors in class
selectors. -/
theorem C67_descriptions_false : ¬ DescriptionsTellTypes := by
  intro h
  have := h (.static .unrestricted) (.classes .empty) (by simp) (by simp) rfl
  cases this

/-- C67, what holds: the descriptions tell all other types apart. Missing: telling errors in static
selectors from errors in class selectors. -/
theorem C67_descriptions_partial (e e' : AnyError) (h : e ≠ .std) (h' : e' ≠ .std)
    (hd : e.description = e'.description) :
    errorType e = errorType e' ∨
    (errorType e = .static ∧ errorType e' = .classes) ∨
    (errorType e = .classes ∧ errorType e' = .static) := by
  have key : ∀ a b : Str, a = b → (decide (a = b)) = true := fun a b h => by simp [h]
  have hk := key _ _ hd
  cases e <;> cases e' <;>
    first
    | exact .inl rfl
    | exact .inr (.inl ⟨rfl, rfl⟩)
    | exact .inr (.inr ⟨rfl, rfl⟩)
    | exact absurd rfl h
    | exact absurd rfl h'
    | exact absurd (show false = true from hk) (by decide)

example : (AnyError.selector (.id .empty)).description ≠ (AnyError.static .unrestricted).description :=
  by decide

/-- C68. Within a type of errors, apart from parse errors, the message tells the kind of the error,
the index or limit and the character it is about; and the message of a file error tells the path. -/
theorem C68_messages (path : Str) (e e' : AnyError) (m : Str) (h : messageOf path e = some m)
    (h' : messageOf path e' = some m) (ht : errorType e = errorType e') :
    errorKind e = errorKind e' ∧ numberIn e = numberIn e' ∧ charIn e = charIn e' ∧
    ∀ (f : FileError) path', f.render path = f.render path' → path = path' :=
  ⟨same_kind h h' ht, same_number h h' ht, same_char h h' ht, fun _ _ h => path_inj h⟩

example : (IdentifierError.forbidden '\x01').render =
    "Identifier contains forbidden character '\\u{1}'".toList := by decide

/-- C69. Options built by calls have for each limit the one of the last call about it, and none if
there is no such call. -/
theorem C69_limits (cs : List LimitCall) :
    cs.foldl (fun o c => c.call o) Options.default = ⟨depthAfter cs, lengthAfter cs⟩ := by
  have key : ∀ (cs : List LimitCall) (c : LimitCall),
      (⟨depthAfter (cs ++ [c]), lengthAfter (cs ++ [c])⟩ : Options) =
        c.call ⟨depthAfter cs, lengthAfter cs⟩ := by
    intro cs c
    unfold depthAfter lengthAfter
    cases c with
    | depth l =>
      cases l <;> simp [LimitCall.call, Options.setMaxStackDepth, Options.noMaxStackDepth]
    | length l =>
      cases l <;> simp [LimitCall.call, Options.setMaxInputLen, Options.noMaxInputLen]
  have : ∀ (cs : List LimitCall) (cs' : List LimitCall),
      cs.foldl (fun o c => c.call o) ⟨depthAfter cs', lengthAfter cs'⟩ =
        ⟨depthAfter (cs' ++ cs), lengthAfter (cs' ++ cs)⟩ := by
    intro cs
    induction cs with
    | nil => simp
    | cons c cs ih =>
      intro cs'
      rw [List.foldl_cons, ← key, ih, List.append_assoc]
      rfl
  exact this cs []

example : ((Options.default.setMaxStackDepth 3).setMaxInputLen 9).noMaxStackDepth = ⟨none, some 9⟩ :=
  C69_limits [.depth (some 3), .length (some 9), .depth none]

/-- C92. The message of a parse error of a text tells everything the error names (tags, doctypes, and
attributes in the form `tag.attribute`), the locations it shows, and the limit: errors of any two texts
with the same message agree in these. -/
theorem C92_parse_messages (s s' : Str) (o o' : Options) (e e' : ParseError)
    (h : Template.fromStr s o = .ok (.error (.parse e)))
    (h' : Template.fromStr s' o' = .ok (.error (.parse e'))) (hm : e.render = e'.render) :
    named e = named e' ∧ shownLocations e = shownLocations e' ∧ depthIn e = depthIn e' := by
  refine parse_message hm ?_ ?_
  · intro x hx
    obtain ⟨a, w, w', r, -, -, -, -, hn, -⟩ := C22_located_at_tag s o e h x hx
    exact fun hq => hn _ hq (by decide)
  · intro x hx
    obtain ⟨a, w, w', r, -, -, -, -, hn, -⟩ := C22_located_at_tag s' o' e' h' x hx
    exact fun hq => hn _ hq (by decide)

/-- C92, what is named is shown in quotes. -/
theorem C92_named_quoted (e : ParseError) (x : Str) (h : x ∈ named e) :
    '\'' :: x ++ ['\''] <:+: e.render := named_infix e h

example : "'title'".toList <:+: (ParseError.stackLimitExceeded "title".toList ⟨1, 2, 1⟩ 7).render :=
  C92_named_quoted _ "title".toList (by simp [named])

/-- C92, the list of the unclosed elements: if there are others than the innermost one, the message ends
with the names of all of them, in order, each in quotes, with commas between. -/
theorem C92_unclosed_listed (i : Str × Location) (o : List (Str × Location)) (ho : o ≠ []) :
    "(also unclosed are: ".toList ++ [','].intercalate (o.map fun x => '\'' :: x.1 ++ ['\'']) ++
      ")".toList <:+ (ParseError.missingClosingTags i o).render := by
  cases o with
  | nil => exact absurd rfl ho
  | cons x o =>
    have h : renderOthers 0 (x :: o) =
        [','].intercalate ((x :: o).map fun x => '\'' :: x.1 ++ ['\'']) := others_listed (x :: o) 0
    rw [← h]
    exact List.suffix_append _ _

/-- The names of three unclosed elements, and another order of them. -/
example : Template.fromStr "<a><b><c>".toList {} = .ok (.error (.parse
      (.missingClosingTags (['c'], ⟨1, 7, 6⟩) [(['a'], ⟨1, 1, 0⟩), (['b'], ⟨1, 4, 3⟩)]))) ∧
    Template.fromStr "<b><a><c>".toList {} = .ok (.error (.parse
      (.missingClosingTags (['c'], ⟨1, 7, 6⟩) [(['b'], ⟨1, 1, 0⟩), (['a'], ⟨1, 4, 3⟩)]))) ∧
    (ParseError.missingClosingTags (['c'], ⟨1, 7, 6⟩) [(['a'], ⟨1, 1, 0⟩), (['b'], ⟨1, 4, 3⟩)]).render =
      ("Unclosed 'c' tag starting at line 1 column 7 (byte offset 6)" ++
        "(also unclosed are: 'a','b')").toList := by
  refine ⟨rfl, rfl, by decide +kernel⟩

/-- The tag and the attribute cannot be told apart when there are dots in the names. -/
example : ∃ e e', Template.fromStr "<a.b c=x>".toList {} = .ok (.error (.parse e)) ∧
    Template.fromStr "<a b.c=x>".toList {} = .ok (.error (.parse e')) ∧ e ≠ e' ∧
    e.render = e'.render ∧ named e = ["a.b.c".toList] :=
  ⟨_, _, rfl, rfl, by decide, by decide +kernel, rfl⟩

/-- C92, for malformed streams: the message tells the kind of the event that was found, or that the
stream ended, and the tag that is missing or unexpected. -/
theorem C92_malformed_messages (r r' : MalformedReason) (h : r.render = r'.render) :
    foundIn r = foundIn r' ∧ tagIn r = tagIn r' :=
  malformed_message h

example : (MalformedReason.expectedClosingTag (some (.rawData (.static ['x']))) ⟨.static ['p']⟩).render =
    "Expected closing tag for p, found raw content".toList ∧
    foundIn (.expectedClosingTag (some (.rawData (.static ['x']))) ⟨.static ['p']⟩) =
      some (some .rawData) := by
  refine ⟨by decide +kernel, rfl⟩

end Fuser
