import Verif.Spec.Messages
import Verif.Proof.Encode

/-!
# Helper lemmas on error messages
-/

namespace Fuser

open Spec

theorem digitChar_inj {m n : Nat} (hm : m < 16) (hn : n < 16)
    (h : Nat.digitChar m = Nat.digitChar n) : m = n := by
  have : ∀ m < 16, ∀ n < 16, Nat.digitChar m = Nat.digitChar n → m = n := by decide
  exact this m hm n hn h

theorem toDigits_inj {b : Nat} (hb : 1 < b) (hb' : b ≤ 16) :
    ∀ {m n : Nat}, Nat.toDigits b m = Nat.toDigits b n → m = n := by
  intro m
  induction m using Nat.strongRecOn with
  | ind m ih =>
    intro n h
    by_cases hm : m < b
    · by_cases hn : n < b
      · rw [Nat.toDigits_of_lt_base hm, Nat.toDigits_of_lt_base hn] at h
        exact digitChar_inj (by omega) (by omega) (List.cons.inj h).1
      · rw [Nat.toDigits_of_lt_base hm, Nat.toDigits_of_base_le hb (by omega)] at h
        have := congrArg List.length h
        simp at this
    · by_cases hn : n < b
      · rw [Nat.toDigits_of_lt_base hn, Nat.toDigits_of_base_le hb (by omega)] at h
        have := congrArg List.length h
        simp at this
      · rw [Nat.toDigits_of_base_le (n := m) hb (by omega),
          Nat.toDigits_of_base_le (n := n) hb (by omega)] at h
        obtain ⟨h1, h2⟩ := List.append_inj' h rfl
        have h3 := ih (m / b) (Nat.div_lt_self (by omega) hb) h1
        have h4 := digitChar_inj (Nat.lt_of_lt_of_le (Nat.mod_lt _ (by omega)) hb')
          (Nat.lt_of_lt_of_le (Nat.mod_lt _ (by omega)) hb') (List.cons.inj h2).1
        rw [← Nat.div_add_mod m b, ← Nat.div_add_mod n b, h3, h4]

theorem formatNat_inj {m n : Nat} (h : formatNat m = formatNat n) : m = n :=
  toDigits_inj (by decide) (by decide) h

/-- A block of digits after a character that is no digit. -/
theorem cut_digits {x y d d' : Str} {c : Char} (hc : ¬ ('0' ≤ c ∧ c ≤ '9'))
    (hd : ∀ z ∈ d, '0' ≤ z ∧ z ≤ '9') (hd' : ∀ z ∈ d', '0' ≤ z ∧ z ≤ '9')
    (h : x ++ c :: d = y ++ c :: d') : x = y ∧ d = d' := by
  rcases List.append_eq_append_iff.1 h with ⟨u, rfl, h2⟩ | ⟨u, rfl, h2⟩
  · cases u with
    | nil => simp at h2; simp [h2]
    | cons z u =>
      obtain ⟨rfl, h3⟩ := List.cons.inj h2
      exact absurd (hd c (by rw [h3]; simp)) hc
  · cases u with
    | nil => simp at h2; simp [h2]
    | cons z u =>
      obtain ⟨rfl, h3⟩ := List.cons.inj h2
      exact absurd (hd' c (by rw [h3]; simp)) hc

/-- A number after a fixed text that does not end with a digit. -/
theorem cut_number {x y s : Str} {c : Char} {m n : Nat} (hc : ¬ ('0' ≤ c ∧ c ≤ '9'))
    (h : x ++ s ++ [c] ++ formatNat m = y ++ s ++ [c] ++ formatNat n) : x = y ∧ m = n := by
  have h' : (x ++ s) ++ c :: formatNat m = (y ++ s) ++ c :: formatNat n := by simpa using h
  obtain ⟨h1, h2⟩ := cut_digits hc (formatNat_spec m).2.2 (formatNat_spec n).2.2 h'
  exact ⟨List.append_cancel_right h1, formatNat_inj h2⟩

theorem location_suffix {x y : Str} {l l' : Location} (h : x ++ l.render = y ++ l'.render) :
    x = y ∧ l = l' := by
  have key : ∀ {s₁ s₂ s₃ : Str} {a b c a' b' c' : Nat} {z : Str},
      x ++ ((s₁ ++ [' ']) ++ formatNat a ++ (s₂ ++ [' ']) ++ formatNat b ++ (s₃ ++ [' ']) ++
        formatNat c ++ z) =
      y ++ ((s₁ ++ [' ']) ++ formatNat a' ++ (s₂ ++ [' ']) ++ formatNat b' ++ (s₃ ++ [' ']) ++
        formatNat c' ++ z) → x = y ∧ a = a' ∧ b = b' ∧ c = c' := by
    intro s₁ s₂ s₃ a b c a' b' c' z h
    simp only [← List.append_assoc] at h
    obtain ⟨h1, e1⟩ := cut_number (by decide) (List.append_cancel_right h)
    obtain ⟨h2, e2⟩ := cut_number (by decide) h1
    obtain ⟨h3, e3⟩ := cut_number (by decide) h2
    exact ⟨h3, e3, e2, e1⟩
  obtain ⟨a, b, c⟩ := l
  obtain ⟨a', b', c'⟩ := l'
  obtain ⟨h1, rfl, rfl, rfl⟩ := key (s₁ := "line".toList) (s₂ := " column".toList)
    (s₃ := " (byte offset".toList) h
  exact ⟨h1, rfl⟩

/-- How the messages of a kind of parse errors start. -/
def parseWords : ParseKind → Str
  | .doctypeUnsupported => "Unsupported".toList
  | .doctypeUnclosed => "Unclosed doctype".toList
  | .commentUnclosed => "Unclosed comment".toList
  | .openingUnfinished => "Unfinished opening".toList
  | .closingUnfinished => "Unfinished closing".toList
  | .openingNameMissing => "Expected an identifier for opening".toList
  | .openingNameInvalid => "Invalid opening".toList
  | .closingNameMissing => "Expected an identifier for closing".toList
  | .closingNameInvalid => "Invalid opening".toList
  | .attributeNameInvalid => "Invalid attribute identifier".toList
  | .valueInvalid => "Invalid attribute value".toList
  | .valueUnclosed => "Unclosed attribute".toList
  | .unexpectedInput => "Unexpected input".toList
  | .elementsUnclosed => "Unclosed '".toList
  | .tooDeep => "Stack".toList
  | .closingUnexpected => "Unexpected closing".toList
  | .closingMismatched => "Closing".toList

theorem take_append_prefix {w s t : Str} (h : s.take w.length = w) : w <+: s ++ t := by
  have h1 : w <+: s := by
    rw [← h]
    exact List.take_prefix _ _
  exact h1.trans (List.prefix_append _ _)

/-- The text before the first variable part of the messages of a kind of parse errors. -/
def parseIntro : ParseKind → Str
  | .doctypeUnsupported => "Unsupported doctype '".toList
  | .doctypeUnclosed => "Unclosed doctype directive at ".toList
  | .commentUnclosed => "Unclosed comment directive at ".toList
  | .openingUnfinished => "Unfinished opening tag '".toList
  | .closingUnfinished => "Unfinished closing tag '".toList
  | .openingNameMissing => "Expected an identifier for opening tag at ".toList
  | .openingNameInvalid => "Invalid opening tag identifier at ".toList
  | .closingNameMissing => "Expected an identifier for closing tag at ".toList
  | .closingNameInvalid => "Invalid opening tag identifier at ".toList
  | .attributeNameInvalid => "Invalid attribute identifier at ".toList
  | .valueInvalid => "Invalid attribute value for '".toList
  | .valueUnclosed => "Unclosed attribute value for '".toList
  | .unexpectedInput => "Unexpected input at ".toList
  | .elementsUnclosed => "Unclosed '".toList
  | .tooDeep => "Stack limit (".toList
  | .closingUnexpected => "Unexpected closing tag '".toList
  | .closingMismatched => "Closing tag '".toList

theorem parse_intro_words (k : ParseKind) :
    (parseIntro k).take (parseWords k).length = parseWords k := by
  cases k <;> decide +kernel

theorem parse_intro (e : ParseError) : parseIntro (parseKind e) <+: e.render := by
  cases e <;> unfold ParseError.render <;> simp only [List.append_assoc] <;>
    exact List.prefix_append _ _

theorem parse_words (e : ParseError) : parseWords (parseKind e) <+: e.render := by
  obtain ⟨t, h⟩ := parse_intro e
  rw [← h]
  exact take_append_prefix (parse_intro_words _)

theorem parse_words_apart {k k' : ParseKind} (h : parseWords k <+: parseWords k') :
    k = k' ∨ (k = .openingNameInvalid ∧ k' = .closingNameInvalid) ∨
      (k = .closingNameInvalid ∧ k' = .openingNameInvalid) := by
  revert h
  cases k <;> cases k' <;> decide

theorem onlyLocation_suffix (e : ParseError) {l : Location} (h : onlyLocation e = some l) :
    ∃ x, e.render = x ++ l.render := by
  cases e with
  | missingClosingTags i o =>
    obtain ⟨t, l'⟩ := i
    cases o with
    | nil =>
      cases h
      exact ⟨_, by unfold ParseError.render; exact List.append_nil _⟩
    | cons x o => cases h
  | mismatchedClosingTag t l t' l' => cases h
  | _ =>
    cases h
    exact ⟨_, rfl⟩

theorem infix_of_suffix {a x y z : Str} (h : a <:+ x) : a ++ y <:+: x ++ y ++ z := by
  obtain ⟨b, rfl⟩ := h
  exact ⟨b, z, by simp⟩

theorem infix_end {a x y : Str} (h : a <:+ x) : a ++ y <:+: x ++ y := by
  obtain ⟨b, rfl⟩ := h
  exact ⟨b, [], by simp⟩

theorem shown_infix (e : ParseError) {l : Location} (h : l ∈ shownLocations e) :
    " at ".toList ++ l.render <:+: e.render := by
  cases e with
  | missingClosingTags i o =>
    obtain ⟨t, l'⟩ := i
    obtain rfl : l = l' := by simpa [shownLocations] using h
    unfold ParseError.render
    exact infix_of_suffix ((by decide : " at ".toList <:+ "' tag starting at ".toList).trans
      (List.suffix_append _ _))
  | mismatchedClosingTag t l₁ t' l₂ =>
    have h : l = l₁ ∨ l = l₂ := by simpa [shownLocations, locations] using h
    rcases h with rfl | rfl
    · unfold ParseError.render
      simp only [List.append_assoc (_ ++ Location.render _)]
      exact infix_of_suffix ((by decide : " at ".toList <:+ "' at ".toList).trans
        (List.suffix_append _ _))
    · unfold ParseError.render
      exact infix_end ((by decide : " at ".toList <:+ "' at ".toList).trans (List.suffix_append _ _))
  | _ =>
    have h := List.mem_singleton.1 h
    subst h
    unfold ParseError.render
    first
      | exact infix_end (by decide)
      | exact infix_end ((by decide : " at ".toList <:+ "' at ".toList).trans (List.suffix_append _ _))

theorem char_toNat_inj {c d : Char} (h : c.toNat = d.toNat) : c = d := by
  rw [← Char.ofNat_toNat c, ← Char.ofNat_toNat d, h]

theorem escapeDefault_cases (c : Char) :
    ((c, escapeDefault c) ∈ [('\t', ['\\', 't']), ('\r', ['\\', 'r']), ('\n', ['\\', 'n']),
      ('\'', ['\\', '\'']), ('"', ['\\', '"']), ('\\', ['\\', '\\'])]) ∨
    escapeDefault c = [c] ∨
    escapeDefault c = '\\' :: 'u' :: '{' :: (Nat.toDigits 16 c.toNat ++ ['}']) := by
  unfold escapeDefault
  iterate 6
    split
    next h => subst h; exact .inl (by simp)
  split
  · exact .inr (.inl rfl)
  · exact .inr (.inr rfl)

theorem escapeDefault_inj {c d : Char} (h : escapeDefault c = escapeDefault d) : c = d := by
  rcases escapeDefault_cases c with hc | hc | hc <;> rcases escapeDefault_cases d with hd | hd | hd
  · rw [h] at hc
    generalize escapeDefault d = x at hc hd
    have key : ∀ p ∈ [('\t', ['\\', 't']), ('\r', ['\\', 'r']), ('\n', ['\\', 'n']),
      ('\'', ['\\', '\'']), ('"', ['\\', '"']), ('\\', ['\\', '\\'])],
      ∀ q ∈ [('\t', ['\\', 't']), ('\r', ['\\', 'r']), ('\n', ['\\', 'n']),
      ('\'', ['\\', '\'']), ('"', ['\\', '"']), ('\\', ['\\', '\\'])],
      p.2 = q.2 → p.1 = q.1 := by decide
    exact key _ hc _ hd rfl
  · simp [h, hd] at hc
  · simp [h, hd] at hc
  · simp [← h, hc] at hd
  · rw [hc, hd] at h
    exact (List.cons.inj h).1
  · rw [hc, hd] at h
    simp at h
  · simp [← h, hc] at hd
  · rw [hc, hd] at h
    simp at h
  · rw [hc, hd] at h
    simp only [List.cons.injEq, true_and, List.append_cancel_right_eq] at h
    exact char_toNat_inj (toDigits_inj (by decide) (by decide) h)

/-- How the messages of a kind of errors start. -/
def kindWords : ErrorType → ErrorKind → Str
  | .identifier, .empty => "Value".toList
  | .identifier, .notAscii => "Identifier contains non".toList
  | .identifier, .forbidden => "Identifier contains forbidden character '".toList
  | .identifier, .whitespace => "Identifier contains whitespace character '".toList
  | .input, .parse => "Unable".toList
  | .input, .tooLong => "Input length limit (".toList
  | .file, .input => "Unable to process".toList
  | .file, .opening => "Unable to open".toList
  | .file, .reading => "Unable to read".toList
  | .file, .decoding => "Unable to decode".toList
  | .classes, .empty => "List".toList
  | .classes, .identifier => "Invalid identifier for class selector at index ".toList
  | .selector, .id => "Invalid identifier for id".toList
  | .selector, .tag => "Invalid identifier for tag".toList
  | .selector, .class => "Invalid identifier for class".toList
  | .selector, .classes => "Invalid classes".toList
  | .static, .unrestricted => "Empty".toList
  | .static, .id => "Invalid identifier for id".toList
  | .static, .tag => "Invalid identifier for tag".toList
  | .static, .class => "Invalid identifier for class (index ".toList
  | .malformed, .closingUnexpected => "Unexpected".toList
  | .malformed, .openingExpected => "Expected opening tag".toList
  | .malformed, .closingExpected => "Expected closing tag".toList
  | .stream, .assertion => "An".toList
  | .stream, .input => "Input error for inserted content".toList
  | .stream, .file => "Input error for inserted file".toList
  | .stream, .identifier => "Invalid attribute".toList
  | .stream, .selector => "Invalid element".toList
  | .stream, .static => "Invalid static".toList
  | _, _ => []

theorem prefix_of_take {w s : Str} (h : s.take w.length = w) : w <+: s := by
  have := take_append_prefix (t := []) h
  rwa [List.append_nil] at this

theorem kind_words {path : Str} {e : AnyError} {m : Str} (h : messageOf path e = some m) :
    kindWords (errorType e) (errorKind e) <+: m := by
  cases e with
  | identifier e =>
    cases h
    cases e with
    | empty => exact prefix_of_take rfl
    | notAscii => exact prefix_of_take rfl
    | forbidden c =>
      unfold IdentifierError.render
      simp only [List.append_assoc]
      exact take_append_prefix rfl
    | whitespace c =>
      unfold IdentifierError.render
      simp only [List.append_assoc]
      exact take_append_prefix rfl
  | input e =>
    cases h
    cases e with
    | parse e => exact prefix_of_take rfl
    | lengthLimitExceeded n =>
      unfold InputError.render
      simp only [List.append_assoc]
      exact take_append_prefix rfl
  | file e =>
    cases h
    unfold FileError.render
    cases e <;> simp only [List.append_assoc (_ ++ _)] <;> exact take_append_prefix rfl
  | id e => exact List.nil_prefix
  | tag e => exact List.nil_prefix
  | «class» e => exact List.nil_prefix
  | classes e =>
    cases h
    cases e with
    | empty => exact prefix_of_take rfl
    | identifier n i => exact take_append_prefix rfl
  | selector e =>
    cases h
    cases e <;> exact prefix_of_take rfl
  | static e =>
    cases h
    cases e with
    | «class» n i =>
      unfold StaticError.render
      simp only [List.append_assoc]
      exact take_append_prefix rfl
    | _ => exact prefix_of_take rfl
  | malformed e =>
    cases h
    cases e with
    | expectedOpeningTag e => exact take_append_prefix rfl
    | _ =>
      unfold MalformedReason.render
      simp only [List.append_assoc]
      exact take_append_prefix rfl
  | stream e =>
    cases h
    cases e <;> exact prefix_of_take rfl
  | parse e => cases h
  | assertion e => cases h
  | std => cases h

/-- The kinds of errors of a type. -/
def kindsOf : ErrorType → List ErrorKind
  | .identifier => [.empty, .notAscii, .forbidden, .whitespace]
  | .input => [.parse, .tooLong]
  | .file => [.input, .opening, .reading, .decoding]
  | .id => [.identifier]
  | .tag => [.identifier]
  | .class => [.identifier]
  | .classes => [.empty, .identifier]
  | .selector => [.id, .tag, .class, .classes]
  | .static => [.unrestricted, .id, .tag, .class]
  | .malformed => [.closingUnexpected, .openingExpected, .closingExpected]
  | .stream => [.assertion, .input, .file, .identifier, .selector, .static]
  | _ => [.none]

theorem kind_mem (e : AnyError) : errorKind e ∈ kindsOf (errorType e) := by
  cases e with
  | identifier e => cases e <;> simp [errorKind, errorType, kindsOf]
  | input e => cases e <;> simp [errorKind, errorType, kindsOf]
  | file e => cases e <;> simp [errorKind, errorType, kindsOf]
  | classes e => cases e <;> simp [errorKind, errorType, kindsOf]
  | selector e => cases e <;> simp [errorKind, errorType, kindsOf]
  | static e => cases e <;> simp [errorKind, errorType, kindsOf]
  | malformed e => cases e <;> simp [errorKind, errorType, kindsOf]
  | stream e => cases e <;> simp [errorKind, errorType, kindsOf]
  | _ => simp [errorKind, errorType, kindsOf]

theorem kind_words_apart (t : ErrorType) :
    ∀ k ∈ kindsOf t, ∀ k' ∈ kindsOf t, kindWords t k <+: kindWords t k' → k = k' := by
  cases t <;> decide

theorem same_kind {path : Str} {e e' : AnyError} {m : Str} (h : messageOf path e = some m)
    (h' : messageOf path e' = some m) (ht : errorType e = errorType e') :
    errorKind e = errorKind e' := by
  have h1 := kind_words h
  have h2 := kind_words h'
  have m1 := kind_mem e
  have m2 := kind_mem e'
  rw [← ht] at h2 m2
  rcases List.prefix_or_prefix_of_prefix h1 h2 with h | h
  · exact kind_words_apart _ _ m1 _ m2 h
  · exact (kind_words_apart _ _ m2 _ m1 h).symm

/-- A variable part between fixed texts. -/
theorem cut_between {a b x y : Str} (h : a ++ x ++ b = a ++ y ++ b) : x = y :=
  List.append_cancel_left (List.append_cancel_right h)

theorem same_number {path : Str} {e e' : AnyError} {m : Str} (h : messageOf path e = some m)
    (h' : messageOf path e' = some m) (ht : errorType e = errorType e') :
    numberIn e = numberIn e' := by
  have hk := same_kind h h' ht
  have hm := h.trans h'.symm
  cases e <;> cases e' <;> first | cases ht | skip
  case input.input e e' =>
    have hm : e.render = e'.render := Option.some.inj hm
    cases e <;> cases e' <;> first | rfl | cases hk | skip
    exact congrArg some (formatNat_inj (cut_between hm))
  case classes.classes e e' =>
    have hm : e.render = e'.render := Option.some.inj hm
    cases e <;> cases e' <;> first | rfl | cases hk | skip
    exact congrArg some (formatNat_inj (List.append_cancel_left hm))
  case static.static e e' =>
    have hm : e.render = e'.render := Option.some.inj hm
    cases e <;> cases e' <;> first | rfl | cases hk | skip
    exact congrArg some (formatNat_inj (cut_between hm))
  all_goals rfl

theorem same_char {path : Str} {e e' : AnyError} {m : Str} (h : messageOf path e = some m)
    (h' : messageOf path e' = some m) (ht : errorType e = errorType e') :
    charIn e = charIn e' := by
  have hk := same_kind h h' ht
  have hm := h.trans h'.symm
  cases e <;> cases e' <;> first | cases ht | skip
  case identifier.identifier e e' =>
    have hm : e.render = e'.render := Option.some.inj hm
    cases e <;> cases e' <;> first | rfl | cases hk | skip
    · exact congrArg some (escapeDefault_inj (cut_between hm))
    · exact congrArg some (escapeDefault_inj (cut_between hm))
  all_goals rfl

theorem path_inj {p p' : Str} {e : FileError} (h : e.render p = e.render p') : p = p' :=
  cut_between (by unfold FileError.render at h; exact h)

end Fuser
