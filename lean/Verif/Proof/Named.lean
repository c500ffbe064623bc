import Verif.Proof.Messages
import Verif.Proof.Report

/-!
# What the messages of errors name
-/

namespace Fuser

open Spec

/-- Everything before a character that does not occur before. -/
theorem cut_at {x y r r' : Str} {c : Char} (hx : c ∉ x) (hy : c ∉ y)
    (h : x ++ c :: r = y ++ c :: r') : x = y ∧ r = r' := by
  induction x generalizing y with
  | nil =>
    cases y with
    | nil => exact ⟨rfl, (List.cons.inj h).2⟩
    | cons d y =>
      obtain ⟨rfl, -⟩ := List.cons.inj h
      exact absurd (List.mem_cons_self ..) hy
  | cons d x ih =>
    cases y with
    | nil =>
      obtain ⟨rfl, -⟩ := List.cons.inj h
      exact absurd (List.mem_cons_self ..) hx
    | cons d' y =>
      obtain ⟨rfl, h'⟩ := List.cons.inj h
      obtain ⟨h1, h2⟩ := ih (fun h => hx (List.mem_cons_of_mem _ h))
        (fun h => hy (List.mem_cons_of_mem _ h)) h'
      exact ⟨congrArg (List.cons d) h1, h2⟩

theorem formatNat_no {c : Char} (hc : ¬ ('0' ≤ c ∧ c ≤ '9')) (n : Nat) : c ∉ formatNat n :=
  fun h => hc ((formatNat_spec n).2.2 c h)

theorem location_prefix {l l' : Location} {r r' : Str} (h : l.render ++ r = l'.render ++ r') :
    l = l' ∧ r = r' := by
  have key : ∀ {s₁ s₂ s₃ z : Str} {a b c a' b' c' : Nat},
      s₁ ++ formatNat a ++ (' ' :: s₂) ++ formatNat b ++ (' ' :: s₃) ++ formatNat c ++ (')' :: z) ++ r =
      s₁ ++ formatNat a' ++ (' ' :: s₂) ++ formatNat b' ++ (' ' :: s₃) ++ formatNat c' ++ (')' :: z) ++ r' →
        a = a' ∧ b = b' ∧ c = c' ∧ r = r' := by
    intro s₁ s₂ s₃ z a b c a' b' c' h
    simp only [List.append_assoc, List.cons_append] at h
    have h := List.append_cancel_left h
    obtain ⟨e1, h⟩ := cut_at (formatNat_no (by decide) _) (formatNat_no (by decide) _) h
    have h := List.append_cancel_left h
    obtain ⟨e2, h⟩ := cut_at (formatNat_no (by decide) _) (formatNat_no (by decide) _) h
    have h := List.append_cancel_left h
    obtain ⟨e3, h⟩ := cut_at (formatNat_no (by decide) _) (formatNat_no (by decide) _) h
    exact ⟨formatNat_inj e1, formatNat_inj e2, formatNat_inj e3, List.append_cancel_left h⟩
  obtain ⟨a, b, c⟩ := l
  obtain ⟨a', b', c'⟩ := l'
  obtain ⟨rfl, rfl, rfl, hr⟩ := key (s₁ := "line ".toList) (s₂ := "column ".toList)
    (s₃ := "(byte offset ".toList) (z := []) h
  exact ⟨rfl, hr⟩

/-- Two texts with fixed beginnings that differ, read from the end. -/
theorem ends_apart {x y a b : Str} (h : x ++ a = y ++ b) : a <:+ b ∨ b <:+ a := by
  rcases List.append_eq_append_iff.1 h with ⟨u, -, h⟩ | ⟨u, -, h⟩
  · exact .inr ⟨u, h.symm⟩
  · exact .inl ⟨u, h.symm⟩

/-- What is said about the event found. -/
def foundWords : Option EventKind → Str
  | none => ", found end of input".toList
  | some .noop => ", found noop".toList
  | some .doctype => ", found doctype".toList
  | some .comment => ", found comment".toList
  | some .data => ", found content".toList
  | some .rawData => ", found raw content".toList
  | some .opening => ", found opening tag".toList
  | some .closing => ", found closing tag".toList
  | some .selfClosed => ", found self-closed tag".toList
  | some .void => ", found void tag".toList

theorem found_words (e : Option Event) : ", found ".toList ++ found e = foundWords (e.map eventKind) := by
  cases e with
  | none => rfl
  | some e => cases e <;> rfl

theorem found_words_apart {k k' : Option EventKind} (h : foundWords k <:+ foundWords k') : k = k' := by
  rcases k with _ | k <;> rcases k' with _ | k'
  · rfl
  · revert h; cases k' <;> decide
  · revert h; cases k <;> decide
  · revert h; cases k <;> cases k' <;> decide

theorem found_inj {x y : Str} {k k' : Option EventKind} (h : x ++ foundWords k = y ++ foundWords k') :
    x = y ∧ k = k' := by
  have : k = k' := by
    rcases ends_apart h with h | h
    · exact found_words_apart h
    · exact (found_words_apart h).symm
  subst this
  exact ⟨List.append_cancel_right h, rfl⟩

theorem identifier_render (i : Identifier) : i.render = i.str := by
  obtain ⟨d⟩ := i
  cases d <;> rfl

theorem opening_message (e : Option Event) : (MalformedReason.expectedOpeningTag e).render =
    "Expected opening tag".toList ++ foundWords (e.map eventKind) := by
  have split : "Expected opening tag, found ".toList =
    "Expected opening tag".toList ++ ", found ".toList := by decide +kernel
  have : (MalformedReason.expectedOpeningTag e).render =
    "Expected opening tag, found ".toList ++ found e := rfl
  rw [this, split, List.append_assoc, found_words]

theorem closing_message (e : Option Event) (t : Identifier) :
    (MalformedReason.expectedClosingTag e t).render =
      "Expected closing tag for ".toList ++ t.render ++ foundWords (e.map eventKind) := by
  have : (MalformedReason.expectedClosingTag e t).render =
    "Expected closing tag for ".toList ++ t.render ++ ", found ".toList ++ found e := rfl
  rw [this, List.append_assoc _ ", found ".toList, found_words]

theorem malformed_message {r r' : MalformedReason} (h : r.render = r'.render) :
    foundIn r = foundIn r' ∧ tagIn r = tagIn r' := by
  have hk := same_kind (path := []) (e := .malformed r) (e' := .malformed r') rfl (congrArg some h.symm) rfl
  cases r with
  | unexpectedClosingTag t =>
    cases r' with
    | unexpectedClosingTag t' =>
      refine ⟨rfl, ?_⟩
      have := cut_between (a := "Unexpected closing tag for '".toList) (b := "'".toList) h
      rw [identifier_render, identifier_render] at this
      exact congrArg some this
    | _ => cases hk
  | expectedOpeningTag e =>
    cases r' with
    | expectedOpeningTag e' =>
      rw [opening_message, opening_message] at h
      exact ⟨congrArg some (found_inj h).2, rfl⟩
    | _ => cases hk
  | expectedClosingTag e t =>
    cases r' with
    | expectedClosingTag e' t' =>
      rw [closing_message, closing_message] at h
      obtain ⟨h1, h2⟩ := found_inj h
      have := List.append_cancel_left h1
      rw [identifier_render, identifier_render] at this
      exact ⟨congrArg some h2, congrArg some this⟩
    | _ => cases hk

theorem others_listed (o : List (Str × Location)) (n : Nat) :
    renderOthers n o = (if n ≠ 0 ∧ o ≠ [] then [','] else []) ++
      [','].intercalate (o.map fun x => '\'' :: x.1 ++ ['\'']) := by
  induction o generalizing n with
  | nil => simp [renderOthers, List.intercalate]
  | cons x o ih =>
    obtain ⟨t, l⟩ := x
    rw [renderOthers, ih]
    cases o with
    | nil => cases n <;> simp [List.intercalate]
    | cons y o => cases n <;> simp [List.intercalate]

theorem quoted_infix {p x q r : Str} (hp : ['\''] <:+ p) (hq : ['\''] <+: q) :
    '\'' :: x ++ ['\''] <:+: p ++ x ++ q ++ r := by
  obtain ⟨a, rfl⟩ := hp
  obtain ⟨b, rfl⟩ := hq
  exact ⟨a, b ++ r, by simp⟩

theorem others_infix {o : List (Str × Location)} {x : Str × Location} (h : x ∈ o) :
    ∀ n, '\'' :: x.1 ++ ['\''] <:+: renderOthers n o := by
  induction o with
  | nil => cases h
  | cons y o ih =>
    intro n
    obtain ⟨t, l⟩ := y
    rw [renderOthers]
    rcases List.mem_cons.1 h with rfl | h
    · exact quoted_infix (List.suffix_append _ _) (List.prefix_refl _)
    · exact (ih h _).trans (List.suffix_append _ _).isInfix

/-- What is named stands in quotes. -/
theorem named_infix (e : ParseError) {x : Str} (h : x ∈ named e) :
    '\'' :: x ++ ['\''] <:+: e.render := by
  cases e with
  | missingClosingTags i o =>
    obtain ⟨t, l⟩ := i
    unfold ParseError.render
    rcases List.mem_cons.1 h with rfl | h
    · exact (quoted_infix (r := l.render) (by decide : ['\''] <:+ "Unclosed '".toList)
        (by decide : ['\''] <+: "' tag starting at ".toList)).trans (List.prefix_append _ _).isInfix
    · obtain ⟨y, hy, rfl⟩ := List.mem_map.1 h
      have ho : o.isEmpty = false := by cases o with
        | nil => cases hy
        | cons => rfl
      simp only [ho, Bool.false_eq_true, if_false]
      refine .trans ?_ (List.suffix_append _ _).isInfix
      refine .trans ?_ (List.prefix_append _ _).isInfix
      exact (others_infix hy 0).trans (List.suffix_append _ _).isInfix
  | mismatchedClosingTag t l t' l' =>
    have h : x = t ∨ x = t' := by simpa [named] using h
    unfold ParseError.render
    rcases h with rfl | rfl
    · have h1 := quoted_infix (x := x) (r := l.render) (by decide : ['\''] <:+ "Closing tag '".toList)
        (by decide : ['\''] <+: "' at ".toList)
      refine h1.trans ?_
      exact ⟨[], " does not match opening tag '".toList ++ (t' ++ ("' at ".toList ++ l'.render)),
        by simp only [List.nil_append, List.append_assoc]⟩
    · exact quoted_infix ((by decide : ['\''] <:+ " does not match opening tag '".toList).trans
        (List.suffix_append _ _)) (by decide : ['\''] <+: "' at ".toList)
  | invalidAttributeValue l t n =>
    obtain rfl : x = t ++ '.' :: n := by simpa [named] using h
    have h1 := quoted_infix (x := t ++ '.' :: n) (r := l.render)
      (by decide : ['\''] <:+ "Invalid attribute value for '".toList)
      (by decide : ['\''] <+: "' at ".toList)
    unfold ParseError.render
    rw [show ".".toList = ['.'] from rfl]
    simpa only [List.append_assoc, List.cons_append, List.nil_append] using h1
  | unclosedAttributeValue l t n =>
    obtain rfl : x = t ++ '.' :: n := by simpa [named] using h
    have h1 := quoted_infix (x := t ++ '.' :: n) (r := l.render)
      (by decide : ['\''] <:+ "Unclosed attribute value for '".toList)
      (by decide : ['\''] <+: "' at ".toList)
    unfold ParseError.render
    rw [show ".".toList = ['.'] from rfl]
    simpa only [List.append_assoc, List.cons_append, List.nil_append] using h1
  | stackLimitExceeded t l n =>
    obtain rfl : x = t := by simpa [named] using h
    exact quoted_infix ((by decide : ['\''] <:+ ") exceeded by tag '".toList).trans
      (List.suffix_append _ _)) (by decide)
  | unsupportedDoctype l t =>
    obtain rfl : x = t := by simpa [named] using h
    exact quoted_infix (by decide) (by decide)
  | expectedOpeningTagClose t l =>
    obtain rfl : x = t := by simpa [named] using h
    exact quoted_infix (by decide) (by decide)
  | expectedClosingTagClose t l =>
    obtain rfl : x = t := by simpa [named] using h
    exact quoted_infix (by decide) (by decide)
  | unexpectedClosingTag t l =>
    obtain rfl : x = t := by simpa [named] using h
    exact quoted_infix (by decide) (by decide)
  | _ => cases h

theorem others_inj {o o' : List (Str × Location)} {n : Nat} (ho : ∀ x ∈ o, '\'' ∉ x.1)
    (ho' : ∀ x ∈ o', '\'' ∉ x.1) (h : renderOthers n o = renderOthers n o') :
    o.map Prod.fst = o'.map Prod.fst := by
  induction o generalizing o' n with
  | nil =>
    cases o' with
    | nil => rfl
    | cons x o' =>
      have := congrArg List.length h
      simp [renderOthers] at this
  | cons x o ih =>
    cases o' with
    | nil =>
      have := congrArg List.length h
      simp [renderOthers] at this
    | cons x' o' =>
      simp only [renderOthers, List.append_assoc] at h
      have h := List.append_cancel_left (List.append_cancel_left h)
      rw [List.forall_mem_cons] at ho ho'
      obtain ⟨h1, h2⟩ := cut_at (c := '\'') ho.1 ho'.1 h
      rw [List.map_cons, List.map_cons, h1, ih ho.2 ho'.2 h2]

/-- A name between fixed texts, with a location at the end. -/
theorem name_inj {a b x y : Str} {l l' : Location} (h : a ++ x ++ b ++ l.render = a ++ y ++ b ++ l'.render) :
    x = y ∧ l = l' := by
  obtain ⟨h, hl⟩ := location_suffix h
  exact ⟨cut_between h, hl⟩

theorem dotted_inj {a b t t' n n' : Str} {l l' : Location}
    (h : a ++ t ++ ['.'] ++ n ++ b ++ l.render = a ++ t' ++ ['.'] ++ n' ++ b ++ l'.render) :
    t ++ '.' :: n = t' ++ '.' :: n' ∧ l = l' := by
  obtain ⟨h, hl⟩ := location_suffix h
  have h := List.append_cancel_right h
  simp only [List.append_assoc, List.cons_append, List.nil_append] at h
  exact ⟨List.append_cancel_left h, hl⟩

theorem unclosed_inj {a b : Str} {i i' : Str × Location} {o o' : List (Str × Location)}
    (hi : '\'' ∉ i.1) (hi' : '\'' ∉ i'.1) (ho : ∀ x ∈ o, '\'' ∉ x.1) (ho' : ∀ x ∈ o', '\'' ∉ x.1)
    (h : a ++ i.1 ++ ('\'' :: b) ++ i.2.render ++
        (if o.isEmpty then [] else "(also unclosed are: ".toList ++ renderOthers 0 o ++ ")".toList) =
      a ++ i'.1 ++ ('\'' :: b) ++ i'.2.render ++
        (if o'.isEmpty then [] else "(also unclosed are: ".toList ++ renderOthers 0 o' ++ ")".toList)) :
    (i :: o).map Prod.fst = (i' :: o').map Prod.fst ∧ i.2 = i'.2 := by
  simp only [List.append_assoc, List.cons_append] at h
  obtain ⟨h1, h⟩ := cut_at hi hi' (List.append_cancel_left h)
  obtain ⟨h2, h⟩ := location_prefix (List.append_cancel_left h)
  refine ⟨?_, h2⟩
  rw [List.map_cons, List.map_cons, h1]
  congr 1
  cases o with
  | nil =>
    cases o' with
    | nil => rfl
    | cons => cases h
  | cons =>
    cases o' with
    | nil => cases h
    | cons => exact others_inj ho ho' (List.append_cancel_right (List.append_cancel_left h))

theorem mismatch_inj {a b c d t t' u u' : Str} {l l' m m' : Location} (ht : '\'' ∉ t) (ht' : '\'' ∉ t')
    (h : a ++ t ++ ('\'' :: b) ++ l.render ++ c ++ u ++ d ++ m.render =
      a ++ t' ++ ('\'' :: b) ++ l'.render ++ c ++ u' ++ d ++ m'.render) :
    t = t' ∧ l = l' ∧ u = u' ∧ m = m' := by
  obtain ⟨h, hm⟩ := location_suffix h
  have h := List.append_cancel_right h
  simp only [List.append_assoc, List.cons_append] at h
  obtain ⟨h1, h⟩ := cut_at ht ht' (List.append_cancel_left h)
  obtain ⟨h2, h⟩ := location_prefix (List.append_cancel_left h)
  exact ⟨h1, h2, List.append_cancel_left h, hm⟩

theorem deep_inj {a b c t t' : Str} {n n' : Nat} {l l' : Location}
    (h : a ++ formatNat n ++ (')' :: b) ++ t ++ c ++ l.render =
      a ++ formatNat n' ++ (')' :: b) ++ t' ++ c ++ l'.render) : n = n' ∧ t = t' ∧ l = l' := by
  obtain ⟨h, hl⟩ := location_suffix h
  have h := List.append_cancel_right h
  simp only [List.append_assoc, List.cons_append] at h
  obtain ⟨h1, h⟩ := cut_at (formatNat_no (by decide) _) (formatNat_no (by decide) _)
    (List.append_cancel_left h)
  exact ⟨formatNat_inj h1, List.append_cancel_left h, hl⟩

theorem parse_message {e e' : ParseError} (h : e.render = e'.render)
    (hn : ∀ x ∈ namedTags e, '\'' ∉ x.2.1) (hn' : ∀ x ∈ namedTags e', '\'' ∉ x.2.1) :
    named e = named e' ∧ shownLocations e = shownLocations e' ∧ depthIn e = depthIn e' := by
  have hk : parseKind e = parseKind e' ∨
      (parseKind e = .openingNameInvalid ∧ parseKind e' = .closingNameInvalid) ∨
      (parseKind e = .closingNameInvalid ∧ parseKind e' = .openingNameInvalid) := by
    have h1 := parse_words e
    have h2 := parse_words e'
    rw [h] at h1
    rcases List.prefix_or_prefix_of_prefix h1 h2 with h | h
    · exact parse_words_apart h
    · rcases parse_words_apart h with h | h | h
      · exact .inl h.symm
      · exact .inr (.inr ⟨h.2, h.1⟩)
      · exact .inr (.inl ⟨h.2, h.1⟩)
  rcases hk with hk | ⟨hk, hk'⟩ | ⟨hk, hk'⟩
  · cases e <;> cases e' <;> first | cases hk | skip
    case inl.missingClosingTags.missingClosingTags.refl i o i' o' =>
      obtain ⟨h1, h2⟩ := unclosed_inj (i := i) (i' := i')
        (hn (false, i.1, i.2) (by simp [namedTags])) (hn' (false, i'.1, i'.2) (by simp [namedTags]))
        (fun x hx => hn (false, x.1, x.2) (by simp [namedTags]; exact .inr hx))
        (fun x hx => hn' (false, x.1, x.2) (by simp [namedTags]; exact .inr hx)) h
      exact ⟨h1, congrArg (fun l => [l]) h2, rfl⟩
    case inl.mismatchedClosingTag.mismatchedClosingTag.refl t l u m t' l' u' m' =>
      obtain ⟨rfl, rfl, rfl, rfl⟩ := mismatch_inj (hn (false, t, l) (by simp [namedTags]))
        (hn' (false, t', l') (by simp [namedTags])) h
      exact ⟨rfl, rfl, rfl⟩
    case inl.stackLimitExceeded.stackLimitExceeded.refl t l n t' l' n' =>
      obtain ⟨rfl, rfl, rfl⟩ := deep_inj h
      exact ⟨rfl, rfl, rfl⟩
    case inl.invalidAttributeValue.invalidAttributeValue.refl l t n l' t' n' =>
      obtain ⟨h1, rfl⟩ := dotted_inj (a := "Invalid attribute value for '".toList) (b := "' at ".toList) h
      exact ⟨congrArg (fun x => [x]) h1, rfl, rfl⟩
    case inl.unclosedAttributeValue.unclosedAttributeValue.refl l t n l' t' n' =>
      obtain ⟨h1, rfl⟩ := dotted_inj (a := "Unclosed attribute value for '".toList) (b := "' at ".toList) h
      exact ⟨congrArg (fun x => [x]) h1, rfl, rfl⟩
    all_goals first
      | (obtain ⟨rfl, rfl⟩ := name_inj h; exact ⟨rfl, rfl, rfl⟩)
      | (obtain ⟨-, rfl⟩ := location_suffix h; exact ⟨rfl, rfl, rfl⟩)
  · cases e <;> cases hk
    cases e' <;> cases hk'
    obtain ⟨-, rfl⟩ := location_suffix h
    exact ⟨rfl, rfl, rfl⟩
  · cases e <;> cases hk
    cases e' <;> cases hk'
    obtain ⟨-, rfl⟩ := location_suffix h
    exact ⟨rfl, rfl, rfl⟩

end Fuser
