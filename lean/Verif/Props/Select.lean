import Verif.Proof.Select

/-!
# Properties C33-C36, C57, C89: selectors
-/

namespace Fuser

open Spec

/-- C33. A selector text `tag#id.class…` matches exactly the elements with that tag, that id and
all those classes; the empty text is rejected. -/
theorem C33_static_selector (p : SelParts) (hp : p.WellFormed) :
    (p.text = [] → Selector.ofStatic p.text = .ok (.error .unrestricted)) ∧
    (p.text ≠ [] → ∃ s, Selector.ofStatic p.text = .ok (.ok s) ∧
      ∀ e, s.matches e = true ↔ ∃ tag as, Starts e tag as ∧ p.Describes tag as) := by
  obtain ⟨h1, h2, h3⟩ := hp
  have hcut : p.Cut := ⟨fun t ht => ⟨(h1 t ht).1.1, (h1 t ht).2.1, (h1 t ht).2.2⟩,
    fun i hi => (h2 i hi).2.2, fun c hc => (h3 c hc).2.2⟩
  rw [ofStatic_eq p hcut]
  have ht : ∀ e, p.tag.map validate ≠ some (.error e) := by
    intro e
    cases ht : p.tag with
    | none => simp
    | some t => simp [validate_iff.2 (h1 t ht).1]
  have hi : ∀ e, p.id.map validate ≠ some (.error e) := by
    intro e
    cases ht : p.id with
    | none => simp
    | some t => simp [validate_iff.2 (h2 t ht).1]
  have hc : firstBad 0 p.classes = none := firstBad_none.2 fun c hc => (h3 c hc).1
  have heq : ofParts p = if p.tag = none ∧ p.id = none ∧ p.classes = [] then .error .unrestricted
        else .ok (.static p.tag p.id (classText p.classes)) := by
    rw [ofParts_rest ht hi, hc]
  have hemp : p.text = [] ↔ p.tag = none ∧ p.id = none ∧ p.classes = [] := by
    unfold SelParts.text
    rw [List.append_eq_nil_iff, List.append_eq_nil_iff, and_assoc]
    refine and_congr ?_ (and_congr ?_ ?_)
    · cases ht : p.tag with
      | none => simp
      | some t => simpa using (h1 t ht).1.1
    · cases p.id <;> simp [idText]
    · cases p.classes <;> simp
  constructor
  · intro h
    rw [heq, if_pos (hemp.1 h)]
  · intro h
    rw [heq, if_neg fun h' => h (hemp.2 h')]
    exact ⟨_, rfl, static_matches p (fun t h => (h1 t h).1.ascii) (fun t h => (h2 t h).1.ascii)
      fun c h => ⟨(h3 c h).1.ascii, (h3 c h).2.2⟩⟩

example : ∃ p : SelParts, p.WellFormed ∧ p.text = "div#main.a.b-c".toList := by
  refine ⟨⟨some "div".toList, some "main".toList, ["a".toList, "b-c".toList]⟩, ⟨?_, ?_, ?_⟩, rfl⟩
  · rintro t ⟨⟩; exact ⟨validate_iff.1 rfl, by decide, by decide⟩
  · rintro t ⟨⟩; exact ⟨validate_iff.1 rfl, by decide, by decide⟩
  · intro c hc
    simp only [List.mem_cons, List.not_mem_nil, or_false] at hc
    rcases hc with rfl | rfl <;> exact ⟨validate_iff.1 rfl, by decide, by decide⟩

/-- C34, the part about order: a text is accepted only if it is a documented selector text, with
the parts in the order tag, id, classes. -/
def OnlyWellFormedAccepted : Prop :=
  ∀ s sel, Selector.ofStatic s = .ok (.ok sel) → ∃ p : SelParts, p.WellFormed ∧ p.text = s

/-- C34 is false in this part: `.a#b` is accepted (it looks for a class with the name `a#b`), and
so is `a#x#y`. -/
theorem C34_selector_text_false :
    ¬ OnlyWellFormedAccepted ∧
    Selector.ofStatic ".a#b".toList = .ok (.ok (.static none none (some "a#b".toList))) ∧
    Selector.ofStatic "a#x#y".toList = .ok (.ok (.static (some ['a']) (some "x#y".toList) none)) := by
  have h1 : Selector.ofStatic ".a#b".toList = .ok (.ok (.static none none (some "a#b".toList))) := rfl
  refine ⟨fun h => ?_, h1, rfl⟩
  obtain ⟨⟨t, i, cs⟩, ⟨w1, w2, w3⟩, hp⟩ := h _ _ h1
  simp only [SelParts.text] at hp
  cases t with
  | some t =>
    have := w1 t rfl
    cases t with
    | nil => exact this.1.1 rfl
    | cons c t =>
      simp at hp
      exact this.2.2 (by simp [hp.1])
  | none =>
    cases i with
    | some i => simp [idText] at hp
    | none =>
      cases cs with
      | nil => simp [idText] at hp
      | cons c cs =>
        have hh : '#' ∈ c ++ cs.flatMap ('.' :: ·) := by
          have : c ++ cs.flatMap ('.' :: ·) = "a#b".toList := by simpa [idText] using hp
          rw [this]; decide
        have hno : ∀ l : List Str, (∀ c ∈ l, Simple c) → '#' ∉ l.flatMap ('.' :: ·) := by
          intro l hl hm
          obtain ⟨x, hx, hm⟩ := List.mem_flatMap.1 hm
          rcases List.mem_cons.1 hm with h | h
          · exact absurd h (by decide)
          · exact (hl x hx).2.1 h
        rcases List.mem_append.1 hh with h | h
        · exact (w3 c (by simp)).2.1 h
        · exact hno cs (fun c hc => w3 c (by simp [hc])) h

/-- C34, what holds: every text has exactly determined parts (tag up to the first `#` or `.`, id up
to the first `.`, classes between dots), and it is rejected exactly for the first part that is not
a valid identifier, with that part's error and the index of the class, or for being empty.
Missing: `#` inside id and class parts should be rejected but is accepted. -/
theorem C34_selector_text_partial :
    (∀ s, ∃ p : SelParts, p.Cut ∧ p.text = s) ∧
    ∀ p : SelParts, p.Cut →
      ((∃ sel, Selector.ofStatic p.text = .ok (.ok sel)) ↔
        p.text ≠ [] ∧ (∀ t, p.tag = some t → ValidIdent t) ∧ (∀ i, p.id = some i → ValidIdent i) ∧
        ∀ c ∈ p.classes, ValidIdent c) ∧
      (∀ err, Selector.ofStatic p.text = .ok (.error err) ↔ match err with
        | .unrestricted => p.text = []
        | .tag e => ∃ t, p.tag = some t ∧ IdentError t e
        | .id e => (∀ t, p.tag = some t → ValidIdent t) ∧ ∃ i, p.id = some i ∧ IdentError i e
        | .class n e => (∀ t, p.tag = some t → ValidIdent t) ∧
            (∀ i, p.id = some i → ValidIdent i) ∧
            ∃ pre c post, p.classes = pre ++ c :: post ∧ n = pre.length ∧
              (∀ d ∈ pre, ValidIdent d) ∧ IdentError c e) := by
  refine ⟨exists_parts, ?_⟩
  intro p hp
  rw [ofStatic_eq p hp]
  obtain ⟨h1, h2, h3⟩ := hp
  have hemp : p.text = [] ↔ p.tag = none ∧ p.id = none ∧ p.classes = [] := by
    unfold SelParts.text
    rw [List.append_eq_nil_iff, List.append_eq_nil_iff, and_assoc]
    refine and_congr ?_ (and_congr ?_ ?_)
    · cases ht : p.tag with
      | none => simp
      | some t => simpa using (h1 t ht).1
    · cases p.id <;> simp [idText]
    · cases p.classes <;> simp
  have part : ∀ o : Option Str,
      ((∀ x, o = some x → ValidIdent x) ∧ ∀ e, o.map validate ≠ some (.error e)) ∨
      ∃ x e, o = some x ∧ o.map validate = some (.error e) ∧ IdentError x e ∧ ¬ ValidIdent x := by
    intro o
    cases o with
    | none => simp
    | some x =>
      rcases validate_cases x with ⟨h, h'⟩ | ⟨h, e, h', he⟩
      · left; simp [h, h']
      · right; exact ⟨x, e, rfl, by simp [h'], he, h⟩
  have uniq : ∀ {x e e'}, IdentError x e → IdentError x e' → e = e' := by
    intro x e e' h h'
    rw [← validate_error] at h h'
    rw [h] at h'
    cases h'
    rfl
  rcases part p.tag with ⟨ht, ht'⟩ | ⟨t, e, ht, ht', hte, htv⟩
  · rcases part p.id with ⟨hi, hi'⟩ | ⟨i, e, hi, hi', hie, hiv⟩
    · rw [ofParts_rest ht' hi']
      cases hb : firstBad 0 p.classes with
      | some ie =>
        obtain ⟨i, e⟩ := ie
        have hb' := firstBad_some.1 hb
        have hnv : ¬ ∀ c ∈ p.classes, ValidIdent c := by
          rw [← firstBad_none (n := 0), hb]; simp
        have hne : p.classes ≠ [] := by
          intro h; rw [h] at hnv; simp at hnv
        refine ⟨?_, ?_⟩
        · simp only [Except.ok.injEq, reduceCtorEq, exists_false, false_iff]
          rintro ⟨-, -, -, h⟩
          exact hnv h
        · intro err
          simp only [Except.ok.injEq, Except.error.injEq]
          cases err with
          | unrestricted => simp [hemp, hne]
          | tag e' =>
            simp only [reduceCtorEq, false_iff]
            rintro ⟨t, h, he⟩
            exact IdentError_not_valid he (ht t h)
          | id e' =>
            simp only [reduceCtorEq, false_iff]
            rintro ⟨-, t, h, he⟩
            exact IdentError_not_valid he (hi t h)
          | «class» n e' =>
            have hiff := firstBad_some (n := 0) (i := n) (e := e') (cs := p.classes)
            simp only [Nat.zero_add] at hiff
            constructor
            · rintro ⟨⟩
              exact ⟨ht, hi, hiff.1 hb⟩
            · rintro ⟨-, -, h⟩
              have := hiff.2 h
              rw [hb] at this
              cases this
              rfl
      | none =>
        have hv := firstBad_none.1 hb
        simp only
        by_cases he : p.tag = none ∧ p.id = none ∧ p.classes = []
        · rw [if_pos he]
          refine ⟨?_, ?_⟩
          · simp [hemp.2 he]
          · intro err
            cases err with
            | unrestricted => simp [hemp.2 he]
            | tag e' => simp [he.1]
            | id e' => simp [he.2.1]
            | «class» n e' => simp [he.2.2]
        · rw [if_neg he]
          refine ⟨?_, ?_⟩
          · simp only [Except.ok.injEq, exists_eq', true_iff]
            exact ⟨fun h => he (hemp.1 h), ht, hi, hv⟩
          · intro err
            simp only [Except.ok.injEq, reduceCtorEq, false_iff]
            cases err with
            | unrestricted => exact fun h => he (hemp.1 h)
            | tag e' =>
              rintro ⟨t, h, he⟩
              exact IdentError_not_valid he (ht t h)
            | id e' =>
              rintro ⟨-, t, h, he⟩
              exact IdentError_not_valid he (hi t h)
            | «class» n e' =>
              rintro ⟨-, -, pre, c, post, h, -, -, he⟩
              exact IdentError_not_valid he (hv c (by rw [h]; simp))
    · have hne : p.text ≠ [] := by rw [ne_eq, hemp, hi]; simp
      rw [ofParts_id ht' hi']
      refine ⟨?_, ?_⟩
      · simp only [Except.ok.injEq, reduceCtorEq, exists_false, false_iff]
        rintro ⟨-, -, h, -⟩
        exact hiv (h i hi)
      · intro err
        simp only [Except.ok.injEq, Except.error.injEq]
        cases err with
        | unrestricted => simp [hne]
        | tag e' =>
          simp only [reduceCtorEq, false_iff]
          rintro ⟨t, h, he⟩
          exact IdentError_not_valid he (ht t h)
        | id e' =>
          simp only [StaticError.id.injEq]
          constructor
          · rintro rfl; exact ⟨ht, i, hi, hie⟩
          · rintro ⟨-, i', h, he⟩
            rw [hi] at h
            cases h
            exact uniq hie he
        | «class» n e' =>
          simp only [reduceCtorEq, false_iff]
          rintro ⟨-, h, -⟩
          exact hiv (h i hi)
  · have hne : p.text ≠ [] := by rw [ne_eq, hemp, ht]; simp
    rw [ofParts_tag ht']
    refine ⟨?_, ?_⟩
    · simp only [Except.ok.injEq, reduceCtorEq, exists_false, false_iff]
      rintro ⟨-, h, -⟩
      exact htv (h t ht)
    · intro err
      simp only [Except.ok.injEq, Except.error.injEq]
      cases err with
      | unrestricted => simp [hne]
      | tag e' =>
        simp only [StaticError.tag.injEq]
        constructor
        · rintro rfl; exact ⟨t, ht, hte⟩
        · rintro ⟨t', h, he⟩
          rw [ht] at h
          cases h
          exact uniq hte he
      | id e' =>
        simp only [reduceCtorEq, false_iff]
        rintro ⟨h, -⟩
        exact htv (h t ht)
      | «class» n e' =>
        simp only [reduceCtorEq, false_iff]
        rintro ⟨h, -⟩
        exact htv (h t ht)

example : Selector.ofStatic "a#b.c.d e".toList = .ok (.error (.class 1 (.whitespace ' '))) := by rfl
example : Selector.ofStatic "a#.c".toList = .ok (.error (.id .empty)) := by rfl

/-- C35. The selectors of the crate only match events that start an element. -/
theorem C35_selectors_match_starts (s : Selector) (e : Event) (hs : ∀ f, s ≠ .custom f)
    (h : s.matches e = true) : ∃ tag as, Starts e tag as := by
  cases e with
  | openingTag t as => exact ⟨t, as, .inl rfl⟩
  | selfClosedTag t as => exact ⟨t, as, .inr (.inl rfl)⟩
  | voidTag t as => exact ⟨t, as, .inr (.inr rfl)⟩
  | _ => cases s <;> simp [Selector.matches, Event.attributes, Event.elementTagStart] at h hs

example : (Selector.tag ⟨.static "p".toList⟩).matches (.voidTag ⟨.actual "P".toList⟩ []) = true ∧
    (Selector.tag ⟨.static "p".toList⟩).matches (.closingTag ⟨.actual "p".toList⟩) = false := by decide

/-- C36. The class list selector is the conjunction of its classes: it depends only on the set of
names; it is rejected on the first invalid name and if there is none. -/
theorem C36_classes_selector (vs : List Str) :
    (vs = [] → Selector.classesFromStrIterator vs = .error .empty) ∧
    (∀ n e, Selector.classesFromStrIterator vs = .error (.identifier n e) ↔
      ∃ pre c post, vs = pre ++ c :: post ∧ n = pre.length ∧ (∀ d ∈ pre, ValidIdent d) ∧
        IdentError c e) ∧
    (vs ≠ [] → (∀ v ∈ vs, ValidIdent v) → ∃ s, Selector.classesFromStrIterator vs = .ok s ∧
      (∀ e, s.matches e = true ↔ ∃ tag as, Starts e tag as ∧ ∀ v ∈ vs, HasClass v as) ∧
      ∀ ws s', (∀ x, x ∈ ws ↔ x ∈ vs) → Selector.classesFromStrIterator ws = .ok s' →
        ∀ e, s'.matches e = s.matches e) := by
  have hall : ∀ vs : List Str, vs ≠ [] → (∀ v ∈ vs, ValidIdent v) →
      Selector.classesFromStrIterator vs = .ok (.classes (vs.map fun v => ⟨.actual v⟩)) := by
    intro vs hne hv
    have hb : firstBad 0 vs = none := firstBad_none.2 hv
    unfold Selector.classesFromStrIterator
    rw [classesLoop_eq, hb]
    simp [bind, Except.bind, pure, Except.pure, hne]
  have hm : ∀ vs : List Str, (∀ v ∈ vs, ValidIdent v) → ∀ e,
      (Selector.classes (vs.map fun v => ⟨.actual v⟩)).matches e = true ↔
        ∃ tag as, Starts e tag as ∧ ∀ v ∈ vs, HasClass v as := by
    intro vs hv e
    have main : ∀ as, ((vs.map fun v => (⟨.actual v⟩ : Identifier)).all fun i =>
        Attributes.hasClass as i.str) = true ↔ ∀ v ∈ vs, HasClass v as := by
      intro as
      simp only [List.all_map, List.all_eq_true]
      exact forall₂_congr fun v h => attributes_hasClass_iff (hv v h).ascii
    simp only [starts_iff]
    cases e
    case openingTag tag as =>
      refine (main as).trans ?_
      simp [Event.elementTagStart, Event.attributes]
    case selfClosedTag tag as =>
      refine (main as).trans ?_
      simp [Event.elementTagStart, Event.attributes]
    case voidTag tag as =>
      refine (main as).trans ?_
      simp [Event.elementTagStart, Event.attributes]
    all_goals simp [Selector.matches, Event.elementTagStart, Event.attributes]
  refine ⟨?_, ?_, ?_⟩
  · rintro rfl; rfl
  · intro n e
    have hiff := firstBad_some (n := 0) (i := n) (e := e) (cs := vs)
    simp only [Nat.zero_add] at hiff
    rw [← hiff]
    unfold Selector.classesFromStrIterator
    rw [classesLoop_eq]
    cases hb : firstBad 0 vs with
    | some ie => obtain ⟨i, e'⟩ := ie; simp [bind, Except.bind]
    | none =>
      simp only [List.nil_append, bind, Except.bind]
      split <;> simp [throw, throwThe, MonadExceptOf.throw, pure, Except.pure]
  · intro hne hv
    refine ⟨_, hall vs hne hv, hm vs hv, ?_⟩
    intro ws s' hw hs' e
    have hv' : ∀ v ∈ ws, ValidIdent v := fun v h => hv v ((hw v).1 h)
    have hne' : ws ≠ [] := by
      rintro rfl
      cases vs with
      | nil => exact hne rfl
      | cons v vs => simpa using hw v
    rw [hall ws hne' hv'] at hs'
    cases hs'
    rw [Bool.eq_iff_iff, hm ws hv', hm vs hv]
    simp only [hw]

example : Selector.classesFromStrIterator ["a".toList, "b/".toList] =
    .error (.identifier 1 (.forbidden '/')) := by rfl
example : ∀ v ∈ ["a".toList, "b".toList], ValidIdent v := by
  simp only [List.mem_cons, List.not_mem_nil, or_false]
  rintro v (rfl | rfl) <;> exact validate_iff.1 rfl

/-- C57. The tag, id and class selectors are accepted exactly for valid identifiers and match
exactly the elements with that tag, id or class. -/
theorem C57_single_selectors (v : Str) :
    (ValidIdent v →
      (∃ s, Selector.tagFromStr v = .ok s ∧ ∀ e, s.matches e = true ↔
        ∃ tag as, Starts e tag as ∧ SameName tag.str v) ∧
      (∃ s, Selector.idFromStr v = .ok s ∧ ∀ e, s.matches e = true ↔
        ∃ tag as, Starts e tag as ∧ HasId v as) ∧
      (∃ s, Selector.classFromStr v = .ok s ∧ ∀ e, s.matches e = true ↔
        ∃ tag as, Starts e tag as ∧ HasClass v as)) ∧
    (∀ err, IdentError v err →
      Selector.tagFromStr v = .error (.identifier err) ∧
      Selector.idFromStr v = .error (.identifier err) ∧
      Selector.classFromStr v = .error (.identifier err)) := by
  constructor
  · intro hv
    rcases fromStr_cases v with ⟨_, h⟩ | ⟨h, _⟩
    · refine ⟨⟨.tag ⟨.actual v⟩, by simp only [Selector.tagFromStr, h], ?_⟩,
        ⟨.id ⟨.actual v⟩, by simp only [Selector.idFromStr, h], ?_⟩,
        ⟨.class ⟨.actual v⟩, by simp only [Selector.classFromStr, h], ?_⟩⟩
      · intro e
        have main : ∀ tag : Identifier, tag.eq ⟨.actual v⟩ = true ↔ SameName tag.str v :=
          fun tag => identifierEq_right hv.ascii
        cases e <;> simp [Selector.matches, Event.elementTagStart, main, Starts]
      · intro e
        have main : ∀ as, Attributes.hasId as (Identifier.str ⟨.actual v⟩) = true ↔ HasId v as :=
          fun as => attributes_hasId_iff hv.ascii
        cases e <;> simp [Selector.matches, Event.attributes, main, Starts]
      · intro e
        have main : ∀ as, Attributes.hasClass as (Identifier.str ⟨.actual v⟩) = true ↔
          HasClass v as := fun as => attributes_hasClass_iff hv.ascii
        cases e <;> simp [Selector.matches, Event.attributes, main, Starts]
    · exact absurd hv h
  · intro err he
    have h : Identifier.fromStr v = .error err := by
      simp [Identifier.fromStr, validate_error.2 he, bind, Except.bind]
    exact ⟨by simp only [Selector.tagFromStr, h], by simp only [Selector.idFromStr, h],
      by simp only [Selector.classFromStr, h]⟩

example : IdentError "a b".toList (.whitespace ' ') := validate_error.1 rfl

/-- C89. Every text is cut into parts in exactly one way, and if it is accepted as a selector, it
matches exactly the elements that these parts describe; also if the text is not in the documented
form. -/
theorem C89_selector_meaning (s : Str) :
    ∃ p : SelParts, p.Cut ∧ p.text = s ∧ (∀ q : SelParts, q.Cut → q.text = s → q = p) ∧
      ∀ sel, Selector.ofStatic s = .ok (.ok sel) → ∀ e,
        sel.matches e = true ↔ ∃ tag as, Starts e tag as ∧ p.Describes tag as := by
  obtain ⟨p, hp, rfl⟩ := exists_parts s
  refine ⟨p, hp, rfl, fun q hq h => parts_unique hq hp h, ?_⟩
  intro sel h e
  obtain ⟨-, hv1, hv2, hv3⟩ := (C34_selector_text_partial.2 p hp).1.1 ⟨sel, h⟩
  have bad : ∀ {o : Option Str}, (∀ t, o = some t → ValidIdent t) →
      ∀ e, o.map validate ≠ some (.error e) := by
    intro o ho e
    cases o with
    | none => simp
    | some t => simp [validate_iff.2 (ho t rfl)]
  rw [ofStatic_eq p hp, ofParts_rest (bad hv1) (bad hv2), firstBad_none.2 hv3] at h
  simp only [Except.ok.injEq] at h
  split at h
  · cases h
  · cases h
    exact static_matches p (fun t h => (hv1 t h).ascii) (fun t h => (hv2 t h).ascii)
      (fun c h => ⟨(hv3 c h).ascii, hp.2.2 c h⟩) e

example : (⟨some ['a'], some "x#y".toList, [['b']]⟩ : SelParts).Cut ∧
    (⟨some ['a'], some "x#y".toList, [['b']]⟩ : SelParts).text = "a#x#y.b".toList ∧
    ∃ sel, Selector.ofStatic "a#x#y.b".toList = .ok (.ok sel) :=
  ⟨⟨by rintro t ⟨⟩; decide, by rintro t ⟨⟩; decide, by simp⟩, rfl, _, rfl⟩

end Fuser
