import Verif.Proof.AttrOps
import Verif.Spec.Select
import Verif.Model.Select

/-!
# Helper lemmas about selectors
-/

namespace Fuser

open Spec

theorem validate_error {s : Str} {e : IdentifierError} : validate s = .error e ↔ IdentError s e := by
  have first : ∀ (p : Char → Bool) (P : Char → Prop) (c : Char), (∀ d, p d = true ↔ P d) →
      (s.find? p = some c ↔ FirstWith P c s) := by
    intro p P c hp
    rw [List.find?_eq_some_iff_append, hp]
    unfold FirstWith
    have : ∀ d, (!p d) = true ↔ ¬ P d := by intro d; rw [← hp]; simp
    simp only [this]
  rw [validate]
  by_cases h1 : s = []
  · subst h1
    cases e <;> simp [IdentError]
  rw [if_neg (by simpa using h1)]
  by_cases h2 : Ascii s
  · rw [if_neg (by simpa using isAscii_iff'.2 h2)]
    cases hw : s.find? isWhitespace with
    | some c =>
      have hw' := (first _ Space c fun d => isWhitespace_iff).1 hw
      cases e with
      | empty => simp [IdentError, h1]
      | notAscii => simp [IdentError, h2]
      | whitespace d =>
        simp only [IdentError, Except.error.injEq, IdentifierError.whitespace.injEq, ne_eq, h1,
          not_false_eq_true, h2, true_and]
        rw [← first _ Space d fun d => isWhitespace_iff, hw]
        simp
      | forbidden d =>
        simp only [IdentError, Except.error.injEq, reduceCtorEq, false_iff]
        rintro ⟨-, -, h, -⟩
        obtain ⟨h', pre, post, rfl, -⟩ := hw'
        exact h c (by simp) h'
    | none =>
      have hns : ∀ d ∈ s, ¬ Space d := by
        intro d hd
        rw [List.find?_eq_none] at hw
        rw [← isWhitespace_iff]
        exact hw d hd
      cases hf : s.find? forbiddenChar with
      | some c =>
        cases e with
        | empty => simp [IdentError, h1]
        | notAscii => simp [IdentError, h2]
        | whitespace d =>
          simp only [IdentError, Except.error.injEq, reduceCtorEq, false_iff]
          rintro ⟨-, -, h, pre, post, rfl, -⟩
          exact hns d (by simp) h
        | forbidden d =>
          simp only [IdentError, Except.error.injEq, IdentifierError.forbidden.injEq]
          rw [← first _ (· ∈ forbidden) d fun d => forbiddenChar_iff, hf]
          simp only [Option.some.injEq, ne_eq, h1, not_false_eq_true, h2, true_and]
          exact ⟨fun h => ⟨hns, h⟩, fun h => h.2⟩
      | none =>
        cases e with
        | empty => simp [IdentError, h1]
        | notAscii => simp [IdentError, h2]
        | whitespace d =>
          simp only [IdentError, reduceCtorEq, false_iff]
          rintro ⟨-, -, h, pre, post, rfl, -⟩
          exact hns d (by simp) h
        | forbidden d =>
          simp only [IdentError, reduceCtorEq, false_iff]
          rw [← first _ (· ∈ forbidden) d fun d => forbiddenChar_iff, hf]
          simp
  · rw [if_pos (by simpa [← isAscii_iff'] using h2)]
    cases e <;> simp [IdentError, h1, h2]

theorem validate_cases (s : Str) :
    (ValidIdent s ∧ validate s = .ok s) ∨
    (¬ ValidIdent s ∧ ∃ e, validate s = .error e ∧ IdentError s e) := by
  by_cases h : ValidIdent s
  · exact .inl ⟨h, validate_iff.2 h⟩
  · right
    refine ⟨h, ?_⟩
    cases hv : validate s with
    | ok v => rw [(validate_ok hv).1] at hv; exact absurd (validate_iff.1 hv) h
    | error e => exact ⟨e, rfl, validate_error.1 hv⟩

theorem fromStr_cases (s : Str) :
    (ValidIdent s ∧ Identifier.fromStr s = .ok ⟨.actual s⟩) ∨
    (¬ ValidIdent s ∧ ∃ e, Identifier.fromStr s = .error e ∧ IdentError s e) := by
  unfold Identifier.fromStr
  rcases validate_cases s with ⟨h, h'⟩ | ⟨h, e, h', he⟩
  · rw [h']; exact .inl ⟨h, rfl⟩
  · rw [h']; exact .inr ⟨h, e, rfl, he⟩

theorem IdentError_not_valid {s : Str} {e : IdentifierError} (h : IdentError s e) :
    ¬ ValidIdent s := by
  intro hv
  rw [← validate_error, validate_iff.2 hv] at h
  cases h

theorem takeWhile_append_stop {p : Char → Bool} {a b : Str} (ha : ∀ c ∈ a, p c = true)
    (hb : ∀ c, b.head? = some c → p c = false) : (a ++ b).takeWhile p = a := by
  induction a with
  | nil =>
    cases b with
    | nil => rfl
    | cons c b => simp [hb c rfl]
  | cons c a ih =>
    simp only [List.mem_cons, forall_eq_or_imp] at ha
    simp [ha.1, ih ha.2]

/-- The first occurrence of a character. -/
theorem findChar_split {p : Char → Bool} {a b : Str} (ha : ∀ c ∈ a, p c = false)
    (hb : ∀ c, b.head? = some c → p c = true) :
    findChar p (a ++ b) = if b = [] then none else some (utf8Len a) := by
  have hd : (a ++ b).dropWhile (fun c => !p c) = b := by
    induction a with
    | nil =>
      cases b with
      | nil => rfl
      | cons c b => simp [hb c rfl]
    | cons c a ih =>
      simp only [List.mem_cons, forall_eq_or_imp] at ha
      simp [ha.1, ih ha.2]
  rw [findChar_eq, hd, takeWhile_append_stop (a := a) (b := b)]
  · intro c hc; simp [ha c hc]
  · intro c hc; simp [hb c hc]

/-- Class parts after the first dot. -/
theorem splitBy_classes (c : Str) (cs : List Str) (h : ∀ x ∈ c :: cs, '.' ∉ x) :
    splitBy (· == '.') (c ++ cs.flatMap ('.' :: ·)) = c :: cs := by
  induction cs generalizing c with
  | nil =>
    simp only [List.flatMap_nil, List.append_nil]
    apply splitBy_none
    intro d hd
    have := h c (by simp)
    rw [beq_eq_false_iff_ne]
    rintro rfl
    exact this hd
  | cons d cs ih =>
    rw [List.flatMap_cons, List.cons_append, splitBy_append_sep (by decide), ih]
    · rw [splitBy_none]
      · rfl
      · intro x hx
        have := h c (by simp)
        rw [beq_eq_false_iff_ne]
        rintro rfl
        exact this hx
    · intro x hx
      exact h x (by simp at hx ⊢; tauto)

/-- What validation says about an optional part. -/
def firstBad (n : Nat) : List Str → Option (Nat × IdentifierError)
  | [] => none
  | c :: cs =>
    match validate c with
    | .ok _ => firstBad (n + 1) cs
    | .error e => some (n, e)

theorem validateClasses_eq (n : Nat) (cs : List Str) :
    validateClasses n cs = match firstBad n cs with
      | none => .ok ()
      | some (i, e) => .error (.class i e) := by
  induction cs generalizing n with
  | nil => rfl
  | cons c cs ih =>
    unfold validateClasses firstBad
    cases validate c <;> simp [ih]

theorem firstBad_none {n : Nat} {cs : List Str} : firstBad n cs = none ↔ ∀ c ∈ cs, ValidIdent c := by
  induction cs generalizing n with
  | nil => simp [firstBad]
  | cons c cs ih =>
    rcases validate_cases c with ⟨h, h'⟩ | ⟨h, e, h', he⟩
    · simp [firstBad, h', ih, h]
    · simp [firstBad, h', h]

theorem firstBad_some {n i : Nat} {e : IdentifierError} {cs : List Str} :
    firstBad n cs = some (i, e) ↔ ∃ pre c post, cs = pre ++ c :: post ∧ i = n + pre.length ∧
      (∀ d ∈ pre, ValidIdent d) ∧ IdentError c e := by
  induction cs generalizing n with
  | nil => simp [firstBad]
  | cons c cs ih =>
    rcases validate_cases c with ⟨h, h'⟩ | ⟨h, e', h', he⟩
    · simp only [firstBad, h', ih]
      constructor
      · rintro ⟨pre, d, post, rfl, rfl, h1, h2⟩
        refine ⟨c :: pre, d, post, rfl, by simp; omega, ?_, h2⟩
        intro x hx
        rcases List.mem_cons.1 hx with rfl | hx
        · exact h
        · exact h1 x hx
      · rintro ⟨pre, d, post, heq, rfl, h1, h2⟩
        cases pre with
        | nil =>
          simp only [List.nil_append, List.cons.injEq] at heq
          rw [heq.1] at h
          exact absurd h (IdentError_not_valid h2)
        | cons x pre =>
          simp only [List.cons_append, List.cons.injEq] at heq
          obtain ⟨rfl, rfl⟩ := heq
          exact ⟨pre, d, post, rfl, by simp; omega, fun y hy => h1 y (by simp [hy]), h2⟩
    · simp only [firstBad, h', Option.some.injEq, Prod.mk.injEq]
      constructor
      · rintro ⟨rfl, rfl⟩
        exact ⟨[], c, cs, rfl, rfl, by simp, he⟩
      · rintro ⟨pre, d, post, heq, rfl, h1, h2⟩
        cases pre with
        | nil =>
          simp only [List.nil_append, List.cons.injEq] at heq
          obtain ⟨rfl, rfl⟩ := heq
          refine ⟨rfl, ?_⟩
          have := validate_error.2 h2
          rw [h'] at this
          cases this
          rfl
        | cons x pre =>
          simp only [List.cons_append, List.cons.injEq] at heq
          obtain ⟨rfl, rfl⟩ := heq
          exact absurd (h1 c (by simp)) h

/-- The text of the class parts as stored. -/
def classText : List Str → Option Str
  | [] => none
  | c :: cs => some (c ++ cs.flatMap ('.' :: ·))

/-- The result of converting a static selector text, in terms of its parts. -/
def ofParts (p : SelParts) : Except StaticError Selector :=
  match p.tag.map validate with
  | some (.error e) => .error (.tag e)
  | _ =>
    match p.id.map validate with
    | some (.error e) => .error (.id e)
    | _ =>
      match firstBad 0 p.classes with
      | some (i, e) => .error (.class i e)
      | none =>
        if p.tag = none ∧ p.id = none ∧ p.classes = [] then .error .unrestricted
        else .ok (.static p.tag p.id (classText p.classes))

theorem ofParts_tag {p : SelParts} {e : IdentifierError}
    (h : p.tag.map validate = some (.error e)) : ofParts p = .error (.tag e) := by
  unfold ofParts
  rw [h]

theorem ofParts_id {p : SelParts} {e : IdentifierError}
    (h : ∀ e, p.tag.map validate ≠ some (.error e)) (hi : p.id.map validate = some (.error e)) :
    ofParts p = .error (.id e) := by
  unfold ofParts
  split
  · next h' => exact absurd h' (h _)
  · rw [hi]

theorem ofParts_rest {p : SelParts} (h : ∀ e, p.tag.map validate ≠ some (.error e))
    (hi : ∀ e, p.id.map validate ≠ some (.error e)) :
    ofParts p = match firstBad 0 p.classes with
      | some (i, e) => .error (.class i e)
      | none =>
        if p.tag = none ∧ p.id = none ∧ p.classes = [] then .error .unrestricted
        else .ok (.static p.tag p.id (classText p.classes)) := by
  unfold ofParts
  split
  · next h' => exact absurd h' (h _)
  · split
    · next h' => exact absurd h' (hi _)
    · rfl

theorem validate_val {s v : Str} (h : validate s = .ok v) : v = s := (validate_ok h).1

theorem staticTagPart_eq {t r : Str} (ht : '#' ∉ t ∧ '.' ∉ t)
    (hr : ∀ c, r.head? = some c → c = '#' ∨ c = '.') :
    staticTagPart (t ++ r) = .ok (if t = [] then .ok (none, r) else
      match validate t with
      | .error e => .error (.tag e)
      | .ok _ => .ok (some t, r)) := by
  have hf : (findChar (fun c => c == '#' || c == '.') (t ++ r)).getD (utf8Len (t ++ r)) =
      utf8Len t := by
    rw [findChar_split]
    · split
      · next h => subst h; simp
      · rfl
    · intro c hc
      rw [Bool.or_eq_false_iff, beq_eq_false_iff_ne, beq_eq_false_iff_ne]
      exact ⟨fun h => ht.1 (h ▸ hc), fun h => ht.2 (h ▸ hc)⟩
    · intro c hc
      rcases hr c hc with rfl | rfl <;> rfl
  unfold staticTagPart
  simp only [hf, utf8Len_eq_zero]
  split
  · next h => subst h; simp; rfl
  · rw [sliceTo_append, sliceFrom_append]
    cases hv : validate t with
    | error e => simp [bind, Except.bind, hv, pure, Except.pure]
    | ok v => simp [bind, Except.bind, hv, pure, Except.pure, validate_val hv]

theorem staticIdPart_eq (i : Option Str) (cs : List Str) (hi : ∀ x, i = some x → '.' ∉ x) :
    staticIdPart (idText i ++ cs.flatMap ('.' :: ·)) =
      .ok (match i.map validate with
        | some (.error e) => .error (.id e)
        | _ => .ok (i, (classText cs).getD [], (classText cs).isSome)) := by
  have hdot : utf8Len ['.'] = ('.').utf8Size := by simp
  have hhash : utf8Len ['#'] = ('#').utf8Size := by simp
  cases i with
  | some x =>
    have hx := hi x rfl
    have h1 : sliceFrom ('#' :: (x ++ cs.flatMap ('.' :: ·))) ('#').utf8Size =
        .ok (x ++ cs.flatMap ('.' :: ·)) := sliceFrom_cons _ _
    have hf : findChar (· == '.') (x ++ cs.flatMap ('.' :: ·)) =
        if cs.flatMap ('.' :: ·) = [] then none else some (utf8Len x) := by
      apply findChar_split
      · intro c hc
        rw [beq_eq_false_iff_ne]
        rintro rfl
        exact hx hc
      · intro c hc
        cases cs with
        | nil => simp at hc
        | cons d cs => simp at hc; simp [← hc]
    unfold staticIdPart
    simp only [idText, List.cons_append, List.head?_cons, if_true, h1]
    cases cs with
    | nil =>
      have h2 : sliceFrom x (utf8Len x) = .ok [] := sliceFrom_all x
      simp only [List.flatMap_nil, if_true, List.append_nil] at hf ⊢
      simp only [bind, Except.bind, hf, h2, pure, Except.pure]
      cases hv : validate x with
      | error e => simp [hv]
      | ok v => simp [hv, classText, validate_val hv]
    | cons d cs =>
      have h2 : sliceTo (x ++ (d :: cs).flatMap ('.' :: ·)) (utf8Len x) = .ok x :=
        sliceTo_append _ _
      have h3 : sliceFrom (x ++ (d :: cs).flatMap ('.' :: ·)) (('.').utf8Size + utf8Len x) =
          .ok (d ++ cs.flatMap ('.' :: ·)) := by
        have := sliceFrom_append (x ++ ['.']) (d ++ cs.flatMap ('.' :: ·))
        rw [utf8Len_append, hdot, Nat.add_comm] at this
        simpa using this
      rw [if_neg (by simp)] at hf
      simp only [bind, Except.bind, hf, h2, h3, pure, Except.pure]
      cases hv : validate x with
      | error e => simp [hv]
      | ok v => simp [hv, classText, validate_val hv]
  | none =>
    cases cs with
    | nil => rfl
    | cons d cs =>
      have h3 : sliceFrom ('.' :: (d ++ cs.flatMap ('.' :: ·))) ('.').utf8Size =
          .ok (d ++ cs.flatMap ('.' :: ·)) := sliceFrom_cons _ _
      unfold staticIdPart
      simp only [idText, List.nil_append, List.flatMap_cons, List.cons_append, List.head?_cons]
      simp only [bind, Except.bind, h3, pure, Except.pure]
      simp [classText, List.isPrefixOf]

theorem ofStatic_eq (p : SelParts) (hp : p.Cut) : Selector.ofStatic p.text = .ok (ofParts p) := by
  obtain ⟨h1, h2, h3⟩ := hp
  unfold Selector.ofStatic SelParts.text
  rw [List.append_assoc, staticTagPart_eq]
  rotate_left
  · cases ht : p.tag with
    | none => simp
    | some t => exact (h1 t ht).2
  · intro c hc
    cases hi : p.id with
    | some x => rw [hi] at hc; simp [idText] at hc; exact .inl hc.symm
    | none =>
      rw [hi] at hc
      cases hcs : p.classes with
      | nil => rw [hcs] at hc; simp [idText] at hc
      | cons d ds => rw [hcs] at hc; simp [idText] at hc; exact .inr hc.symm
  have key : ∀ tag : Option Str, staticFinish tag (match p.id.map validate with
        | some (.error e) => .error (.id e)
        | _ => .ok (p.id, (classText p.classes).getD [], (classText p.classes).isSome)) =
      match p.id.map validate with
      | some (.error e) => .error (.id e)
      | _ =>
        match firstBad 0 p.classes with
        | some (i, e) => .error (.class i e)
        | none =>
          if tag = none ∧ p.id = none ∧ p.classes = [] then .error .unrestricted
          else .ok (.static tag p.id (classText p.classes)) := by
    intro tag
    have cls : staticFinish tag
          (.ok (p.id, (classText p.classes).getD [], (classText p.classes).isSome)) =
        match firstBad 0 p.classes with
        | some (i, e) => .error (.class i e)
        | none =>
          if tag = none ∧ p.id = none ∧ p.classes = [] then .error .unrestricted
          else .ok (.static tag p.id (classText p.classes)) := by
      cases hcs : p.classes with
      | nil => simp [staticFinish, classText, firstBad]
      | cons d ds =>
        rw [hcs] at h3
        simp only [staticFinish, classText, Option.isSome_some, Option.getD_some, if_true]
        rw [splitBy_classes d ds h3, validateClasses_eq]
        cases firstBad 0 (d :: ds) with
        | some ie => simp
        | none => simp
    cases hi : p.id.map validate with
    | none => simpa using cls
    | some v =>
      cases v with
      | error e => simp [staticFinish]
      | ok v => simpa using cls
  cases ht : p.tag with
  | none =>
    simp only [Option.getD_none, if_true, bind, Except.bind]
    rw [staticIdPart_eq _ _ h2]
    change Except.ok (staticFinish none _) = _
    rw [key none]
    simp [ofParts, ht]
  | some t =>
    have ht' := h1 t ht
    simp only [Option.getD_some, ht'.1, if_false, bind, Except.bind]
    cases hv : validate t with
    | error e => simp [ofParts, ht, hv, pure, Except.pure]
    | ok v =>
      simp only
      rw [staticIdPart_eq _ _ h2]
      change Except.ok (staticFinish (some t) _) = _
      rw [key (some t)]
      simp [ofParts, ht, hv]

theorem dot_parts (r : Str) : ∃ c cs, r = c ++ cs.flatMap ('.' :: ·) ∧ ∀ x ∈ c :: cs, '.' ∉ x := by
  induction r with
  | nil => exact ⟨[], [], rfl, by simp⟩
  | cons d r ih =>
    obtain ⟨c, cs, rfl, h⟩ := ih
    by_cases hd : d = '.'
    · subst hd
      exact ⟨[], c :: cs, by simp, by simpa using h⟩
    · refine ⟨d :: c, cs, rfl, ?_⟩
      simp only [List.mem_cons, forall_eq_or_imp, not_or] at h ⊢
      exact ⟨⟨fun h => hd h.symm, h.1⟩, h.2⟩

/-- Every text has parts. -/
theorem exists_parts (s : Str) : ∃ p : SelParts, p.Cut ∧ p.text = s := by
  let q : Char → Bool := fun c => c ≠ '#' && c ≠ '.'
  have hs : s.takeWhile q ++ s.dropWhile q = s := List.takeWhile_append_dropWhile
  have ht : '#' ∉ s.takeWhile q ∧ '.' ∉ s.takeWhile q := by
    constructor <;> intro h <;> have := takeWhile_forall _ h <;> simp [q] at this
  obtain ⟨tag, htag, htag'⟩ : ∃ tag : Option Str, tag.getD [] = s.takeWhile q ∧
      ∀ t, tag = some t → t ≠ [] ∧ '#' ∉ t ∧ '.' ∉ t := by
    by_cases h : s.takeWhile q = []
    · exact ⟨none, h.symm, by simp⟩
    · exact ⟨some _, rfl, by rintro t ⟨rfl⟩; exact ⟨h, ht⟩⟩
  cases hr : s.dropWhile q with
  | nil =>
    refine ⟨⟨tag, none, []⟩, ⟨htag', by simp, by simp⟩, ?_⟩
    rw [hr, List.append_nil] at hs
    simp [SelParts.text, idText, htag, hs]
  | cons c r =>
    have hc := dropWhile_cons hr
    obtain ⟨x, cs, rfl, h⟩ := dot_parts r
    by_cases hd : c = '.'
    · subst hd
      refine ⟨⟨tag, none, x :: cs⟩, ⟨htag', by simp, h⟩, ?_⟩
      rw [← hs, hr]
      simp [SelParts.text, idText, htag]
    · have : c = '#' := by
        by_contra h'
        simp [q, hd, h'] at hc
      subst this
      refine ⟨⟨tag, some x, cs⟩, ⟨htag', ?_, fun y hy => h y (by simp [hy])⟩, ?_⟩
      · rintro i ⟨rfl⟩
        exact h _ (by simp)
      · rw [← hs, hr]
        simp [SelParts.text, idText, htag]

/-- The class parts are determined by their text. -/
theorem classes_unique {cs ds : List Str} (hc : ∀ c ∈ cs, '.' ∉ c) (hd : ∀ c ∈ ds, '.' ∉ c)
    (h : cs.flatMap ('.' :: ·) = ds.flatMap ('.' :: ·)) : cs = ds := by
  cases cs with
  | nil =>
    cases ds with
    | nil => rfl
    | cons d ds => simp at h
  | cons c cs =>
    cases ds with
    | nil => simp at h
    | cons d ds =>
      simp only [List.flatMap_cons, List.cons_append, List.cons.injEq, true_and] at h
      rw [← splitBy_classes c cs hc, ← splitBy_classes d ds hd, h]

theorem classes_head {cs : List Str} {c : Char} (h : (cs.flatMap ('.' :: ·)).head? = some c) :
    c = '.' := by
  cases cs with
  | nil => cases h
  | cons d ds => simpa using h.symm

/-- A text is cut in only one way. -/
theorem parts_unique {p q : SelParts} (hp : p.Cut) (hq : q.Cut) (h : p.text = q.text) : p = q := by
  let f : Char → Bool := fun c => c ≠ '#' && c ≠ '.'
  have head : ∀ r : SelParts, ∀ c, (idText r.id ++ r.classes.flatMap ('.' :: ·)).head? = some c →
      f c = false := by
    intro r c hc
    cases hi : r.id with
    | some i =>
      rw [hi] at hc
      simp only [idText, List.cons_append, List.head?_cons, Option.some.injEq] at hc
      subst hc
      rfl
    | none =>
      rw [hi] at hc
      rw [classes_head hc]
      rfl
  have tagChars : ∀ r : SelParts, r.Cut → ∀ c ∈ r.tag.getD [], f c = true := by
    intro r hr c hc
    cases ht : r.tag with
    | none => rw [ht] at hc; cases hc
    | some t =>
      rw [ht, Option.getD_some] at hc
      have := hr.1 t ht
      simp only [f, ne_eq, Bool.and_eq_true, decide_eq_true_eq]
      exact ⟨fun h => this.2.1 (h ▸ hc), fun h => this.2.2 (h ▸ hc)⟩
  have tag : ∀ r : SelParts, r.Cut → r.text.takeWhile f = r.tag.getD [] := fun r hr => by
    rw [SelParts.text, List.append_assoc]
    exact takeWhile_append_stop (tagChars r hr) (head r)
  have hd : p.tag.getD [] = q.tag.getD [] := by rw [← tag p hp, ← tag q hq, h]
  have ht : p.tag = q.tag := by
    cases h1 : p.tag with
    | none =>
      cases h2 : q.tag with
      | none => rfl
      | some u =>
        rw [h1, h2] at hd
        exact absurd hd.symm (hq.1 u h2).1
    | some t =>
      cases h2 : q.tag with
      | none =>
        rw [h1, h2] at hd
        exact absurd hd (hp.1 t h1).1
      | some u =>
        rw [h1, h2] at hd
        exact congrArg some hd
  simp only [SelParts.text, hd, List.append_assoc] at h
  replace h := List.append_cancel_left h
  have notDot : ∀ {i : Str} {cs ds : List Str}, '#' :: (i ++ cs.flatMap ('.' :: ·)) ≠
      ds.flatMap ('.' :: ·) := by
    intro i cs ds he
    have := classes_head (cs := ds) (c := '#') (by rw [← he]; rfl)
    exact absurd this (by decide)
  obtain ⟨pt, pi, pc⟩ := p
  obtain ⟨qt, qi, qc⟩ := q
  simp only at ht h
  subst ht
  clear hd tag head tagChars
  cases pi with
  | none =>
    cases qi with
    | none =>
      have hc : pc = qc := classes_unique hp.2.2 hq.2.2 h
      rw [hc]
    | some i => exact absurd h.symm notDot
  | some i =>
    cases qi with
    | none => exact absurd h notDot
    | some j =>
      simp only [idText, List.cons_append, List.cons.injEq, true_and] at h
      have h1 : i :: pc = j :: qc := by
        rw [← splitBy_classes i pc, ← splitBy_classes j qc, h]
        · intro x hx
          rcases List.mem_cons.1 hx with rfl | hx
          · exact hq.2.1 _ rfl
          · exact hq.2.2 _ hx
        · intro x hx
          rcases List.mem_cons.1 hx with rfl | hx
          · exact hp.2.1 _ rfl
          · exact hp.2.2 _ hx
      cases h1
      rfl

theorem starts_iff {e : Event} {tag : Identifier} {as : Attributes} :
    Starts e tag as ↔ e.elementTagStart = some tag ∧ e.attributes = some as := by
  cases e <;> simp [Starts, Event.elementTagStart, Event.attributes]

/-- The checks of a static selector. -/
theorem static_checks (t i : Option Str) (cs : List Str) (tag : Identifier) (as : Attributes) :
    (∀ x, t = some x → Ascii x) → (∀ x, i = some x → Ascii x) → (∀ c ∈ cs, Ascii c ∧ '.' ∉ c) →
    (((match t with
        | some m => tag.isEq m
        | none => true) &&
      (match i with
        | some m => Attributes.hasId as m
        | none => true) &&
      (match classText cs with
        | some cs => (splitBy (· == '.') cs).all fun c => Attributes.hasClass as c
        | none => true)) = true ↔ SelParts.Describes ⟨t, i, cs⟩ tag as) := by
  intro h1 h2 h3
  rw [Bool.and_eq_true, Bool.and_eq_true, and_assoc]
  unfold SelParts.Describes
  refine and_congr ?_ (and_congr ?_ ?_)
  · cases t with
    | none => simp
    | some t =>
      simp only [Option.some.injEq, forall_eq']
      exact identifierEq_right (h1 t rfl)
  · cases i with
    | none => simp
    | some t =>
      simp only [Option.some.injEq, forall_eq']
      exact attributes_hasId_iff (h2 t rfl)
  · cases cs with
    | nil => simp [classText]
    | cons d ds =>
      simp only [classText]
      rw [splitBy_classes d ds fun x hx => (h3 x hx).2, List.all_eq_true]
      exact forall₂_congr fun c hc => attributes_hasClass_iff (h3 c hc).1

/-- Matching of a static selector stored from cut parts. -/
theorem static_matches (p : SelParts) (h1 : ∀ t, p.tag = some t → Ascii t)
    (h2 : ∀ t, p.id = some t → Ascii t) (h3 : ∀ c ∈ p.classes, Ascii c ∧ '.' ∉ c) (e : Event) :
    (Selector.static p.tag p.id (classText p.classes)).matches e = true ↔
      ∃ tag as, Starts e tag as ∧ p.Describes tag as := by
  simp only [starts_iff]
  have main := fun tag as => static_checks p.tag p.id p.classes tag as h1 h2 h3
  cases e
  case openingTag tag as =>
    refine (main tag as).trans ?_
    simp [Event.elementTagStart, Event.attributes]
  case selfClosedTag tag as =>
    refine (main tag as).trans ?_
    simp [Event.elementTagStart, Event.attributes]
  case voidTag tag as =>
    refine (main tag as).trans ?_
    simp [Event.elementTagStart, Event.attributes]
  all_goals simp [Selector.matches, Event.elementTagStart, Event.attributes]

theorem classesLoop_eq (n : Nat) (vs : List Str) (acc : List Identifier) :
    classesLoop n vs acc = match firstBad n vs with
      | some (i, e) => .error (.identifier i e)
      | none => .ok (acc ++ vs.map fun v => ⟨.actual v⟩) := by
  induction vs generalizing n acc with
  | nil => simp [classesLoop, firstBad]
  | cons v vs ih =>
    rcases validate_cases v with ⟨h, h'⟩ | ⟨h, e, h', he⟩
    · have : Identifier.fromStr v = .ok ⟨.actual v⟩ := by simp [Identifier.fromStr, h', bind,
        Except.bind, pure, Except.pure]
      simp [classesLoop, firstBad, this, h', ih]
    · have : Identifier.fromStr v = .error e := by simp [Identifier.fromStr, h', bind, Except.bind]
      simp [classesLoop, firstBad, this, h']

end Fuser
