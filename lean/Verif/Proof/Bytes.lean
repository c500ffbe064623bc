import Verif.Proof.Size
import Verif.Proof.AttrOps
import Verif.Proof.Show
import Verif.Proof.Decide

/-!
# Lemmas on the length of texts
-/

namespace Fuser

open Spec

theorem bytes_nil : bytes [] = 0 := rfl

theorem bytes_cons (c : Char) (s : Str) : bytes (c :: s) = c.utf8Size + bytes s := by simp [bytes]

theorem bytes_append (a b : Str) : bytes (a ++ b) = bytes a + bytes b := by simp [bytes]

theorem bytes_length (s : Str) : s.length ≤ bytes s := by
  induction s with
  | nil => simp [bytes]
  | cons c s ih =>
    have := Char.utf8Size_pos c
    rw [bytes_cons, List.length_cons]
    omega

theorem bytes_pos {s : Str} (h : s ≠ []) : 1 ≤ bytes s := by
  have := bytes_length s
  cases s with
  | nil => exact absurd rfl h
  | cons c s => rw [List.length_cons] at this; omega

theorem bytes_flatten (l : List Str) : bytes l.flatten = (l.map bytes).sum := by
  induction l with
  | nil => rfl
  | cons s l ih => simp [bytes_append, ih]

/-! ## Attributes -/

/-- The length of the text of attributes. -/
def attrBytes (as : Attributes) : Nat := (as.map fun a => bytes (attributeText a)).sum

theorem attrBytes_nil : attrBytes [] = 0 := rfl

theorem attrBytes_cons (a : Attribute) (as : Attributes) :
    attrBytes (a :: as) = bytes (attributeText a) + attrBytes as := by simp [attrBytes]

theorem attrBytes_append (as bs : Attributes) :
    attrBytes (as ++ bs) = attrBytes as + attrBytes bs := by simp [attrBytes]

theorem attrBytes_filter (as : Attributes) (f : Attribute → Bool) :
    attrBytes (as.filter f) ≤ attrBytes as := by
  induction as with
  | nil => simp
  | cons a as ih =>
    rw [List.filter_cons]
    split
    · simp only [attrBytes_cons]; omega
    · simp only [attrBytes_cons]; omega

theorem bytes_startText (t : Identifier) (as : Attributes) :
    bytes (startText t as) = 1 + bytes t.str + attrBytes as := by
  have : bytes ['<'] = 1 := by decide
  rw [startText, show ('<' :: t.str) = ['<'] ++ t.str from rfl, bytes_append, bytes_append,
    bytes_flatten, this, attrBytes, List.map_map]
  rfl

theorem words_bytes {v : Str} {ws : List Str} (h : Words v ws) {ws' : List Str}
    (hs : List.Sublist ws' ws) :
    bytes (joinWords ws') ≤ bytes v ∧
    (ws' ≠ [] → (∀ c, v.head? = some c → Space c) → bytes (joinWords ws') + 1 ≤ bytes v) := by
  induction h generalizing ws' with
  | done _ =>
    cases hs
    simp [joinWords, bytes]
  | @word gap w rest ws hg hw hws hr hrest ih =>
    have hgap : (∀ c, (gap ++ w ++ rest).head? = some c → Space c) → 1 ≤ bytes gap := by
      intro h
      apply bytes_pos
      rintro rfl
      cases w with
      | nil => exact hw rfl
      | cons c w => exact hws c (by simp) (h c (by simp))
    simp only [bytes_append]
    cases hs with
    | cons _ hs =>
      obtain ⟨h1, h2⟩ := ih hs
      have := bytes_pos hw
      exact ⟨by omega, fun _ _ => by omega⟩
    | cons_cons _ hs =>
      next ws'' =>
      obtain ⟨h1, h2⟩ := ih hs
      have key : bytes (joinWords (w :: ws'')) ≤ bytes w + bytes rest := by
        cases ws'' with
        | nil => simp [joinWords]
        | cons u us =>
          have h3 := h2 (by simp) hr
          rw [joinWords, bytes_append, bytes_cons]
          have : (' ').utf8Size = 1 := by decide
          omega
      refine ⟨by omega, fun _ h => ?_⟩
      have := hgap h
      omega

theorem value_text (n : Identifier) (v : Value) :
    bytes (attributeText ⟨n, some v⟩) = bytes n.str + bytes v.str + 4 := by
  have h1 : bytes ['"'] = 1 := by decide
  simp only [attributeText, List.append_assoc, List.cons_append, bytes_cons, bytes_append, h1]
  have : (' ').utf8Size = 1 ∧ ('=').utf8Size = 1 ∧ ('"').utf8Size = 1 := by decide
  omega

theorem bare_text (n : Identifier) : bytes (attributeText ⟨n, none⟩) = bytes n.str + 1 := by
  simp only [attributeText, bytes_cons]
  have : (' ').utf8Size = 1 := by decide
  omega

theorem removeClass_bytes (x : Str) (a : Attribute) :
    attrBytes (a.removeClass x).toList ≤ bytes (attributeText a) := by
  unfold Attribute.removeClass Attribute.makeWithout
  split
  · simp [attrBytes]
  · next u hu =>
    split
    · simp [attrBytes]
    · split at hu
      · cases hu
      · split at hu
        · cases hu
        · next cs hcs =>
          cases hu
          unfold Attribute.classes at hcs
          split at hcs
          · cases hv : a.value with
            | none => rw [hv] at hcs; cases hcs
            | some v =>
              rw [hv] at hcs
              cases hcs
              have hw := words_splitWhitespace v.str
              have hf : (splitWhitespace v.str).filter (fun w => !w.isEmpty) =
                  splitWhitespace v.str := by
                rw [List.filter_eq_self]
                intro w hw
                simp [(splitWhitespace_ne_nil hw).1]
              have h1 := joinClasses_eq x (splitWhitespace v.str) EncodedText.new []
                (by simp) (fun w hw => (splitWhitespace_ne_nil hw).1) rfl
              have h2 := (words_bytes hw (List.filter_sublist
                (p := fun c => !identifierEq x c))).1
              dsimp only
              rw [hf]
              rw [List.nil_append] at h1
              rw [← h1] at h2
              obtain ⟨n, o⟩ := a
              cases hv
              simp only [Option.toList, attrBytes_cons, attrBytes_nil, value_text]
              omega
          · cases hcs

theorem attributes_bytes (op : AttrOp) (as : Attributes) :
    attrBytes (op.apply as) ≤ attrBytes as + attributeCost op := by
  cases op with
  | removeClass x =>
    simp only [AttrOp.apply, Attributes.removeClass, attributeCost]
    split
    · next h =>
      clear h
      induction as with
      | nil => simp
      | cons a as ih =>
        have h1 := removeClass_bytes x.str a
        rw [List.filterMap_cons]
        cases h2 : a.removeClass x.str with
        | none => simp only [attrBytes_cons]; omega
        | some b =>
          rw [h2] at h1
          simp only [Option.toList, attrBytes_cons, attrBytes_nil] at h1 ⊢
          omega
    · omega
  | removeAttribute n => exact attrBytes_filter _ _
  | addAttribute n v =>
    simp [AttrOp.apply, Attributes.addAttribute, attributeCost, attrBytes_append, attrBytes_cons,
      attrBytes_nil]
  | replaceAttribute n v =>
    simp only [AttrOp.apply, Attributes.replaceAttribute, attributeCost]
    have := attrBytes_filter as fun a => !a.name.eq n
    split
    · simp only [attrBytes_append, attrBytes_cons, attrBytes_nil]; omega
    · omega
  | setAttribute n v =>
    simp only [AttrOp.apply, Attributes.setAttribute, attributeCost]
    have := attrBytes_filter as fun a => !a.name.eq n
    simp only [attrBytes_append, attrBytes_cons, attrBytes_nil]; omega
  | addToAttribute n v sep =>
    simp only [AttrOp.apply, attributeCost, value_text]
    induction as with
    | nil => simp [Attributes.addToAttribute, attrBytes_cons, attrBytes_nil, value_text]
    | cons a as ih =>
      rw [Attributes.addToAttribute]
      split
      · obtain ⟨m, o⟩ := a
        cases o with
        | none => simp only [attrBytes_cons, value_text, bare_text]; omega
        | some u => simp only [attrBytes_cons, value_text, join_str, bytes_append]; omega
      · simp only [attrBytes_cons]; omega

theorem bytes_end : bytes ['>'] = 1 := by decide

theorem bytes_selfEnd : bytes " />".toList = 3 := by decide

theorem bytes_closeStart : bytes "</".toList = 2 := by decide

theorem bytes_opening (t : Identifier) (as : Attributes) :
    bytes (eventText (.openingTag t as)) = bytes t.str + attrBytes as + 2 := by
  change bytes (startText t as ++ ['>']) = _
  rw [bytes_append, bytes_startText, bytes_end]
  omega

theorem bytes_void (t : Identifier) (as : Attributes) :
    bytes (eventText (.voidTag t as)) = bytes t.str + attrBytes as + 2 := by
  change bytes (startText t as ++ ['>']) = _
  rw [bytes_append, bytes_startText, bytes_end]
  omega

theorem bytes_selfClosed (t : Identifier) (as : Attributes) :
    bytes (eventText (.selfClosedTag t as)) = bytes t.str + attrBytes as + 4 := by
  change bytes (startText t as ++ " />".toList) = _
  rw [bytes_append, bytes_startText, bytes_selfEnd]
  omega

theorem bytes_closing (t : Identifier) :
    bytes (eventText (.closingTag t)) = bytes t.str + 3 := by
  change bytes ("</".toList ++ t.str ++ ['>']) = _
  rw [bytes_append, bytes_append, bytes_closeStart, bytes_end]
  omega

theorem attribute_step_bytes (op : AttrOp) (e : Event) :
    bytes (eventText (withAttributes op.apply e)) ≤ bytes (eventText e) + attributeCost op := by
  cases e with
  | openingTag t as =>
    have := attributes_bytes op as
    rw [withAttributes, bytes_opening, bytes_opening]
    omega
  | selfClosedTag t as =>
    have := attributes_bytes op as
    rw [withAttributes, bytes_selfClosed, bytes_selfClosed]
    omega
  | voidTag t as =>
    have := attributes_bytes op as
    rw [withAttributes, bytes_void, bytes_void]
    omega
  | _ => exact Nat.le_add_right _ _

theorem fair_count : Fair fun _ => 1 := ⟨fun _ _ => Nat.le_refl _, fun _ _ => Nat.le_refl _⟩

theorem fair_bytes : Fair fun e => bytes (eventText e) := by
  constructor
  · intro e he
    cases e with
    | openingTag t as => have := bytes_opening t as; dsimp only; omega
    | selfClosedTag t as => have := bytes_selfClosed t as; dsimp only; omega
    | voidTag t as => have := bytes_void t as; dsimp only; omega
    | _ => cases he
  · intro t as
    have h1 := bytes_opening t as
    have h2 := bytes_selfClosed t as
    have h3 := bytes_closing t
    dsimp only
    omega

/-! ## Parsed texts -/

theorem blank_before {w r : Str} (h : Spec.Ends (w ++ r)) {c : Char} (hc : r.head? = some c)
    (ht : c ∉ terminators) : 1 ≤ bytes w := by
  apply bytes_pos
  rintro rfl
  exact ht (h c (by simpa using hc))

theorem name_head {n : Str} (h : Name n) : ∃ c m, n = c :: m ∧ c ∉ terminators := by
  cases n with
  | nil => exact absurd rfl h.1.1
  | cons c m => exact ⟨c, m, rfl, h.2 c (by simp)⟩

theorem tail_head {as : Attributes} {sc : Bool} {r : Str} (h : TagTail as sc r) (ha : as ≠ []) :
    ∃ c, r.head? = some c ∧ c ∉ terminators := by
  cases h with
  | «open» => exact absurd rfl ha
  | selfClose => exact absurd rfl ha
  | bare hn =>
    obtain ⟨c, m, rfl, hc⟩ := name_head hn
    exact ⟨c, by simp, hc⟩
  | valued hn =>
    obtain ⟨c, m, rfl, hc⟩ := name_head hn
    exact ⟨c, by simp, hc⟩

/-- The length of the end of a start tag. -/
def endBytes : Bool → Nat
  | true => 3
  | false => 1

/-- What is missing for the space before the first attribute. -/
def owedSpace : Attributes → Nat
  | [] => 0
  | _ :: _ => 4

theorem tail_bytes {as : Attributes} {sc : Bool} {r : Str} (h : TagTail as sc r) :
    4 * (attrBytes as + endBytes sc) ≤ 5 * bytes r + 2 + owedSpace as := by
  induction h with
  | «open» => decide
  | @selfClose w _ =>
    have h1 : ('/').utf8Size = 1 := by decide
    have h2 : ('>').utf8Size = 1 := by decide
    simp only [bytes_cons, bytes_append, bytes_nil, attrBytes_nil, endBytes, owedSpace, h1, h2]
    omega
  | @bare n w r as sc hn hw he ht ih =>
    have h2 : owedSpace as ≤ 4 * bytes w := by
      cases as with
      | nil => simp [owedSpace]
      | cons a as =>
        obtain ⟨c, hc, hct⟩ := tail_head ht (by simp)
        have := blank_before he hc hct
        simp only [owedSpace]
        omega
    have h3 : bytes (owned n).str = bytes n := rfl
    simp only [attrBytes_cons, bare_text, bytes_append, h3]
    have h4 : owedSpace (⟨owned n, none⟩ :: as) = 4 := rfl
    omega
  | @valued n w₁ w₂ w₃ v w₄ r as sc hn _ _ _ _ _ _ _ ht ih =>
    have h1 : ('=').utf8Size = 1 := by decide
    have h2 : ('"').utf8Size = 1 := by decide
    have h3 : bytes (owned n).str = bytes n := rfl
    have h4 : bytes (Deferred.actual v).str = bytes v := rfl
    have h5 : 1 ≤ bytes n := bytes_pos hn.1.1
    have h6 : owedSpace as ≤ 4 := by cases as <;> simp [owedSpace]
    simp only [attrBytes_cons, value_text, bytes_append, bytes_cons, h1, h2, h3, h4]
    have h7 : owedSpace (⟨owned n, some (.actual v)⟩ :: as) = 4 := rfl
    omega

theorem sameName_length {a b : Str} (h : SameName a b) : a.length = b.length :=
  List.Forall₂.length_eq h

theorem piece_bytes {e : Event} {p : Str} (h : Piece e p) :
    4 * bytes (eventText e) ≤ 5 * bytes p ∧ 1 ≤ bytes p ∧
    (∀ t as, e = .openingTag t as → 2 ≤ bytes p) := by
  cases h with
  | @data s hs _ =>
    refine ⟨?_, bytes_pos hs, by simp⟩
    change 4 * bytes p ≤ _
    omega
  | @comment s _ =>
    have h1 : bytes "<!--".toList = 4 := by decide
    have h2 : bytes "-->".toList = 3 := by decide
    refine ⟨?_, ?_, by simp⟩
    · change 4 * bytes ("<!--".toList ++ s ++ "-->".toList) ≤ _
      omega
    · rw [bytes_append, bytes_append, h1, h2]; omega
  | @doctype w₁ d w₂ c w₃ _ hd _ he hc _ =>
    have h1 : bytes "<!".toList = 2 := by decide
    have h2 : bytes "<!doctype ".toList = 10 := by decide
    have h3 : 7 ≤ bytes d := by
      have := bytes_length d
      rw [sameName_length hd] at this
      exact this
    have h4 : 1 ≤ bytes w₂ := by
      cases hc with
      | @cons x y c' _ hx _ =>
        refine blank_before he (c := x) rfl ?_
        intro hm
        simp only [terminators, List.mem_cons, List.not_mem_nil, or_false] at hm
        rcases hm with rfl | rfl | rfl | rfl | rfl | rfl | rfl | rfl | rfl | rfl | rfl <;>
          exact absurd hx (by decide)
    refine ⟨?_, ?_, by simp⟩
    · change 4 * bytes ("<!doctype ".toList ++ c ++ ['>']) ≤ _
      simp only [bytes_append, h1, h2, bytes_end]
      omega
    · simp only [bytes_append, h1]; omega
  | @closing w₁ w₂ n w₃ _ _ hn _ _ =>
    have h1 : ('<').utf8Size = 1 := by decide
    have h2 : ('/').utf8Size = 1 := by decide
    refine ⟨?_, ?_, by simp⟩
    · rw [bytes_closing]
      change 4 * (bytes n + 3) ≤ _
      have h3 : ('>').utf8Size = 1 := by decide
      simp only [List.cons_append, bytes_append, bytes_cons, bytes_nil, h1, h2, h3]
      omega
    · simp only [List.cons_append, bytes_append, bytes_cons, h1]; omega
  | @start w₁ n w₂ as sc r e _ hn _ he ht _ _ hse =>
    have h1 : ('<').utf8Size = 1 := by decide
    have h3 : bytes (owned n).str = bytes n := rfl
    have h5 : 1 ≤ bytes n := bytes_pos hn.1.1
    have h2 : owedSpace as ≤ 4 * bytes w₂ := by
      cases as with
      | nil => simp [owedSpace]
      | cons a as =>
        obtain ⟨c, hc, hct⟩ := tail_head ht (by simp)
        have := blank_before he hc hct
        simp only [owedSpace]
        omega
    have h4 := tail_bytes ht
    simp only [List.cons_append, bytes_append, bytes_cons, h1]
    refine ⟨?_, by omega, fun _ _ _ => by omega⟩
    cases hse with
    | void =>
      rw [bytes_void, h3]
      cases sc <;> simp only [endBytes] at h4 <;> omega
    | selfClosed =>
      rw [bytes_selfClosed, h3]
      simp only [endBytes] at h4
      omega
    | opening =>
      rw [bytes_opening, h3]
      simp only [endBytes] at h4
      omega

theorem doc_cons (e : Event) (p : Str) (d : Doc) : Doc.text ((e, p) :: d) = p ++ Doc.text d := by
  simp [Doc.text]

theorem reads_bytes {d : Doc} {b : Str} (h : Reads d b) :
    4 * weight (fun e => bytes (eventText e)) d.events ≤ 5 * bytes d.text ∧
    d.length ≤ bytes d.text := by
  induction h with
  | nil => simp [Doc.events, Doc.text, weight, bytes]
  | @plain e p d b hp _ _ _ ih =>
    have := piece_bytes hp
    rw [doc_cons, bytes_append]
    simp only [Doc.events, weight, List.map_cons, List.sum_cons, List.length_cons] at ih ⊢
    omega
  | @rawStart e p t b hp ho =>
    have := piece_bytes hp
    rw [doc_cons, bytes_append]
    simp only [Doc.events, weight, List.map_cons, List.sum_cons, List.length_cons, List.map_nil,
      List.sum_nil, List.length_nil]
    omega
  | @raw e p t c d b hp ho _ _ _ _ ih =>
    obtain ⟨as, rfl, -⟩ := ho
    have h1 := piece_bytes hp
    have h2 := h1.2.2 _ _ rfl
    have h3 : bytes (eventText (.rawData (.actual c))) = bytes c := rfl
    rw [doc_cons, doc_cons, bytes_append, bytes_append]
    simp only [Doc.events, weight, List.map_cons, List.sum_cons, List.length_cons, h3] at ih ⊢
    omega

end Fuser
