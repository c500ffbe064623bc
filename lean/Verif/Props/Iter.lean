import Verif.Proof.Yields
import Verif.Proof.FromStr

/-!
# Property C86: the parser as an iterator
-/

namespace Fuser
open Spec

/-- C86. For every text the iterator yields finitely many items and then ends for good, without a
panic. The items are the events of the text up to its first defect; the error of that defect; and
then one complaint for each element that is still open, innermost first. -/
theorem C86_iterator (s : Str) (o : Options) :
    (∃ d, s = Doc.text d ∧ Reads d [] ∧ Opens o.maxStackDepth [] [] d [] ∧
      Yields (Iter.new s o) ((Doc.events d).map .ok)) ∨
    (∃ d b st e, s = Doc.text d ++ b ∧ Reads d b ∧ Opens o.maxStackDepth [] [] d st ∧
      (b = [] ∨ ¬ InRaw d) ∧ Fails o.maxStackDepth (Doc.text d) st b e ∧
      Yields (Iter.new s o) ((Doc.events d).map .ok ++
        (e :: complaints (stillOpen st e)).map .error)) := by
  have hst : Iter.new s o = stateAt [] s .data [] o := rfl
  rw [hst]
  rcases yields_total o _ [] s .data [] (Nat.lt_succ_self _) with ⟨d, hd, hr, ho, hy⟩ |
    ⟨d, b, st, e, hd, hr, ho, hm, hf, hy⟩
  · exact .inl ⟨d, hd, reads_iff.1 hr, ho, hy⟩
  · exact .inr ⟨d, b, st, e, hd, reads_iff.1 hr, ho, by rwa [modeEnd_iff hr (.inl rfl)] at hm, hf, hy⟩

/-- C86. The template or the error of `from_str` is what the items say up to the first error. -/
theorem C86_from_str (s : Str) (o : Options) (xs : List (Except ParseError Event))
    (h : Fits o.maxInputLen s) (hy : Yields (Iter.new s o) xs) :
    Template.fromStr s o = .ok (match firstError xs with
      | .ok es => .ok ⟨es⟩
      | .error e => .error (.parse e)) := by
  rw [fromStr_fits h]
  rcases C86_iterator s o with ⟨d, hd, hr, ho, hy'⟩ | ⟨d, b, st, e, hd, hr, ho, hm, hf, hy'⟩
  · rw [yields_unique hy hy', firstError_ok, parseEvents_ok.2 ⟨d, hd, rfl, hr, ho⟩]
  · rw [yields_unique hy hy', List.map_cons, firstError_error,
      parseEvents_error.2 ⟨d, b, st, hd, hr, ho, hm, hf⟩]

/-- Three errors: the comment, then the two open elements. -/
example : Yields (Iter.new "<a><b><!--".toList {}) [
    .ok (.openingTag (owned ['a']) []), .ok (.openingTag (owned ['b']) []),
    .error (.unclosedComment ⟨1, 7, 6⟩),
    .error (.missingClosingTags (['b'], ⟨1, 4, 3⟩) [(['a'], ⟨1, 1, 0⟩)]),
    .error (.missingClosingTags (['a'], ⟨1, 1, 0⟩) [])] :=
  .item rfl (.item rfl (.item rfl (.item rfl (.item rfl (.done rfl)))))

/-- A closing tag that does not match gives up the element it was compared with. -/
example : Yields (Iter.new "<a><b></c>".toList {}) [
    .ok (.openingTag (owned ['a']) []), .ok (.openingTag (owned ['b']) []),
    .error (.mismatchedClosingTag ['b'] ⟨1, 4, 3⟩ ['c'] ⟨1, 7, 6⟩),
    .error (.missingClosingTags (['a'], ⟨1, 1, 0⟩) [])] :=
  .item rfl (.item rfl (.item rfl (.item rfl (.done rfl))))

/-! ## The state of the iterator -/

/-- C91. In every state of the iterator, also after errors, the rest is an end of the text, and its
location is the position where it starts; the location of every open element is the position of a
`<` of the text; and there are at most as many open elements as the text has `<`. -/
theorem C91_parser_state (s : Str) (o : Options) (it : Iter) (h : Reaches (Iter.new s o) it) :
    IsPos s it.rest.location it.rest.content ∧
    (∀ x ∈ it.stack, ∃ b, IsPos s x.2 ('<' :: b)) ∧ it.stack.length ≤ s.count '<' := by
  obtain ⟨a, b, m, st, rfl, rfl, hst, hc⟩ := stateOf_reaches h
  refine ⟨⟨a, rfl, rfl⟩, ?_, ?_⟩
  · intro x hx
    obtain ⟨y, hy, rfl⟩ := List.mem_map.1 hx
    obtain ⟨z, hz⟩ := hst y hy
    exact ⟨z, y.2, hz, rfl⟩
  · change (locate st).length ≤ _
    rw [locate_length, List.count_append]
    omega

/-- C91, the counters of the parser stay below the number of bytes of the text, plus one for lines
and columns, which start at one. So they never overflow if this number does not. -/
theorem C91_parser_counters (s : Str) (o : Options) (it : Iter) (h : Reaches (Iter.new s o) it) :
    (∀ l, l = it.rest.location ∨ l ∈ it.stack.map Prod.snd →
      l.offset ≤ (s.map Char.utf8Size).sum ∧ l.line ≤ 1 + (s.map Char.utf8Size).sum ∧
      l.column ≤ 1 + (s.map Char.utf8Size).sum) ∧
    it.stack.length ≤ (s.map Char.utf8Size).sum := by
  obtain ⟨⟨a, hs, hl⟩, hst, hc⟩ := C91_parser_state s o it h
  constructor
  · rintro l (rfl | hl')
    · rw [hl, hs]
      exact posAfter_bounds a _
    · obtain ⟨x, hx, rfl⟩ := List.mem_map.1 hl'
      obtain ⟨b, a, hs, hl⟩ := hst x hx
      rw [hl, hs]
      exact posAfter_bounds a _
  · have h1 := List.count_le_length (a := '<') (l := s)
    have h2 : s.length ≤ (s.map Char.utf8Size).sum := by
      clear * -
      induction s with
      | nil => simp
      | cons c x ih =>
        have := c.utf8Size_pos
        simp only [List.length_cons, List.map_cons, List.sum_cons]
        omega
    omega

/-- C91: the state after four calls, the last of which failed. -/
example : ∃ it, Reaches (Iter.new "<a>é\n<b x></c>".toList {}) it ∧
    it.stack = [(owned ['a'], ⟨1, 1, 0⟩)] ∧ it.rest = ⟨[], ⟨2, 10, 15⟩⟩ :=
  ⟨_, .call (.call (.call (.call .start rfl) rfl) rfl) rfl, rfl, rfl⟩

end Fuser
