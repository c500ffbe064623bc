import Verif.Proof.NoLookAhead
import Verif.Props.Iter

/-!
# Properties of texts that go on
-/

namespace Fuser

open Spec

/-- C104: the parser does not look ahead: every event of a text is yielded likewise, and in the same
place, when the text goes on in whatever way. Only text at the very end of the input may become
longer. -/
theorem C104_events (s z : Str) (o : Options) (xs ys : List (Except ParseError Event))
    (hx : Yields (Iter.new s o) xs) (hy : Yields (Iter.new (s ++ z) o) ys) :
    (settled xs).map .ok <+: ys :=
  settled_prefix o z hx (a := []) (b := s) (m := .data) (st := []) rfl hy

/-- C104: a first error that lies in what has been read is final: the text going on in whatever way
is answered by the very same items. So is every first error in a text that ends with `>`, unless it
complains about the end of the input. -/
theorem C104_errors (s z : Str) (o : Options) (xs : List (Except ParseError Event)) (e : ParseError)
    (hx : Yields (Iter.new s o) xs) (he : firstError xs = .error e)
    (hf : Final e ∨ (¬ Unfinished e ∧ s.getLast? = some '>')) :
    Yields (Iter.new (s ++ z) o) xs :=
  final_same o z hx (a := []) (b := s) (m := .data) (st := []) rfl he
    (hf.imp id fun h => ⟨h.1, .inr h.2⟩)

/-- C104 for `from_str`: no continuation repairs a text with such an error. -/
theorem C104_from_str (s z : Str) (o : Options) (e : ParseError)
    (h : Template.fromStr s o = .ok (.error (.parse e))) (hlen : Fits o.maxInputLen (s ++ z))
    (hf : Final e ∨ (¬ Unfinished e ∧ s.getLast? = some '>')) :
    Template.fromStr (s ++ z) o = .ok (.error (.parse e)) := by
  have hs : Fits o.maxInputLen s := (fromStr_error.1 h).1
  obtain ⟨xs, hx⟩ : ∃ xs, Yields (Iter.new s o) xs := by
    rcases C86_iterator s o with ⟨d, -, -, -, hy⟩ | ⟨d, b, st, e, -, -, -, -, -, hy⟩
    · exact ⟨_, hy⟩
    · exact ⟨_, hy⟩
  rw [C86_from_str s o xs hs hx] at h
  have he : firstError xs = .error e := by
    cases h' : firstError xs with
    | ok es => rw [h'] at h; cases h
    | error e' => rw [h'] at h; cases h; rfl
  rw [C86_from_str (s ++ z) o xs hlen (C104_errors s z o xs e hx he hf), he]

/-- After `<p>a<br>b` the events up to the line break are known, and `b` is not. -/
example : settled [.ok (.openingTag (owned ['p']) []), .ok (.data (.actual ['a'])),
    .ok (.voidTag (owned ['b', 'r']) []), .ok (.data (.actual ['b'])),
    .error (.missingClosingTags (['p'], ⟨1, 1, 0⟩) [])] =
    [.openingTag (owned ['p']) [], .data (.actual ['a']), .voidTag (owned ['b', 'r']) []] := rfl

/-- Before a tag that has not been completed the text is known. -/
example : settled [.ok (.data (.actual ['a'])), .error (.expectedOpeningTagIdentifier ⟨1, 3, 2⟩)] =
    [.data (.actual ['a'])] := rfl

/-- The text of a script is known when its closing tag has been read, whatever follows. -/
example (z : Str) (ys : List (Except ParseError Event))
    (hy : Yields (Iter.new ("<script>a</b></script>".toList ++ z) {}) ys) :
    [.ok (.openingTag (owned "script".toList) []), .ok (.rawData (.actual "a</b>".toList)),
      .ok (.closingTag (owned "script".toList))] <+: ys :=
  C104_events "<script>a</b></script>".toList z {} _ ys
    (.item rfl (.item rfl (.item rfl (.done rfl)))) hy

/-- A closing tag that does not match is never repaired. -/
example (z : Str) : Template.fromStr ("<p></q>".toList ++ z) {} =
    .ok (.error (.parse (.mismatchedClosingTag ['p'] ⟨1, 1, 0⟩ ['q'] ⟨1, 4, 3⟩))) :=
  C104_from_str _ z {} _ rfl (by intro n hn; cases hn) (.inl trivial)

/-- A missing value is never repaired once the tag has ended. -/
example (z : Str) : Template.fromStr ("<p a=>".toList ++ z) {} =
    .ok (.error (.parse (.invalidAttributeValue ⟨1, 6, 5⟩ ['p'] ['a']))) :=
  C104_from_str _ z {} _ rfl (by intro n hn; cases hn) (.inr ⟨id, rfl⟩)

/-- Without the `>` at the end it may be. -/
example : Template.fromStr "<br a=".toList {} =
      .ok (.error (.parse (.invalidAttributeValue ⟨1, 7, 6⟩ ['b', 'r'] ['a']))) ∧
    Template.fromStr ("<br a=".toList ++ "\"b\">".toList) {} =
      .ok (.ok ⟨[.voidTag (owned ['b', 'r']) [⟨owned ['a'], some (.actual ['b'])⟩]]⟩) :=
  ⟨rfl, rfl⟩

/-- A comment that has not ended may still end, even after a `>`. -/
example : Template.fromStr "<!-->".toList {} =
      .ok (.error (.parse (.unclosedComment ⟨1, 1, 0⟩))) ∧
    Template.fromStr ("<!-->".toList ++ "-->".toList) {} =
      .ok (.ok ⟨[.comment (.actual ['>'])]⟩) :=
  ⟨rfl, rfl⟩

end Fuser
