import Verif.Proof.Concat

/-!
# Properties of templates one after the other
-/

namespace Fuser

open Spec

/-- C79: a text after an accepted text is parsed as if it stood alone: the accepted pages are put
one after the other (texts at the seam become one text), and a parse error of the second text is
reported with all its positions counted from the end of the first text. -/
theorem C79_concat (s s' : Str) (o : Options) (t : Template)
    (h : Template.fromStr s o = .ok (.ok t)) (hlen : Fits o.maxInputLen (s ++ s')) :
    (∀ u, Template.fromStr s' o = .ok (.ok u) →
      Template.fromStr (s ++ s') o = .ok (.ok ⟨glue t.events u.events⟩)) ∧
    (∀ e, Template.fromStr s' o = .ok (.error (.parse e)) →
      Template.fromStr (s ++ s') o = .ok (.error (.parse (shiftError (posAfter s) e)))) := by
  rw [fromStr_ok, parseEvents_ok] at h
  obtain ⟨-, d, rfl, h2, h3, h4⟩ := h
  constructor
  · intro u hu
    rw [fromStr_ok, parseEvents_ok] at hu
    obtain ⟨-, d', rfl, k2, k3, k4⟩ := hu
    obtain ⟨D, e1, e2, e3, e4, -⟩ := concat_reads h3 rfl h4 k3 (fun _ => .inl rfl) k4
    rw [fromStr_ok, parseEvents_ok]
    exact ⟨hlen, D, e1.symm, by rw [h2, k2, e2], e3, e4⟩
  · intro e he
    rw [fromStr_error, parseEvents_error] at he
    obtain ⟨-, d', b, st, rfl, k2, k3, k4, k5⟩ := he
    obtain ⟨D, e1, e2, e3, e4, e5⟩ := concat_reads h3 rfl h4 k2 (fun _ => fails_head k5) k3
    rw [fromStr_error, parseEvents_error]
    refine ⟨hlen, D, b, shiftOpened (Doc.text d) st, by rw [e1, List.append_assoc], e3, e4,
      k4.imp id fun k q => k (e5 q), ?_⟩
    rw [e1]
    exact shift_fails _ k5

/-- The pages `<p>a</p>x` and `y<br>`. -/
example : Template.fromStr ("<p>a</p>x".toList ++ "y<br>".toList) {} = .ok (.ok ⟨glue
    [.openingTag (owned ['p']) [], .data (.actual ['a']), .closingTag (owned ['p']),
      .data (.actual ['x'])]
    [.data (.actual ['y']), .voidTag (owned ['b', 'r']) []]⟩) :=
  (C79_concat _ _ _ ⟨[.openingTag (owned ['p']) [], .data (.actual ['a']),
    .closingTag (owned ['p']), .data (.actual ['x'])]⟩ rfl (by intro n hn; cases hn)).1
    ⟨[.data (.actual ['y']), .voidTag (owned ['b', 'r']) []]⟩ rfl

/-- The texts at the seam are one text. -/
example : glue
    [.openingTag (owned ['p']) [], .data (.actual ['a']), .closingTag (owned ['p']),
      .data (.actual ['x'])]
    [.data (.actual ['y']), .voidTag (owned ['b', 'r']) []] =
    [.openingTag (owned ['p']) [], .data (.actual ['a']), .closingTag (owned ['p']),
      .data (.actual ['x', 'y']), .voidTag (owned ['b', 'r']) []] := rfl

/-- An unclosed comment after a page of two lines. -/
example : Template.fromStr ("<p>\n</p>".toList ++ "é<!--".toList) {} =
    .ok (.error (.parse (.unclosedComment ⟨2, 6, 10⟩))) :=
  (C79_concat _ _ _ ⟨[.openingTag (owned ['p']) [], .data (.actual ['\n']),
    .closingTag (owned ['p'])]⟩ rfl (by intro n hn; cases hn)).2
    (.unclosedComment ⟨1, 2, 2⟩) rfl

end Fuser
