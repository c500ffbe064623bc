import Verif.Proof.Respell
import Verif.Props.Alike

/-!
# Property C85: the layout of tags does not matter
-/

namespace Fuser

open Spec

/-- C85. When texts give equal templates: exactly when one is the other with tags spelled in another
way. In particular a respelled text is accepted, under every nesting limit under which the text is
accepted. -/
theorem C85_respelled (s s' : Str) (o : Options) (t : Template)
    (h : Template.fromStr s o = .ok (.ok t)) (hlen : Fits o.maxInputLen s') :
    (∃ t', Template.fromStr s' o = .ok (.ok t') ∧ t.eq t' = true) ↔
      ∃ d d', Doc.text d = s ∧ Doc.text d' = s' ∧ Reads d [] ∧ Respelled d d' := by
  have ha := ascii_parsed h
  rw [fromStr_ok, parseEvents_ok] at h
  obtain ⟨-, d, rfl, h2, h3, h4⟩ := h
  constructor
  · rintro ⟨t', h', he⟩
    rw [fromStr_ok, parseEvents_ok] at h'
    obtain ⟨-, d', rfl, k2, k3, k4⟩ := h'
    have hl := (templateEq_iff.1 he).1
    rw [LikeTemplate, h2, k2] at hl
    exact ⟨d, d', rfl, rfl, h3, respelled_of_like h3 k3 hl⟩
  · rintro ⟨d₁, d', he, rfl, h1, hr⟩
    obtain rfl := reads_unique h3 rfl h1 he
    have hl := respelled_like hr
    rw [opens_iff] at h4
    refine ⟨⟨Doc.events d'⟩, ?_, templateEq_iff.2 ⟨by rw [LikeTemplate, h2]; exact hl, ha⟩⟩
    rw [fromStr_ok, parseEvents_ok]
    exact ⟨hlen, d', rfl, rfl, reads_respelled h1 hr, opens_iff.2
      ⟨h4.1.imp fun _ h => nests_like case_proper h hl, fun n hn =>
        nests_like case_proper (h4.2 n hn) hl⟩⟩

/-- C85, a text is read in one way only: the grammar is not ambiguous. -/
theorem C85_one_reading (d d' : Doc) (h : Reads d []) (h' : Reads d' [])
    (ht : Doc.text d = Doc.text d') : d = d' :=
  reads_unique h' rfl h ht

/-- Two spellings of a page, for the examples. -/
def plainSpelling : Str := "<!DOCTYPE html><p class=\"x\">a<br></p><script>&</script>".toList

/-- See `plainSpelling`. -/
def oddSpelling : Str :=
  "<! docType  html >< P\tCLASS = \" x\" >a<Br / ></ p ><Script >&</ SCRIPT>".toList

/-- See `plainSpelling`. -/
def plainTemplate : Template :=
  ⟨[.doctype (.actual "html".toList),
    .openingTag (owned ['p']) [⟨owned "class".toList, some (.actual ['x'])⟩],
    .data (.actual ['a']), .voidTag (owned "br".toList) [], .closingTag (owned ['p']),
    .openingTag (owned "script".toList) [], .rawData (.actual ['&']),
    .closingTag (owned "script".toList)]⟩

/-- See `plainSpelling`. -/
def oddTemplate : Template :=
  ⟨[.doctype (.actual "html".toList),
    .openingTag (owned ['P']) [⟨owned "CLASS".toList, some (.actual ['x'])⟩],
    .data (.actual ['a']), .voidTag (owned "Br".toList) [], .closingTag (owned ['p']),
    .openingTag (owned "Script".toList) [], .rawData (.actual ['&']),
    .closingTag (owned "SCRIPT".toList)]⟩

/-- C85: the hypotheses and both sides hold for the two spellings. -/
example : Template.fromStr plainSpelling {} = .ok (.ok plainTemplate) ∧
    Template.fromStr oddSpelling {} = .ok (.ok oddTemplate) ∧
    plainTemplate.eq oddTemplate = true ∧
    ∃ d d', Doc.text d = plainSpelling ∧ Doc.text d' = oddSpelling ∧ Reads d [] ∧
      Respelled d d' := by
  have h : Template.fromStr plainSpelling {} = .ok (.ok plainTemplate) := by rfl
  have h' : Template.fromStr oddSpelling {} = .ok (.ok oddTemplate) := by rfl
  have he : plainTemplate.eq oddTemplate = true := by decide +kernel
  exact ⟨h, h', he, (C85_respelled _ _ _ _ h (by intro n hn; cases hn)).1 ⟨_, h', he⟩⟩

/-- C85: white space at the end of a value is not layout. -/
example : ∃ t', Template.fromStr "<br id=\"a\">".toList {} = .ok (.ok ⟨[.voidTag (owned "br".toList)
      [⟨owned "id".toList, some (.actual ['a'])⟩]]⟩) ∧
    Template.fromStr "<br id=\"a \">".toList {} = .ok (.ok t') ∧
    Template.eq ⟨[.voidTag (owned "br".toList) [⟨owned "id".toList, some (.actual ['a'])⟩]]⟩ t' =
      false :=
  ⟨_, rfl, rfl, by decide +kernel⟩

end Fuser
