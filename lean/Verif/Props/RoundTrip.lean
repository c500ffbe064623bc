import Verif.Proof.Canonical

/-!
# Properties C19, C20: rendering and parsing again
-/

namespace Fuser

open Spec

/-- C19. Parsing the rendered text of a well nested canonical event list, without tags that look
like directives, gives the list back. Texts come back owned, so a list of owned texts comes back
exactly. -/
theorem C19_render_parse (es : List Event) (o : Options) (hc : Canonical es) (hb : Balanced es)
    (hd : ∀ e ∈ es, ¬ Confusing e) (hf : Fits o.maxInputLen (Template.render ⟨es⟩))
    (hn : ∀ n, o.maxStackDepth = some n → Nests n es) :
    Template.fromStr (Template.render ⟨es⟩) o = .ok (.ok ⟨es.map ownEvent⟩) ∧
    ((∀ e ∈ es, ownEvent e = e) →
      Template.fromStr (Template.render ⟨es⟩) o = .ok (.ok ⟨es⟩)) := by
  have key : Template.fromStr (Template.render ⟨es⟩) o = .ok (.ok ⟨es.map ownEvent⟩) := by
    obtain ⟨d, h1, h2, h3, -⟩ := canonical_reads hc hd
    rw [fromStr_ok, parseEvents_ok]
    refine ⟨hf, d, h1.symm, h2.symm, h3, opens_iff.2 ?_⟩
    rw [h2]
    obtain ⟨n, hb⟩ := hb
    exact ⟨⟨n, nests_own hb⟩, fun n h => nests_own (hn n h)⟩
  refine ⟨key, fun h => ?_⟩
  rw [key]
  have : es.map ownEvent = es := by
    conv_rhs => rw [← List.map_id es]
    exact List.map_congr_left h
  rw [this]

/-- The list of the example for C19. -/
def sampleEvents : List Event :=
  [.doctype (.static "html".toList), .openingTag (owned "div".toList)
    [⟨owned "id".toList, some (.static "a b ".toList)⟩, ⟨owned "x".toList, none⟩],
   .data (.actual "t & ".toList), .openingTag ⟨.static "script".toList⟩ [],
   .rawData (.actual "if (a < b) </p>".toList), .closingTag (owned "SCRIPT".toList),
   .voidTag (owned "br".toList) [], .selfClosedTag (owned "g".toList) [⟨owned "y".toList, none⟩],
   .comment (.actual " - ".toList), .closingTag (owned "div".toList)]

example : Template.render ⟨sampleEvents⟩ = ("<!doctype html><div id=\"a b \" x>t & <script>" ++
    "if (a < b) </p></SCRIPT><br><g y /><!-- - --></div>").toList := by decide +kernel

example : Template.fromStr (Template.render ⟨sampleEvents⟩) {} =
    .ok (.ok ⟨sampleEvents.map ownEvent⟩) := rfl

/-- C20, the full claim: an accepted text can be rendered and parsed again with the same result. -/
def RoundTripStable : Prop :=
  ∀ s depth t, Template.fromStr s ⟨depth, none⟩ = .ok (.ok t) →
    Template.fromStr t.render ⟨depth, none⟩ = .ok (.ok t)

/-- C20 is false: a tag name may begin with `!` when white space precedes it, and rendering drops
that white space. The rendered text is rejected, or accepted as something else. -/
theorem C20_round_trip_false :
    ¬ RoundTripStable ∧
    (∃ t, Template.fromStr "< !--x></!--x>".toList {} = .ok (.ok t) ∧
      t.render = "<!--x></!--x>".toList ∧
      Template.fromStr t.render {} = .ok (.error (.parse (.unclosedComment ⟨1, 1, 0⟩)))) ∧
    ∃ t, Template.fromStr "< !--x--/>".toList {} = .ok (.ok t) ∧
      t.render = "<!--x-- />".toList ∧
      Template.fromStr t.render {} = .ok (.error (.parse (.unclosedComment ⟨1, 1, 0⟩))) := by
  have h1 : Template.fromStr "< !--x></!--x>".toList ⟨none, none⟩ =
      .ok (.ok ⟨[.openingTag (owned "!--x".toList) [], .closingTag (owned "!--x".toList)]⟩) := rfl
  have h2 : Template.fromStr
      (Template.render ⟨[.openingTag (owned "!--x".toList) [], .closingTag (owned "!--x".toList)]⟩)
      ⟨none, none⟩ = .ok (.error (.parse (.unclosedComment ⟨1, 1, 0⟩))) := rfl
  refine ⟨?_, ⟨_, h1, rfl, h2⟩, ⟨_, rfl, rfl, rfl⟩⟩
  intro h
  have := h _ _ _ h1
  rw [h2] at this
  cases this

/-- C20, what holds: the round trip is stable exactly for the templates without start tags that look
like a comment or doctype when written without white space. Missing: those templates. -/
theorem C20_round_trip_partial (s : Str) (o : Options) (t : Template)
    (h : Template.fromStr s o = .ok (.ok t)) :
    Template.fromStr t.render ⟨o.maxStackDepth, none⟩ = .ok (.ok t) ↔
      ∀ e ∈ t.events, ¬ Confusing e := by
  rw [fromStr_ok, parseEvents_ok] at h
  obtain ⟨-, d, hs, he, hr, ho⟩ := h
  obtain ⟨es⟩ := t
  simp only at he
  have hop := opens_iff.1 ho
  constructor
  · intro h
    rw [fromStr_ok, parseEvents_ok] at h
    obtain ⟨-, d', hs', he', hr', -⟩ := h
    simp only at he'
    have hren : Template.render ⟨es⟩ = es.flatMap Event.render := rfl
    rw [hren, he'] at hs'
    change ∀ e ∈ es, _
    rw [he']
    exact rendered_not_confusing (fun x hx => reads_piece hr' hx) hs'.symm
  · intro hc
    have hcan := reads_canonical hr rfl ho
    rw [← he] at hcan hop
    refine (C19_render_parse es ⟨o.maxStackDepth, none⟩ hcan hop.1 hc (by simp [Fits]) hop.2).2 ?_
    intro e hm
    rw [he] at hm
    obtain ⟨p, hp⟩ := mem_events hm
    rcases reads_piece hr hp with h | rfl
    · exact (piece_writable h).2
    · rfl

example : ∃ t, Template.fromStr "< p\n a = \"1\"  b>x<i/ > </ P>< !a></!a>".toList {} = .ok (.ok t) ∧
    t.render = "<p a=\"1\" b>x<i /> </P><!a></!a>".toList ∧
    Template.fromStr t.render {} = .ok (.ok t) := ⟨_, rfl, rfl, rfl⟩

/-- The hypotheses of C19 hold for the sample. -/
example : Canonical (sampleEvents.map ownEvent) ∧ Balanced (sampleEvents.map ownEvent) ∧
    ∀ e ∈ sampleEvents.map ownEvent, ¬ Confusing e := by
  have h : Template.fromStr (Template.render ⟨sampleEvents⟩) {} =
    .ok (.ok ⟨sampleEvents.map ownEvent⟩) := rfl
  have h' := (C20_round_trip_partial _ _ _ h).1 rfl
  rw [fromStr_ok, parseEvents_ok] at h
  obtain ⟨-, d, -, he, hr, ho⟩ := h
  have he : sampleEvents.map ownEvent = Doc.events d := he
  exact ⟨he ▸ reads_canonical hr rfl ho, he ▸ (opens_iff.1 ho).1, h'⟩

/-- C20, for templates made of ordinary names: if no start tag name begins with `!`, the round trip
is stable. -/
theorem C20_round_trip_ordinary_partial (s : Str) (o : Options) (t : Template)
    (h : Template.fromStr s o = .ok (.ok t))
    (hb : ∀ e ∈ t.events, ∀ n as, Starts e n as → n.str.head? ≠ some '!') :
    Template.fromStr t.render ⟨o.maxStackDepth, none⟩ = .ok (.ok t) := by
  rw [C20_round_trip_partial s o t h]
  have key : ∀ (n : Identifier) as, n.str.head? ≠ some '!' → ¬ LooksLikeDirective n as := by
    rintro n as hn (⟨x, hx⟩ | hd | ⟨h1, -⟩)
    · apply hn; rw [← hx]; rfl
    · apply hn
      generalize n.str = m at hd
      cases m with
      | nil => cases hd
      | cons c d =>
        cases hd with
        | cons h1 h2 =>
          rw [sameLetter_bang h1]
          rfl
    · apply hn; rw [h1]; rfl
  intro e he hc
  cases e with
  | openingTag n as => exact key n as (hb _ he n as (.inl rfl)) hc
  | selfClosedTag n as => exact key n as (hb _ he n as (.inr (.inl rfl))) hc
  | voidTag n as => exact key n as (hb _ he n as (.inr (.inr rfl))) hc
  | _ => cases hc

end Fuser
