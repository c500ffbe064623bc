import Verif.Props.Calls
import Verif.Props.RoundTrip
import Verif.Proof.Insert

/-!
# Property C56: inserted text stays text
-/

namespace Fuser

open Spec

/-- Putting a text in place of the contents of all elements a selector finds. -/
def putText (s : Selector) (d : Deferred) : Prog .gen .gen :=
  Prog.select .src (.ok s) fun _ => Prog.replaceContents .src (.data d)

/-- C56, full statement: if static text replaces the contents of elements of a parsed template, the
rendered page parses as exactly the new events. -/
def InsertedTextStays : Prop :=
  ∀ (x : Str) (t : Template), Template.fromStr x {} = .ok (.ok t) →
  ∀ (s : Str) (d : Deferred), s ≠ [] → fromUnencodedStaticStr s = .ok d →
  ∀ sel, OnlyStarts sel → ∃ t', t.transform (putText sel d) = some (.ok t') ∧
    Template.fromStr t'.render {} = .ok (.ok ⟨t'.events.map ownEvent⟩)

theorem data_page (d : Deferred) : PageContent (.data d) := by
  refine ⟨.leaf trivial .done, fun e t he ht => ?_⟩
  simp only [results, List.mem_singleton, Except.ok.injEq] at he
  subst he
  cases ht

theorem putText_nested (s : Selector) (d : Deferred) : WellNested (putText s d) :=
  ⟨trivial, fun _ => ⟨trivial, trivial, data_page d⟩⟩

/-- C56 is false: in `script`, `style`, `title` and `textarea` elements the text is raw text when
the page is parsed again, and its character references are not read as such. -/
theorem C56_static_text_false : ¬ InsertedTextStays ∧
    ∃ t t' t'', Template.fromStr "<script>1</script>".toList {} = .ok (.ok t) ∧
      t.transform (putText (.tag (owned "script".toList)) (.actual "a&lt;b".toList)) =
        some (.ok t') ∧
      Template.fromStr t'.render {} = .ok (.ok t'') ∧
      t''.events = [.openingTag (owned "script".toList) [], .rawData (.actual "a&lt;b".toList),
        .closingTag (owned "script".toList)] := by
  have key : ∃ t t' t'', Template.fromStr "<script>1</script>".toList {} = .ok (.ok t) ∧
      t.transform (putText (.tag (owned "script".toList)) (.actual "a&lt;b".toList)) =
        some (.ok t') ∧
      Template.fromStr t'.render {} = .ok (.ok t'') ∧
      t'.events = [.openingTag (owned "script".toList) [], .data (.actual "a&lt;b".toList),
        .closingTag (owned "script".toList)] ∧
      t''.events = [.openingTag (owned "script".toList) [], .rawData (.actual "a&lt;b".toList),
        .closingTag (owned "script".toList)] := by
    have hp : Template.fromStr "<script>1</script>".toList {} =
      .ok (.ok ⟨[.openingTag (owned "script".toList) [], .rawData (.actual "1".toList),
        .closingTag (owned "script".toList)]⟩) := by rfl
    refine ⟨_, ⟨[.openingTag (owned "script".toList) [], .data (.actual "a&lt;b".toList),
        .closingTag (owned "script".toList)]⟩, ⟨[.openingTag (owned "script".toList) [],
        .rawData (.actual "a&lt;b".toList), .closingTag (owned "script".toList)]⟩, hp, ?_, ?_, rfl,
        rfl⟩
    · rw [C37_transform_parsed _ _ _ _ hp (putText_nested _ _)]
      rfl
    · rfl
  obtain ⟨t, t', t'', h1, h2, h3, h4, h5⟩ := key
  refine ⟨fun h => ?_, t, t', t'', h1, h2, h3, h5⟩
  obtain ⟨u, hu, hu'⟩ := h _ t h1 "a<b".toList (.actual "a&lt;b".toList) (by simp) (by rfl)
    (.tag (owned "script".toList)) (C39_builtin_selectors _ (by simp))
  rw [h2] at hu
  cases hu
  rw [h3] at hu'
  simp only [Except.ok.injEq] at hu'
  rw [hu', h4] at h5
  simp [ownEvent] at h5

/-- C56, what holds for all elements: if static text replaces the contents of elements of a parsed
template, the new template is the old one with the text as the only contents of these elements, and
the text reads as the static text. Its rendered text parses and gives these events again, except
that the text is raw text in raw text elements. So it never becomes tags or comments, and if no
raw text element is selected it is data everywhere. This holds exactly if no start tag left in the
page looks like a comment or doctype when written, see C20.
Missing: that the text is data in raw text elements, where it is false, and pages with such tags. -/
theorem C56_static_text_partial (x : Str) (o : Options) (t : Template)
    (ht : Template.fromStr x o = .ok (.ok t)) (s : Str) (d : Deferred) (hne : s ≠ [])
    (hd : fromUnencodedStaticStr s = .ok d) (sel : Selector) (hs : OnlyStarts sel) :
    ∃ t' es, t.transform (putText sel d) = some (.ok t') ∧ decode d.str = s ∧
      (∀ e ∈ t'.events, e ∈ t.events ∨ e = .data d ∨ ∃ n as, .selfClosedTag n as ∈ t.events ∧
        (e = .openingTag n as ∨ e = .closingTag n)) ∧
      Page t'.events ∧ Canonical es ∧ Reread t'.events es ∧
      ((∀ e ∈ t.events, ∀ n, startName e = some n → sel.matches e = true → ¬ RawName n.str) →
        es = t'.events) ∧
      ∀ o' : Options, Fits o'.maxInputLen t'.render →
        (∀ n, o'.maxStackDepth = some n → Nests n t'.events) →
        (Template.fromStr t'.render o' = .ok (.ok ⟨es.map ownEvent⟩) ↔
          ∀ e ∈ t'.events, ¬ Confusing e) := by
  obtain ⟨d', hd', hde⟩ := fromUnencodedStaticStr_eq s
  rw [hd] at hd'
  cases hd'
  have hp := parsed_page ht
  have hcan : Canonical t.events := by
    have ht := ht
    rw [fromStr_ok, parseEvents_ok] at ht
    obtain ⟨-, dc, -, he, hr, ho⟩ := ht
    rw [he]
    exact reads_canonical hr rfl ho
  have hpc := data_page d
  have hw : WellNested (putText sel d) := putText_nested sel d
  obtain ⟨⟨r, hr⟩, heq⟩ := C42_select t hp sel hs
    (fun _ => Prog.replaceContents .src (.data d)) (fun _ => by exact ⟨trivial, trivial, hpc⟩)
  have hres := heq r hr
  have hone : ∀ n as, AsciiNames [.selfClosedTag n as] → Ascii n.str :=
    fun n as h => h (.selfClosedTag n as) (by simp) n rfl
  have hone' : ∀ n as, AsciiNames [.voidTag n as] → Ascii n.str :=
    fun n as h => h (.voidTag n as) (by simp) n rfl
  obtain ⟨m, q, rfl, hrr, h1, -, h2, h3⟩ := canonical_replaced hs (d := d)
    (hde ▸ escape_ne_nil hne) (fun h => ((hde ▸ escape_safe s).1 _ h).1 rfl)
    (fun i n as => ⟨fun inner c hc hb hn ha => (C47_content_calls _ hpc n as inner c hc hb
        ⟨element_balanced (.pair hc hb), ha, by simp [hn]⟩).2.2.1,
      fun ha => ((C47_empty_elements _ hpc n as (hone n as ha)).1 _ (by simp)).1,
      fun ha => ((C47_empty_elements _ hpc n as (hone' n as ha)).1 _ (by simp)).2⟩)
    hr hcan hp.2.1 hp.2.2
  have hpage := C38_transform_nested t ⟨m⟩ _ hp hw hres
  refine ⟨⟨m⟩, q, hres, hde ▸ decode_escape s, h2, hpage, h1, hrr, h3, fun o' hf hn => ?_⟩
  have hren : Template.render ⟨m⟩ = Template.render ⟨q⟩ := reread_render hrr
  rw [hren] at hf ⊢
  obtain ⟨k, hk⟩ := hpage.1
  constructor
  · intro h
    rw [fromStr_ok, parseEvents_ok] at h
    obtain ⟨-, d', hs', he', hr', -⟩ := h
    have he' : q.map ownEvent = Doc.events d' := he'
    have hren' : Template.render ⟨q⟩ = (q.map ownEvent).flatMap Event.render := by
      rw [List.flatMap_map]
      exact List.flatMap_congr fun e _ => (own_render e).symm
    rw [hren', he'] at hs'
    have := rendered_not_confusing (fun x hx => reads_piece hr' hx) hs'.symm
    rw [← he'] at this
    rw [← reread_confusing hrr]
    intro e he hc
    exact this _ (List.mem_map_of_mem he) (own_confusing.2 hc)
  · intro hm
    exact (C19_render_parse q o' h1 ⟨k, (reread_nests hrr).2 hk⟩ ((reread_confusing hrr).2 hm) hf
      fun n h => (reread_nests hrr).2 (hn n h)).1

/-- The text the examples put into a page. -/
def putExample : Prog .gen .gen := putText (.tag (owned ['p'])) (.actual "&lt;b&gt;&amp;".toList)

example : fromUnencodedStaticStr "<b>&".toList = .ok (.actual "&lt;b&gt;&amp;".toList) := rfl

example : ∃ t, Template.fromStr "<p>old</p><title>T</title><p a=\"x\"/>".toList {} = .ok (.ok t) ∧
    shown (t.transform putExample) =
      some "<p>&lt;b&gt;&amp;</p><title>T</title><p a=\"x\">&lt;b&gt;&amp;</p>".toList :=
  shown_parsed (putText_nested _ _) (by decide +kernel)

/-- In a raw text element the text is read again as raw text, elsewhere as data. -/
example : ∃ t, Template.fromStr "<p>old</p><title>T</title><title/>".toList {} = .ok (.ok t) ∧
    shown (t.transform (putText (.tag (owned "title".toList)) (.actual "&lt;b&gt;".toList))) =
      some "<p>old</p><title>&lt;b&gt;</title><title>&lt;b&gt;</title>".toList :=
  shown_parsed (putText_nested _ _) (by decide +kernel)

example : Reread
    [.openingTag (owned ['p']) [], .data (.actual "old".toList), .closingTag (owned ['p']),
      .openingTag (owned "title".toList) [], .data (.actual "&lt;b&gt;".toList),
      .closingTag (owned "title".toList)]
    [.openingTag (owned ['p']) [], .data (.actual "old".toList), .closingTag (owned ['p']),
      .openingTag (owned "title".toList) [], .rawData (.actual "&lt;b&gt;".toList),
      .closingTag (owned "title".toList)] ∧
    Template.fromStr "<p>old</p><title>&lt;b&gt;</title>".toList {} = .ok (.ok
      ⟨[.openingTag (owned ['p']) [], .data (.actual "old".toList), .closingTag (owned ['p']),
        .openingTag (owned "title".toList) [], .rawData (.actual "&lt;b&gt;".toList),
        .closingTag (owned "title".toList)]⟩) := by
  refine ⟨.keep ?_ (.keep (by simp) (.keep (by simp) (.raw ?_ (.keep (by simp) .nil)))), rfl⟩
  · rintro t as d ⟨⟩ h
    rcases h with h | h | h | h <;> cases h.length_eq
  · exact .inr (.inr (.inl (SameName.refl _)))

/-- No element the example selects holds raw text. -/
example : ∃ t, Template.fromStr "<p>old</p><title>T</title><p a=\"x\"/>".toList {} = .ok (.ok t) ∧
    OnlyStarts (.tag (owned ['p'])) ∧
    ∀ e ∈ t.events, ∀ n, startName e = some n → Selector.matches (.tag (owned ['p'])) e = true →
      ¬ RawName n.str := by
  refine ⟨_, rfl, C39_builtin_selectors _ (by simp), ?_⟩
  intro e _ n hn hm hr
  have hp : SameName n.str ['p'] := by
    rw [← identifierEq_right (by unfold Ascii; decide)]
    cases e <;> cases hn <;> exact hm
  have hl : n.str.length = 1 := hp.length_eq
  rcases hr with h | h | h | h <;> · rw [h.length_eq] at hl; cases hl

end Fuser
