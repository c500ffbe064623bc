import Verif.Props.Calls
import Verif.Props.RoundTrip
import Verif.Proof.KeepRaw
import Verif.Proof.Invariant
import Verif.Proof.Respell
import Verif.Proof.Decide
import Verif.Props.Insert

/-!
# Properties C70 to C73: what the rendered result of a transform is read as
-/

namespace Fuser

open Spec

/-! ## Rendering and parsing of pages that need not come from the parser -/

/-- C70. Well nested events that can be written are read back after rendering, with neighbouring
texts joined, empty texts gone, white space at the beginning of attribute values gone, and the
contents of a raw text element as one raw text. No markup comes or goes. -/
theorem C70_render_parse_normal (es ms : List Event) (o : Options) (h : Normal es ms)
    (hb : Balanced es) (hf : Fits o.maxInputLen (Template.render ⟨es⟩))
    (hn : ∀ n, o.maxStackDepth = some n → Nests n es) :
    Template.fromStr (Template.render ⟨es⟩) o = .ok (.ok ⟨ms⟩) ∧
    ms.filter notText = (es.filter notText).map stripEvent := by
  refine ⟨?_, normal_markup h⟩
  obtain ⟨d, h1, h2, h3, -⟩ := normal_reads h
  rw [fromStr_ok, parseEvents_ok]
  refine ⟨hf, d, h1.symm, h2.symm, h3, opens_iff.2 ?_⟩
  rw [h2]
  obtain ⟨n, hb⟩ := hb
  exact ⟨⟨n, nests_normal h hb⟩, fun n h' => nests_normal h (hn n h')⟩

/-- C70, for pages without raw text elements: the events that are not text come back in order, and
every text between them comes back in full. -/
theorem C70_joined (es : List Event) (h : ∀ e ∈ es, Plain e) :
    Normal es (joined es) ∧
    (joined es).filter notText = (es.filter notText).map stripEvent ∧
    (∀ ts fs u, es = ts ++ u :: fs → (∀ e ∈ ts, notText e = false) → notText u = true →
      joined es = addText (ts.flatMap Event.render) (stripEvent u :: joined fs)) := by
  refine ⟨plain_normal h, ?_, ?_⟩
  · induction es with
    | nil => rfl
    | cons e es ih =>
      have ih := ih fun e he => h e (by simp [he])
      cases e with
      | rawData c => exact (h (.rawData c) (by simp)).elim
      | data c =>
        rw [joined]
        rw [addText_markup]
        exact ih
      | _ => exact congrArg (List.cons _) ih
  · rintro ts fs u rfl ht hu
    have hne : ∀ c, u ≠ .data c := by rintro c rfl; cases hu
    have hs : ∀ c, stripEvent u ≠ .data c := by
      intro c hc
      cases u <;> first | exact hne _ rfl | cases hc
    have one : joined (u :: fs) = stripEvent u :: joined fs := by
      cases u <;> first | rfl | exact absurd rfl (hne _)
    induction ts with
    | nil =>
      rw [List.nil_append, one, List.flatMap_nil, addText.eq_def]
      split
      · next c _ hc => exact absurd (List.cons.inj hc).1 (hs c)
      · rfl
    | cons e ts ih =>
      have he := ht e (by simp)
      have ih := ih (fun e he => h e (by rw [List.cons_append]; exact List.mem_cons_of_mem _ he)) fun e h => ht e (by simp [h])
      cases e with
      | rawData c => exact (h (.rawData c) (by simp)).elim
      | data c =>
        rw [List.cons_append, joined, ih, List.flatMap_cons]
        have hc : (Event.data c).render = c.str := render_str c
        rw [hc]
        generalize ts.flatMap Event.render = v
        have add : ∀ w, addText w (stripEvent u :: joined fs) =
            if w = [] then stripEvent u :: joined fs
            else .data (.actual w) :: stripEvent u :: joined fs := by
          intro w
          rw [addText.eq_def]
          split
          · next c _ hc => exact absurd (List.cons.inj hc).1 (hs c)
          · rfl
        rw [add v]
        split
        · next hv => subst hv; rw [List.append_nil]
        · next hv =>
          rw [add, if_neg (by simp [hv])]
          rfl
      | _ => cases he

/-- Events for the example: an attribute value with leading white space, neighbouring texts, an
empty text, and data in a raw text element. -/
def looseEvents : List Event :=
  [.openingTag (owned ['p']) [⟨owned "class".toList, some (.actual " x".toList)⟩],
   .data (.static ['a']), .data (.static []), .data (.actual "&lt;".toList),
   .closingTag (owned ['P']), .data (.static []), .openingTag (owned "title".toList) [],
   .data (.static ['b']), .rawData (.static ['<']), .closingTag (owned "title".toList)]

example : Template.fromStr (Template.render ⟨looseEvents⟩) {} = .ok (.ok ⟨
  [.openingTag (owned ['p']) [⟨owned "class".toList, some (.actual ['x'])⟩],
   .data (.actual "a&lt;".toList), .closingTag (owned ['P']), .openingTag (owned "title".toList) [],
   .rawData (.actual "b<".toList), .closingTag (owned "title".toList)]⟩) := rfl

/-- The hypotheses hold for the example. -/
example : Normal looseEvents
    [.openingTag (owned ['p']) [⟨owned "class".toList, some (.actual ['x'])⟩],
     .data (.actual "a&lt;".toList), .closingTag (owned ['P']), .openingTag (owned "title".toList) [],
     .rawData (.actual "b<".toList), .closingTag (owned "title".toList)] ∧ Balanced looseEvents := by
  refine ⟨?_, 1, ?_⟩
  · refine .plain (by decide) (not_directive _ (by decide)) (by rintro _ _ ⟨⟩; decide) ?_
    refine .data (c := .static ['a']) (ms := .data (.actual "&lt;".toList) :: _) (by decide)
      (.data (c := .static []) (by decide) (.data (by decide) (.plain (by decide) id (by simp) ?_)))
    refine .data (c := .static []) (ms := _ :: _) (by decide) (.raw (ts := [_, _])
      (s := "b<".toList) (n := owned "title".toList) (es := []) (ms := []) (by decide)
      (not_directive _ (by decide)) (by decide) (.data (.raw .nil)) ?_ (by decide) (by decide) .nil)
    intro x p y m h hp _
    cases hp with
    | closing =>
      have : '>' ∈ "b<".toList := by rw [h]; simp
      exact absurd this (by decide)
    | start _ _ _ _ _ _ _ hs => cases hs
  · exact .element (inner := [_, _, _]) (by decide) (.leaf trivial (.leaf trivial (.leaf trivial .nil)))
      (.leaf trivial (.element (inner := [_, _]) (by decide) (.leaf trivial (.leaf trivial .nil)) .nil))

/-! ## Where the events of the result come from -/

/-- C71. A property of events that the contents have, and that attribute changes and functions on
templates keep, holds for all events of the result if it holds for the template. The property must
hold for the two tags of an empty element if it holds for its self-closed tag. Neither the template
nor the contents need be well nested. -/
theorem C71_invariant {k : Kind} (P : Event → Prop)
    (hopen : ∀ t as, P (.selfClosedTag t as) → P (.openingTag t as) ∧ P (.closingTag t))
    (t t' : Template) (p : Prog .gen k) (hk : Keeps P p)
    (hP : ∀ e ∈ t.events, P e) (h : t.transform p = some (.ok t')) : ∀ e ∈ t'.events, P e :=
  keeps_transform hopen hk hP h

/-- The template of the example has no comments, and the calls of the example bring none. -/
example : (∀ e ∈ sampleTemplate.events, ∀ c, e ≠ .comment c) ∧
    Keeps (fun e => ∀ c, e ≠ .comment c) sampleProg := by
  refine ⟨by simp [sampleTemplate], trivial, fun _ => ⟨⟨trivial, trivial, fun _ => ⟨trivial, fun _ =>
    ⟨trivial, trivial, ?_⟩⟩⟩, by simp⟩⟩
  simp [results, text]

/-- A closing tag without element, and an element that is never closed. -/
example : ∀ e ∈ ([.closingTag li, .openingTag li [], .data (.static ['v'])] : List Event),
    ∀ c, e ≠ .comment c := by
  refine C71_invariant (k := .gen) _ (fun _ _ _ => ⟨nofun, nofun⟩) ⟨[.closingTag li, .openingTag li []]⟩
    ⟨_⟩ (.append .src (text "v")) ⟨trivial, by simp [results, text]⟩ (by simp) ?_
  rw [transform_run, run_append, run_src]
  rfl

/-! ## No injection -/

/-- C72. On a template whose elements hold no raw text, calls that only insert ordinary events (text
without `<`, comments without `-->`, tags without quotes in values) and ordinary attributes give a
page that is read, after rendering, as exactly the events of the result, with neighbouring texts
joined. -/
theorem C72_no_injection {k : Kind} (x : Str) (o : Options) (t t' : Template) (p : Prog .gen k)
    (ht : Template.fromStr x o = .ok (.ok t))
    (hr : ∀ e ∈ t.events, ∀ n, startName e = some n → ¬ RawName n.str ∧ n.str.head? ≠ some '!')
    (hp : WellNested p) (hk : PlainCalls p) (h : t.transform p = some (.ok t')) :
    (∀ e ∈ t'.events, Plain e) ∧
    ∀ o' : Options, Fits o'.maxInputLen t'.render →
      (∀ n, o'.maxStackDepth = some n → Nests n t'.events) →
      Template.fromStr t'.render o' = .ok (.ok ⟨joined t'.events⟩) := by
  have hcan : Canonical t.events := by
    have ht := ht
    rw [fromStr_ok, parseEvents_ok] at ht
    obtain ⟨-, dc, -, he, hr, ho⟩ := ht
    rw [he]
    exact reads_canonical hr rfl ho
  have hpg := parsed_page ht
  have hall : ∀ e ∈ t'.events, Plain e :=
    keeps_transform (fun _ _ => plain_open) (plainCalls_keeps hk) (canonical_plain hcan hr) h
  exact ⟨hall, fun o' hf hn => (C70_render_parse_normal _ _ o' (plain_normal hall)
    (C38_transform_nested t t' p hpg hp h).1 hf hn).1⟩

/-- C72, whether or not the template and the calls are well nested: from a template of ordinary events
and calls that only insert ordinary things, the result is read after rendering, if it is read at all,
as the events of the result with neighbouring texts joined. It is read if and only if it is within the
limits and these events are well nested. -/
theorem C72_only_reading {k : Kind} (t t' : Template) (p : Prog .gen k)
    (ht : ∀ e ∈ t.events, Plain e) (hk : PlainCalls p) (h : t.transform p = some (.ok t')) :
    (∀ e ∈ t'.events, Plain e) ∧
    ∀ (o : Options) (u : Template), Template.fromStr t'.render o = .ok (.ok u) ↔
      u = ⟨joined t'.events⟩ ∧ Fits o.maxInputLen t'.render ∧ Balanced u.events ∧
        ∀ n, o.maxStackDepth = some n → Nests n u.events := by
  have hall : ∀ e ∈ t'.events, Plain e :=
    keeps_transform (fun _ _ => plain_open) (plainCalls_keeps hk) ht h
  refine ⟨hall, fun o u => ?_⟩
  obtain ⟨d, h1, h2, h3, -⟩ := normal_reads (plain_normal hall)
  rw [fromStr_ok, parseEvents_ok]
  constructor
  · rintro ⟨hf, d', ht', he, hr, ho⟩
    obtain rfl := reads_unique h3 rfl hr (ht'.symm.trans h1.symm)
    rw [← h2, ← he]
    exact ⟨rfl, hf, he ▸ opens_iff.1 ho⟩
  · rintro ⟨rfl, hf, hb, hn⟩
    exact ⟨hf, d, h1.symm, h2.symm, h3, opens_iff.2 ⟨h2 ▸ hb, fun n hn' => h2 ▸ hn n hn'⟩⟩

/-- An element that is never closed is not read; with the closing tag as content, it is. -/
example : (∀ o u, Template.fromStr
      (Template.render ⟨[.openingTag li [], .data (.static ['v'])]⟩) o ≠ .ok (.ok u)) ∧
    Template.fromStr (Template.render ⟨[.openingTag li [], .closingTag li]⟩) {} =
      .ok (.ok ⟨[.openingTag li [], .closingTag li]⟩) := by
  have plain : ∀ e ∈ ([.openingTag li []] : List Event), Plain e := by decide
  constructor
  · intro o u h
    have := ((C72_only_reading (k := .gen) ⟨[.openingTag li []]⟩ ⟨_⟩ (.append .src (text "v")) plain
      ⟨trivial, fun e he => by
        simp only [results, text, List.mem_singleton, Except.ok.injEq] at he
        subst he
        decide⟩ (by
        rw [transform_run, run_append, run_src]
        rfl)).2 o u).1 h
    obtain ⟨rfl, -, ⟨n, hb⟩, -⟩ := this
    have : Walk n [] [.openingTag (ownName li) [], .data (.actual ['v'])] := nests_iff_walk.1 hb
    cases this with
    | leaf h => cases h
    | opening _ h =>
      cases h with
      | leaf _ h => cases h
  · refine ((C72_only_reading (k := .gen) ⟨[.openingTag li []]⟩ ⟨_⟩
      (.append .src (.script [.ok (some (.closingTag li))])) plain ⟨trivial, fun e he => ?_⟩ (by
        rw [transform_run, run_append, run_src]
        rfl)).2 {} _).2 ⟨rfl, ?_, ⟨1, ?_⟩, ?_⟩
    · simp only [results, untilEnd, List.mem_singleton, Except.ok.injEq] at he
      subst he
      decide
    · exact fun n hn => by cases hn
    · exact .element (inner := []) (by decide) .nil .nil
    · rintro n ⟨⟩

/-- C72, what is ordinary: escaped texts as content, escaped texts as attribute values, and parsed
templates without raw text elements as content. -/
theorem C72_ordinary :
    (∀ (s : Str) (d : Deferred), fromUnencodedStaticStr s = .ok d →
      (∀ e, .ok e ∈ results (.data d) → Plain e) ∧ '"' ∉ d.str) ∧
    (∀ (x : Str) (o : Options) (t : Template), Template.fromStr x o = .ok (.ok t) →
      (∀ e ∈ t.events, ∀ n, startName e = some n → ¬ RawName n.str ∧ n.str.head? ≠ some '!') →
      ∀ e, .ok e ∈ results (.template t) → Plain e) := by
  constructor
  · intro s d hd
    obtain ⟨d', hd', hde⟩ := fromUnencodedStaticStr_eq s
    rw [hd] at hd'
    cases hd'
    refine ⟨fun e he => ?_, fun h => ?_⟩
    · simp only [results, List.mem_singleton, Except.ok.injEq] at he
      subst he
      exact fun h => ((hde ▸ escape_safe s).1 _ h).1 rfl
    · exact ((hde ▸ escape_safe s).1 _ h).2.2 rfl
  · intro x o t ht hr e he
    rw [fromStr_ok, parseEvents_ok] at ht
    obtain ⟨-, dc, -, hev, hrd, ho⟩ := ht
    have hcan := reads_canonical hrd rfl ho
    rw [← hev] at hcan
    refine canonical_plain hcan hr e ?_
    simpa [results] using he

/-- Calls for the example: escaped text and attributes from outside. -/
def escapedProg : Prog .gen .gen :=
  Prog.select .src (.ok (.tag (owned ['p']))) fun _ =>
    .append (.attr (Prog.replaceContents .src (.data (.actual "&lt;script&gt;".toList)))
      (.setAttribute (owned "title".toList) (some (.actual "&quot;&gt;".toList)))) (text "!")

theorem escapedProg_nested : WellNested escapedProg := by
  exact ⟨trivial, fun _ => ⟨⟨trivial, trivial, data_page _⟩, text_page _⟩⟩

example : fromUnencodedStaticStr "<script>".toList = .ok (.actual "&lt;script&gt;".toList) ∧
    fromUnencodedStaticStr "\">".toList = .ok (.actual "&quot;&gt;".toList) := ⟨rfl, rfl⟩

/-- The calls of the example are ordinary. -/
theorem escapedProg_plain : PlainCalls escapedProg := by
  refine ⟨trivial, fun _ => ⟨⟨⟨trivial, trivial, ?_⟩, by decide⟩, ?_⟩⟩ <;>
  · intro e he
    simp only [results, text, List.mem_singleton, Except.ok.injEq] at he
    subst he
    decide

example : ∃ t t', Template.fromStr "<div>a<p>b</p></div>".toList {} = .ok (.ok t) ∧
    t.transform escapedProg = some (.ok t') ∧
    t'.render = "<div>a<p title=\"&quot;&gt;\">&lt;script&gt;</p>!</div>".toList ∧
    joined t'.events = [.openingTag (owned "div".toList) [], .data (.actual ['a']),
      .openingTag (owned ['p']) [⟨owned "title".toList, some (.actual "&quot;&gt;".toList)⟩],
      .data (.actual "&lt;script&gt;".toList), .closingTag (owned ['p']), .data (.actual ['!']),
      .closingTag (owned "div".toList)] ∧
    (∀ e ∈ t.events, ∀ n, startName e = some n → ¬ RawName n.str ∧ n.str.head? ≠ some '!') := by
  have h : Template.fromStr "<div>a<p>b</p></div>".toList {} =
    .ok (.ok ⟨[.openingTag (owned "div".toList) [], .data (.actual ['a']),
      .openingTag (owned ['p']) [], .data (.actual ['b']), .closingTag (owned ['p']),
      .closingTag (owned "div".toList)]⟩) := rfl
  refine ⟨_, ⟨[.openingTag (owned "div".toList) [], .data (.actual ['a']),
      .openingTag (owned ['p']) [⟨owned "title".toList, some (.actual "&quot;&gt;".toList)⟩],
      .data (.actual "&lt;script&gt;".toList), .closingTag (owned ['p']), .data (.static ['!']),
      .closingTag (owned "div".toList)]⟩, h, ?_, by decide +kernel, by decide +kernel, ?_⟩
  · rw [C37_transform_parsed _ _ _ _ h escapedProg_nested]
    rfl
  · change ∀ e ∈ _, ∀ n ∈ startName e, _
    decide

/-- C73. On any template of ordinary tag names, if `<` in raw text never is at the end or before
`/`, calls that only insert texts without `<` and ordinary attributes give a page that is read,
after rendering, as the events of the result, with neighbouring texts joined, and with the texts in
raw text elements as raw text: the markup is the markup of the result. -/
theorem C73_no_injection_raw {k : Kind} (x : Str) (o : Options) (t t' : Template) (p : Prog .gen k)
    (ht : Template.fromStr x o = .ok (.ok t))
    (hb : ∀ e ∈ t.events, ∀ n, startName e = some n → n.str.head? ≠ some '!')
    (hg : ∀ c, .rawData c ∈ t.events → Guarded c.str)
    (hp : WellNested p) (hk : TextCalls p) (h : t.transform p = some (.ok t')) :
    ∃ ms, Normal t'.events ms ∧ ms.filter notText = (t'.events.filter notText).map stripEvent ∧
    ∀ o' : Options, Fits o'.maxInputLen t'.render →
      (∀ n, o'.maxStackDepth = some n → Nests n t'.events) →
      Template.fromStr t'.render o' = .ok (.ok ⟨ms⟩) := by
  have hcan : Canonical t.events := by
    have ht := ht
    rw [fromStr_ok, parseEvents_ok] at ht
    obtain ⟨-, dc, -, he, hr, ho⟩ := ht
    rw [he]
    exact reads_canonical hr rfl ho
  have hpg := parsed_page ht
  have hnr : ¬ InRaw none := by rintro ⟨_, ⟨⟩, -⟩
  have hnest := C38_transform_nested t t' p hpg hp h
  have hev : Ev Placed none (treeOf t.events) :=
    canonical_placed (rest := []) (treeOf_spec hpg).1 (treeOf_events hpg) (by simpa using hcan) hnr
      hb hg
  rw [transform_eq p hp t hpg] at h
  cases hr : (meaning p (treeOf t.events)).events with
  | error e => rw [hr] at h; cases h
  | ok es =>
    rw [hr] at h
    cases h
    have hm : Ev Placed none (meaning p (treeOf t.events)) :=
      ev_meaning (fun _ _ _ => placed_open) p hp (textCalls_each hp hk) trivial (treeOf_spec hpg).1
        hev (sound_iff.2 ⟨es, hr⟩)
    have hw := (meaning_ok p hp _ trivial (treeOf_spec hpg).1).2
    obtain ⟨ms, hn⟩ := (placed_normal hw hm hr).2 hnr [] [] .nil
    rw [List.append_nil] at hn
    exact ⟨ms, hn, normal_markup hn, fun o' hf hd =>
      (C70_render_parse_normal _ _ o' hn hnest.1 hf hd).1⟩

/-- Calls for the example: escaped text after the contents of every element. -/
def endings : Prog .gen .gen :=
  Prog.select .src (.ok (.custom fun e => isStart e)) fun _ =>
    Prog.appendContents .src (.data (.actual "&lt;/script&gt;".toList))

theorem endings_nested : WellNested endings := by
  exact ⟨trivial, fun _ => ⟨trivial, trivial, data_page _⟩⟩

theorem endings_text : TextCalls endings := by
  refine ⟨trivial, fun _ => ⟨trivial, trivial, ?_⟩⟩
  intro e he
  simp only [results, List.mem_singleton, Except.ok.injEq] at he
  subst he
  exact ⟨_, rfl, by decide⟩

example : ∃ t t', Template.fromStr "<p>a</p><script>i < n</script>".toList {} = .ok (.ok t) ∧
    t.transform endings = some (.ok t') ∧
    t'.render = "<p>a&lt;/script&gt;</p><script>i < n&lt;/script&gt;</script>".toList ∧
    Template.fromStr t'.render {} = .ok (.ok ⟨[.openingTag (owned ['p']) [],
      .data (.actual "a&lt;/script&gt;".toList), .closingTag (owned ['p']),
      .openingTag (owned "script".toList) [], .rawData (.actual "i < n&lt;/script&gt;".toList),
      .closingTag (owned "script".toList)]⟩) ∧
    (∀ e ∈ t.events, ∀ n, startName e = some n → n.str.head? ≠ some '!') ∧
    ∀ c, .rawData c ∈ t.events → Guarded c.str := by
  have h : Template.fromStr "<p>a</p><script>i < n</script>".toList {} =
    .ok (.ok ⟨[.openingTag (owned ['p']) [], .data (.actual ['a']), .closingTag (owned ['p']),
      .openingTag (owned "script".toList) [], .rawData (.actual "i < n".toList),
      .closingTag (owned "script".toList)]⟩) := rfl
  refine ⟨_, ⟨[.openingTag (owned ['p']) [], .data (.actual ['a']),
      .data (.actual "&lt;/script&gt;".toList), .closingTag (owned ['p']),
      .openingTag (owned "script".toList) [], .rawData (.actual "i < n".toList),
      .data (.actual "&lt;/script&gt;".toList), .closingTag (owned "script".toList)]⟩, h, ?_,
      by decide +kernel, rfl, ?_, ?_⟩
  · rw [C37_transform_parsed _ _ _ _ h endings_nested]
    rfl
  · change ∀ e ∈ _, ∀ n ∈ startName e, _
    decide
  · intro c hc
    have : c = .actual "i < n".toList := by simpa using hc
    subst this
    intro x y hxy
    rcases x with - | ⟨a, - | ⟨b, - | ⟨d, - | ⟨e, - | ⟨f, x⟩⟩⟩⟩⟩
    · cases (List.cons.inj hxy).1
    · cases (List.cons.inj (List.cons.inj hxy).2).1
    · have hy : " n".toList = y := (List.cons.inj (List.cons.inj (List.cons.inj hxy).2).2).2
      subst hy
      exact ⟨[' '], 'n', [], rfl, by unfold Blank; decide, by decide, by decide⟩
    · cases (List.cons.inj (List.cons.inj (List.cons.inj (List.cons.inj hxy).2).2).2).1
    · cases (List.cons.inj (List.cons.inj (List.cons.inj (List.cons.inj
        (List.cons.inj hxy).2).2).2).2).1
    · exact absurd (congrArg List.length hxy) (by simp [Deferred.str])

/-- C73, a guard is needed in raw text: text without `<` may complete a closing tag. -/
theorem C73_guard_needed : ∃ t t' : Template,
    Template.fromStr "<title></titl</title>".toList {} = .ok (.ok t) ∧
    t.transform (Prog.select .src (.ok (.tag (owned "title".toList))) fun _ =>
      Prog.appendContents .src (text "e>")) = some (.ok t') ∧
    t'.events = [.openingTag (owned "title".toList) [], .rawData (.actual "</titl".toList),
      .data (.static "e>".toList), .closingTag (owned "title".toList)] ∧
    ∃ e, Template.fromStr t'.render {} = .ok (.error e) := by
  have h : Template.fromStr "<title></titl</title>".toList {} =
    .ok (.ok ⟨[.openingTag (owned "title".toList) [], .rawData (.actual "</titl".toList),
      .closingTag (owned "title".toList)]⟩) := rfl
  refine ⟨_, ⟨[.openingTag (owned "title".toList) [], .rawData (.actual "</titl".toList),
      .data (.static "e>".toList), .closingTag (owned "title".toList)]⟩, h, ?_, rfl, _, rfl⟩
  rw [C37_transform_parsed _ _ _ _ h (by exact ⟨trivial, fun _ => ⟨trivial, trivial, text_page _⟩⟩)]
  rfl

end Fuser
