import Verif.Props.Transform

/-!
# Properties C41-C50, C53-C55: what each call does
-/

namespace Fuser

open Spec

/-! ## Selecting -/

/-- C41. A transform without calls gives the template back. So does a selection, of any kind, whose
builder makes no calls. -/
theorem C41_identity (t : Template) (ht : Page t.events) :
    t.transform .src = some (.ok t) ∧
    ∀ s, OnlyStarts s →
      t.transform (Prog.select .src (.ok s) fun _ => .src) = some (.ok t) ∧
      t.transform (Prog.selectOnce .src (.ok s) .src) = some (.ok t) ∧
      t.transform (Prog.selectDirect .src (.ok s) fun _ => .src) = some (.ok t) ∧
      t.transform (Prog.selectDirectOnce .src (.ok s) .src) = some (.ok t) := by
  have key : ∀ {k} (p : Prog .gen k), WellNested p →
      meaning p (treeOf t.events) = treeOf t.events → t.transform p = some (.ok t) := by
    intro k p hp h
    rw [transform_eq p hp t ht, h, treeOf_events ht]
    rfl
  refine ⟨key _ (by exact trivial) rfl, fun s hs => ⟨key _ ?_ ?_, key _ ?_ ?_, key _ ?_ ?_,
    key _ ?_ ?_⟩⟩
  · exact ⟨trivial, fun _ => trivial⟩
  · exact select_id hs _ _ _ _
  · exact ⟨trivial, trivial⟩
  · exact once_id hs _ _ _
  · exact ⟨trivial, fun _ => trivial⟩
  · exact select_id hs _ _ _ _
  · exact ⟨trivial, trivial⟩
  · exact once_id hs _ _ _

/-- C41, a selection whose selector matches nothing changes nothing, whatever the builder and the
selector are. -/
theorem C41_no_match {k' : Kind} (t : Template) (hb : Balanced t.events) (hn : .noop ∉ t.events)
    (s : Selector) (hm : ∀ e ∈ t.events, s.matches e = false) (b : Nat → Prog .elem k')
    (b' : Prog .elem k') :
    t.transform (Prog.select .src (.ok s) b) = some (.ok t) ∧
    t.transform (Prog.selectOnce .src (.ok s) b') = some (.ok t) ∧
    t.transform (Prog.selectDirect .src (.ok s) b) = some (.ok t) ∧
    t.transform (Prog.selectDirectOnce .src (.ok s) b') = some (.ok t) := by
  have hs : run (.src : Prog .gen .gen) t.events = some (.ok t.events) := by
    rw [run_src, ← outcome_ok, outcome_ok' hn]
  refine ⟨?_, ?_, ?_, ?_⟩
  · rw [transform_run, Prog.select]
    erw [run_fallOk, run_select_plain hs hb hm]
    rfl
  · rw [transform_run, Prog.selectOnce]
    erw [run_fallOk, run_once_plain hs hb hm]
    rfl
  · rw [transform_run, Prog.selectDirect]
    erw [run_fallOk, run_select_plain hs hb hm]
    rfl
  · rw [transform_run, Prog.selectDirectOnce]
    erw [run_fallOk, run_once_plain hs hb hm]
    rfl

example : OnlyStarts (.tag li) ∧
    ∀ e ∈ sampleTemplate.events, Selector.matches (.tag (owned "p".toList)) e = false :=
  ⟨C39_builtin_selectors _ (by simp), by decide +kernel⟩

/-- C42. `select` gives every matching element that is not inside another one to the builder, in
document order with the number of earlier calls, and keeps everything else. This determines the
result. -/
theorem C42_select {k' : Kind} (t : Template) (ht : Page t.events) (s : Selector)
    (hs : OnlyStarts s) (b : Nat → Prog .elem k') (hb : ∀ i, WellNested (b i)) :
    (∃ r, Rewrites s (fun i m => run (b i) m) 0 t.events r) ∧
    ∀ r, Rewrites s (fun i m => run (b i) m) 0 t.events r →
      t.transform (Prog.select .src (.ok s) b) = some (r.map Template.mk) := by
  have h := select_rewrites hs hb (treeOf t.events) (treeOf_spec ht).1 (treeOf_events ht)
    (level := 0) (count := 0) .nil
  rw [List.append_nil, andThen_nil] at h
  refine ⟨⟨_, h⟩, fun r hr => ?_⟩
  rw [rewrites_unique hr h, transform_eq _ (by exact ⟨trivial, hb⟩) t ht]
  rfl

/-- For the examples: the result of a transform of a text, by the meaning of the calls. -/
def shownMeaning {k : Kind} (s : String) (p : Prog .gen k) : Option Str :=
  match Template.fromStr s.toList {} with
  | .ok (.ok t) => shown (some ((meaning p (treeOf t.events)).events.map Template.mk))
  | _ => none

theorem shown_parsed {k : Kind} {s : String} {p : Prog .gen k} {x : Str} (hp : WellNested p)
    (h : shownMeaning s p = some x) :
    ∃ t, Template.fromStr s.toList {} = .ok (.ok t) ∧ shown (t.transform p) = some x := by
  rw [shownMeaning] at h
  split at h
  next t ht => exact ⟨t, ht, by rw [C37_transform_parsed _ _ _ _ ht hp]; exact h⟩
  next => cases h

/-- The builder of the examples: puts its number before the element. -/
def numbered (i : Nat) : Prog .elem .gen := .prepend .src (text (toString i))

theorem numbered_nested (i : Nat) : WellNested (numbered i) := ⟨trivial, text_page _⟩

/-- Inside a matching element nothing is searched: the outer `p` is given to the builder as a whole,
then the last `p`. -/
example : ∃ t, Template.fromStr "<p><p/></p><i><p/></i>".toList {} = .ok (.ok t) ∧
    shown (t.transform (Prog.select .src (.ok (.tag (owned ['p']))) numbered)) =
      some "0<p><p /></p><i>1<p /></i>".toList :=
  shown_parsed (by exact ⟨trivial, numbered_nested⟩) (by decide +kernel)

/-- C43. `select_direct` gives the matching elements at the top level to the builder and keeps
everything else, including the elements below the top level. -/
theorem C43_select_direct {k' : Kind} (t : Template) (ht : Page t.events) (s : Selector)
    (hs : OnlyStarts s) (b : Nat → Prog .elem k') (hb : ∀ i, WellNested (b i)) :
    (∃ r, RewritesTop s (fun i m => run (b i) m) 0 t.events r) ∧
    ∀ r, RewritesTop s (fun i m => run (b i) m) 0 t.events r →
      t.transform (Prog.selectDirect .src (.ok s) b) = some (r.map Template.mk) := by
  have h := select_rewritesTop hs hb (treeOf t.events) (treeOf_spec ht).1 (treeOf_events ht)
    (count := 0)
  refine ⟨⟨_, h⟩, fun r hr => ?_⟩
  rw [rewritesTop_unique hr h, transform_eq _ (by exact ⟨trivial, hb⟩) t ht]
  rfl

example : ∃ t, Template.fromStr "<i><p/></i><p><p/></p>".toList {} = .ok (.ok t) ∧
    shown (t.transform (Prog.selectDirect .src (.ok (.tag (owned ['p']))) numbered)) =
      some "<i><p /></i>0<p><p /></p>".toList :=
  shown_parsed (by exact ⟨trivial, numbered_nested⟩) (by decide +kernel)

/-- C44. `select_once` gives the first matching element in document order to the builder and keeps
everything before and after it; without a match it changes nothing. -/
theorem C44_select_once {k' : Kind} (t : Template) (ht : Page t.events) (s : Selector)
    (hs : OnlyStarts s) (b : Prog .elem k') (hb : WellNested b) :
    ((∀ e ∈ t.events, s.matches e = false) ∧
      t.transform (Prog.selectOnce .src (.ok s) b) = some (.ok t)) ∨
    ∃ u e m v r, t.events = u ++ (e :: m ++ v) ∧ (∀ x ∈ u, s.matches x = false) ∧
      s.matches e = true ∧ Element (e :: m) ∧ run b (e :: m) = some r ∧
      t.transform (Prog.selectOnce .src (.ok s) b) =
        some ((andThen (.ok u) (andThen r (.ok v))).map Template.mk) := by
  have h := once_found hs hb (treeOf_spec ht).1 (treeOf_events ht) (level := 0)
  have he : t.transform (Prog.selectOnce .src (.ok s) b) =
      some ((selectOnceTree s false (meaning b) 0 (treeOf t.events)).1.events.map Template.mk) :=
    transform_eq _ (by exact ⟨trivial, hb⟩) t ht
  rcases h with ⟨-, h1, h2⟩ | ⟨-, u, e, m, v, x, h1, h2, h3, h4, h5, h6⟩
  · exact .inl ⟨h1, by rw [he, h2]; rfl⟩
  · exact .inr ⟨u, e, m, v, x, h1, h2, h4, h3, h5, by rw [he, h6]⟩

/-- C43 and C44, `select_direct_once`: the first matching element at the top level. -/
theorem C44_select_direct_once {k' : Kind} (t : Template) (ht : Page t.events) (s : Selector)
    (hs : OnlyStarts s) (b : Prog .elem k') (hb : WellNested b) :
    (NoneOnTop s t.events ∧
      t.transform (Prog.selectDirectOnce .src (.ok s) b) = some (.ok t)) ∨
    ∃ u e m v r, t.events = u ++ (e :: m ++ v) ∧ NoneOnTop s u ∧
      s.matches e = true ∧ Element (e :: m) ∧ run b (e :: m) = some r ∧
      t.transform (Prog.selectDirectOnce .src (.ok s) b) =
        some ((andThen (.ok u) (andThen r (.ok v))).map Template.mk) := by
  have h := once_foundTop hs hb (treeOf_spec ht).1 (treeOf_events ht)
  have he : t.transform (Prog.selectDirectOnce .src (.ok s) b) =
      some ((selectOnceTree s true (meaning b) 0 (treeOf t.events)).1.events.map Template.mk) :=
    transform_eq _ (by exact ⟨trivial, hb⟩) t ht
  rcases h with ⟨-, h1, h2⟩ | ⟨-, u, e, m, v, x, h1, h2, h3, h4, h5, h6⟩
  · exact .inl ⟨h1, by rw [he, h2]; rfl⟩
  · exact .inr ⟨u, e, m, v, x, h1, h2, h4, h3, h5, by rw [he, h6]⟩

example : ∃ t, Template.fromStr "<i><p/></i><p><p/></p><p/>".toList {} = .ok (.ok t) ∧
    shown (t.transform (Prog.selectOnce .src (.ok (.tag (owned ['p']))) (numbered 7))) =
      some "<i>7<p /></i><p><p /></p><p />".toList :=
  shown_parsed (by exact ⟨trivial, numbered_nested 7⟩) (by decide +kernel)

example : ∃ t, Template.fromStr "<i><p/></i><p><p/></p><p/>".toList {} = .ok (.ok t) ∧
    shown (t.transform (Prog.selectDirectOnce .src (.ok (.tag (owned ['p']))) (numbered 7))) =
      some "<i><p /></i>7<p><p /></p><p />".toList :=
  shown_parsed (by exact ⟨trivial, numbered_nested 7⟩) (by decide +kernel)

/-! ## Calls on any stream -/

/-- C46. On any events, after any calls: `prepend` puts the content before the stream, `append`
after it, `remove` removes everything, `replace` gives the content alone. An error in the stream or
in the content is kept, in order. -/
theorem C46_prepend_append {a k : Kind} (p : Prog a k) (c : Content) (es : List Event) (r : Outcome)
    (h : run p es = some r) :
    run (.prepend p c) es = some (andThen (outcome (results c)) r) ∧
    run (.append p c) es = some (andThen r (outcome (results c))) ∧
    run (.remove p) es = some (r.map fun _ => []) ∧
    run (p.replace c) es = some (andThen (outcome (results c)) (r.map fun _ => [])) := by
  refine ⟨?_, ?_, ?_, ?_⟩
  · rw [run_prepend, h]; rfl
  · rw [run_append, h]; rfl
  · rw [run_removed, h]; rfl
  · rw [run_replace, h]; rfl

/-- C46, for templates and contents without errors. -/
theorem C46_template (t : Template) (c : Content) (es : List Event)
    (hc : results c = es.map .ok) (ht : .noop ∉ t.events) (hn : .noop ∉ es) :
    t.transform (.prepend .src c) = some (.ok ⟨es ++ t.events⟩) ∧
    t.transform (.append .src c) = some (.ok ⟨t.events ++ es⟩) ∧
    t.transform (.remove .src) = some (.ok ⟨[]⟩) ∧
    t.transform (Prog.replace .src c) = some (.ok ⟨es⟩) := by
  have hs : run (.src : Prog .gen .gen) t.events = some (.ok t.events) := by
    rw [run_src, ← outcome_ok, outcome_ok' ht]
  obtain ⟨h1, h2, h3, h4⟩ := C46_prepend_append .src c t.events _ hs
  rw [hc, outcome_ok' hn] at h1 h2 h4
  refine ⟨?_, ?_, ?_, ?_⟩
  · rw [transform_run, h1]; rfl
  · rw [transform_run, h2]; rfl
  · rw [transform_run, h3]; rfl
  · rw [transform_run, h4, Except.map, andThen_ok, List.append_nil]; rfl

example : results (.resultOk (.template ⟨[.closingTag li, .openingTag ul []]⟩)) =
    [Event.closingTag li, .openingTag ul []].map .ok ∧
    .noop ∉ [Event.closingTag li, .openingTag ul []] := by
  exact ⟨rfl, by simp⟩

/-- C48. `repeat` gives the outcomes of the builder for each item in order, each on a complete copy
of the stream; an error of the stream is kept. For any events and calls. -/
theorem C48_repeat {a k k' : Kind} (p : Prog a k) (es : List Event) (n : Nat)
    (b : Nat → Prog k k') :
    (∀ m rs, run p es = some (.ok m) → (∀ i < n, run (b i) m = some (rs i)) →
      run (.repeat p n b) es = some (inOrder ((List.range n).map rs))) ∧
    ∀ e, run p es = some (.error e) → run (.repeat p n b) es = some (.error e) :=
  ⟨fun _ _ h hb => run_repeat p es h hb, fun _ h => run_repeatError p es h⟩

/-- C48, `repeat_contents`: the contents are repeated and the tags are kept. -/
theorem C48_repeat_contents {k' : Kind} (n : Nat) (b : Nat → Prog .gen k')
    (hb : ∀ i, WellNested (b i)) (t : Identifier) (as : Attributes) (c : Identifier)
    (inner : List Event) (hc : SameName c.str t.str) (hi : Balanced inner)
    (hp : Page (.openingTag t as :: (inner ++ [.closingTag c]))) (rs : Nat → Outcome)
    (hr : ∀ i < n, run (b i) inner = some (rs i)) :
    run (Prog.repeatContents .src n b) (.openingTag t as :: (inner ++ [.closingTag c])) =
      some (andThen (.ok [.openingTag t as]) (andThen (inOrder ((List.range n).map rs))
        (.ok [.closingTag c]))) := by
  have hs : run (.src : Prog .gen .gen) inner = some (.ok inner) := by
    rw [run_src, ← outcome_ok, outcome_ok' (page_inner hc hi hp).2.2]
  rw [Prog.repeatContents, run_contents_pair (by exact ⟨trivial, hb⟩) hc hi hp,
    (C48_repeat .src inner n b).1 _ rs hs hr]
  rfl

example : run (Prog.repeatContents .src 2 fun i => .prepend .src (text (toString i)))
    sampleElement = some (.ok [.openingTag li [], .data (.static ['0']), .data (.actual ['x']),
      .data (.static ['1']), .data (.actual ['x']), .closingTag li]) := by
  refine (C48_repeat_contents 2 _ (fun _ => by exact ⟨trivial, text_page _⟩) li [] li
    [.data (.actual ['x'])] (sameName_refl _) ⟨0, .leaf trivial .nil⟩ sampleElement_page
    (fun i => .ok [.data (.static (toString i).toList), .data (.actual ['x'])]) ?_).trans rfl
  intro i _
  rw [run_prepend, run_src]
  rfl

/-- C49. Without items `repeat_or_else` and `repeat_contents_or_else` run the fallback on the stream,
otherwise they are `repeat` and `repeat_contents`. For any events and calls. -/
theorem C49_or_else {a a' k k₁ k₂ : Kind} (p : Prog a k) (q : Prog a' .elem) (es : List Event)
    (n : Nat) (b : Nat → Prog k k₁) (f : Prog k k₂) (b' : Nat → Prog .gen k₁)
    (f' : Prog .elem k₂) :
    run (p.repeatOrElse 0 b f) es = run (.apply p f) es ∧
    run (p.repeatOrElse (n + 1) b f) es = run (.repeat p (n + 1) b) es ∧
    run (q.repeatContentsOrElse 0 b' f') es = run (.apply q f') es ∧
    run (q.repeatContentsOrElse (n + 1) b' f') es = run (q.repeatContents (n + 1) b') es := by
  refine ⟨?_, ?_, ?_, ?_⟩
  · rw [Prog.repeatOrElse, run_orElse]; rfl
  · rw [Prog.repeatOrElse, run_orElse, if_pos (by omega)]; rfl
  · rw [Prog.repeatContentsOrElse, run_orElse]; rfl
  · rw [Prog.repeatContentsOrElse, run_orElse, if_pos (by omega)]; rfl

example : run (Prog.repeatOrElse (.src : Prog .gen .gen) 0
    (fun _ => (.src : Prog .gen .gen)) (.remove .src)) [.data (.actual ['x'])] = some (.ok []) := by
  rw [(C49_or_else .src .src _ 0 (fun _ => .src) (.remove .src) (fun _ => .src) (.remove .src)).1]
  change run (.remove .src) _ = _
  rw [run_removed, run_src]
  rfl

/-- C53. `apply_as_template` gives the events of the stream as a template to the function and then
has the events of the template the function returns; an error of the stream or of the function is
the outcome. For any events and calls. -/
theorem C53_apply_template {a k : Kind} (p : Prog a k) (g : Template → Except StreamError Template)
    (es : List Event) :
    (∀ m t, run p es = some (.ok m) → g ⟨m⟩ = .ok t → .noop ∉ t.events →
      run (.applyTemplate p g) es = some (.ok t.events)) ∧
    (∀ m e, run p es = some (.ok m) → g ⟨m⟩ = .error e →
      run (.applyTemplate p g) es = some (.error e)) ∧
    (∀ e, run p es = some (.error e) → run (.applyTemplate p g) es = some (.error e)) := by
  refine ⟨fun m t h hg hn => ?_, fun m e h hg => ?_, fun e h => ?_⟩
  · rw [run_applyTemplate, h]
    simp only [Option.map_some, hg, Except.map]
    rw [← outcome_ok, outcome_ok' hn]
  · rw [run_applyTemplate, h]
    simp only [Option.map_some, hg, Except.map]
  · rw [run_applyTemplate, h]
    rfl

/-- C53, the function matters only on the template it is given: it is not called on anything else,
and not at all if the stream fails. -/
theorem C53_only_call {a k : Kind} (p : Prog a k) (g g' : Template → Except StreamError Template)
    (es : List Event) (h : ∀ m, run p es = some (.ok m) → g ⟨m⟩ = g' ⟨m⟩) :
    run (.applyTemplate p g) es = run (.applyTemplate p g') es := by
  rw [run_applyTemplate, run_applyTemplate]
  obtain ⟨r, hr⟩ := C40_builder_total p es
  rw [hr]
  cases r with
  | error e => rfl
  | ok m => simp only [Option.map_some, h m hr]

example : run (.applyTemplate (.prepend .src (text "a") : Prog .gen .gen)
    fun t => .ok ⟨t.events ++ t.events⟩) [.data (.actual ['x'])] =
    some (.ok [.data (.static ['a']), .data (.actual ['x']), .data (.static ['a']),
      .data (.actual ['x'])]) := by
  refine (C53_apply_template _ _ _).1 [.data (.static ['a']), .data (.actual ['x'])] _ ?_ rfl
    (by simp)
  rw [run_prepend, run_src]
  rfl

/-- C54. No template that is parsed or comes out of a transform contains the placeholder event,
whatever the calls and contents are. -/
theorem C54_no_placeholder :
    (∀ s o t, Template.fromStr s o = .ok (.ok t) → .noop ∉ t.events) ∧
    ∀ {k} (t t' : Template) (p : Prog .gen k), t.transform p = some (.ok t') →
      .noop ∉ t'.events := by
  refine ⟨fun s o t h => (parsed_page h).2.2, fun t t' p h => ?_⟩
  rw [transform_run] at h
  cases hr : run p t.events with
  | none => rw [hr] at h; cases h
  | some r =>
    rw [hr] at h
    cases r with
    | error e => cases h
    | ok m =>
      cases h
      exact (run_ok hr).1

example : Template.transform ⟨[.noop, .data (.actual ['x'])]⟩
    (.append .src (.script [.ok (some .noop), .ok (some (.comment (.actual ['c'])))])) =
    some (.ok ⟨[.data (.actual ['x']), .comment (.actual ['c'])]⟩) := by
  rw [transform_run, run_append, run_src]
  rfl

/-! ## Calls on elements -/

/-- C47, the general content call `subselect_contents`: the builder runs on what is between the
tags. A self-closed element is opened, a void element is unchanged. -/
theorem C47_contents {k : Kind} (b : Prog .gen k) (hw : WellNested b) (t : Identifier)
    (as : Attributes) :
    (∀ inner c, SameName c.str t.str → Balanced inner →
      Page (.openingTag t as :: (inner ++ [.closingTag c])) →
      run (.contents .src b) (.openingTag t as :: (inner ++ [.closingTag c])) =
        (run b inner).map fun r =>
          andThen (.ok [.openingTag t as]) (andThen r (.ok [.closingTag c]))) ∧
    (Page [.selfClosedTag t as] → run (.contents .src b) [.selfClosedTag t as] =
      (run b []).map fun r =>
        andThen (.ok [.openingTag t as]) (andThen r (.ok [.closingTag t]))) ∧
    (Page [.voidTag t as] →
      run (.contents .src b) [.voidTag t as] = some (.ok [.voidTag t as])) :=
  ⟨fun _ _ hc hi hp => run_contents_pair hw hc hi hp, fun hp => run_contents_selfClosed hw hp,
    fun hp => run_contents_void hw hp⟩

/-- C47. The content calls on an element with opening and closing tag. -/
theorem C47_content_calls (c : Content) (hc : PageContent c) (t : Identifier) (as : Attributes)
    (inner : List Event) (n : Identifier) (hn : SameName n.str t.str) (hi : Balanced inner)
    (hp : Page (.openingTag t as :: (inner ++ [.closingTag n]))) :
    run (Prog.prependContents .src c) (.openingTag t as :: (inner ++ [.closingTag n])) =
      some (andThen (.ok [.openingTag t as]) (andThen (outcome (results c))
        (.ok (inner ++ [.closingTag n])))) ∧
    run (Prog.appendContents .src c) (.openingTag t as :: (inner ++ [.closingTag n])) =
      some (andThen (.ok (.openingTag t as :: inner)) (andThen (outcome (results c))
        (.ok [.closingTag n]))) ∧
    run (Prog.replaceContents .src c) (.openingTag t as :: (inner ++ [.closingTag n])) =
      some (andThen (.ok [.openingTag t as]) (andThen (outcome (results c))
        (.ok [.closingTag n]))) ∧
    run (Prog.removeContents .src) (.openingTag t as :: (inner ++ [.closingTag n])) =
      some (.ok [.openingTag t as, .closingTag n]) := by
  have hs : run (.src : Prog .gen .gen) inner = some (.ok inner) := by
    rw [run_src, ← outcome_ok, outcome_ok' (page_inner hn hi hp).2.2]
  obtain ⟨h1, h2, h3, h4⟩ := C46_prepend_append .src c inner _ hs
  refine ⟨?_, ?_, ?_, ?_⟩
  · rw [Prog.prependContents, run_contents_pair (by exact ⟨trivial, hc⟩) hn hi hp, h1]
    simp only [Option.map_some, andThen_assoc, andThen_ok]
  · rw [Prog.appendContents, run_contents_pair (by exact ⟨trivial, hc⟩) hn hi hp, h2]
    simp only [Option.map_some, andThen_assoc]
    rw [← andThen_assoc, andThen_ok]
    rfl
  · rw [Prog.replaceContents, run_contents_pair (by exact ⟨trivial, hc⟩) hn hi hp, h4]
    simp only [Option.map_some, Except.map, andThen_nil]
  · rw [Prog.removeContents, run_contents_pair (by exact trivial) hn hi hp, h3]
    rfl

/-- C47. The content calls on self-closed and void elements. -/
theorem C47_empty_elements (c : Content) (hc : PageContent c) (t : Identifier) (as : Attributes)
    (ht : Ascii t.str) :
    (∀ p ∈ [Prog.prependContents .src c, Prog.appendContents .src c, Prog.replaceContents .src c],
      run p [.selfClosedTag t as] = some (andThen (.ok [.openingTag t as])
        (andThen (outcome (results c)) (.ok [.closingTag t]))) ∧
      run p [.voidTag t as] = some (.ok [.voidTag t as])) ∧
    run (Prog.removeContents .src) [.selfClosedTag t as] =
      some (.ok [.openingTag t as, .closingTag t]) ∧
    run (Prog.removeContents .src) [.voidTag t as] = some (.ok [.voidTag t as]) := by
  have hp1 : Page [.selfClosedTag t as] := ⟨⟨0, .leaf trivial .nil⟩, by
    intro e he n hn; simp at he; subst he; cases hn; exact ht, by simp⟩
  have hp2 : Page [.voidTag t as] := ⟨⟨0, .leaf trivial .nil⟩, by
    intro e he n hn; simp at he; subst he; cases hn; exact ht, by simp⟩
  have hs : run (.src : Prog .gen .gen) [] = some (.ok []) := run_src []
  obtain ⟨h1, h2, h3, h4⟩ := C46_prepend_append .src c [] _ hs
  rw [nil_andThen] at h2
  simp only [Except.map, andThen_nil] at h1 h3 h4
  refine ⟨?_, ?_, ?_⟩
  · intro p hp
    simp only [List.mem_cons, List.not_mem_nil, or_false] at hp
    rcases hp with rfl | rfl | rfl
    · rw [Prog.prependContents, run_contents_selfClosed (by exact ⟨trivial, hc⟩) hp1, h1,
        run_contents_void (by exact ⟨trivial, hc⟩) hp2]
      exact ⟨rfl, rfl⟩
    · rw [Prog.appendContents, run_contents_selfClosed (by exact ⟨trivial, hc⟩) hp1, h2,
        run_contents_void (by exact ⟨trivial, hc⟩) hp2]
      exact ⟨rfl, rfl⟩
    · rw [Prog.replaceContents, run_contents_selfClosed (by exact ⟨trivial, hc⟩) hp1, h4,
        run_contents_void (by exact ⟨trivial, hc⟩) hp2]
      exact ⟨rfl, rfl⟩
  · rw [Prog.removeContents, run_contents_selfClosed (by exact trivial) hp1, h3]
    rfl
  · rw [Prog.removeContents, run_contents_void (by exact trivial) hp2]

example : run (Prog.appendContents .src (text "y")) sampleElement =
    some (.ok [.openingTag li [], .data (.actual ['x']), .data (.static ['y']), .closingTag li]) :=
  (C47_content_calls _ (text_page "y") li [] [.data (.actual ['x'])] li (sameName_refl _)
    ⟨0, .leaf trivial .nil⟩ sampleElement_page).2.1

/-- C45. The subselect calls search only what is between the tags: the tags stay, even if the
element itself matches. -/
theorem C45_subselect {k' : Kind} (s : Selector) (hs : OnlyStarts s) (b : Nat → Prog .elem k')
    (hb : ∀ i, WellNested (b i)) (b' : Prog .elem k') (hb' : WellNested b') (t : Identifier)
    (as : Attributes) (inner : List Event) (c : Identifier) (hc : SameName c.str t.str)
    (hi : Balanced inner) (hp : Page (.openingTag t as :: (inner ++ [.closingTag c]))) :
    let es := .openingTag t as :: (inner ++ [.closingTag c])
    let wrap := fun r => some (andThen (.ok [.openingTag t as]) (andThen r (.ok [.closingTag c])))
    (∃ r, Rewrites s (fun i m => run (b i) m) 0 inner r ∧
      run (Prog.subselect .src (.ok s) b) es = wrap r) ∧
    (∃ r, RewritesTop s (fun i m => run (b i) m) 0 inner r ∧
      run (Prog.subselectDirect .src (.ok s) b) es = wrap r) ∧
    (∃ r, run (Prog.selectOnce .src (.ok s) b' : Prog .gen .gen) inner = some r ∧
      run (Prog.subselectOnce .src (.ok s) b') es = wrap r) ∧
    (∃ r, run (Prog.selectDirectOnce .src (.ok s) b' : Prog .gen .gen) inner = some r ∧
      run (Prog.subselectDirectOnce .src (.ok s) b') es = wrap r) := by
  intro es wrap
  have hpi := page_inner hc hi hp
  have key : ∀ (q : Prog .gen .gen) (hq : WellNested q) r, run q inner = some r →
      run (.fallOk (.contents .src q)) es = wrap r := by
    intro q hq r hr
    rw [run_fallOk, run_contents_pair hq hc hi hp, hr]
    rfl
  have hone : ∀ (q : Prog .gen .gen) (hq : WellNested q),
      run q inner = some (meaning q (treeOf inner)).events :=
    fun q hq => run_meaning q hq hpi trivial
  refine ⟨⟨_, ?_, key _ (by exact ⟨trivial, hb⟩) _ (hone _ (by exact ⟨trivial, hb⟩))⟩,
    ⟨_, ?_, key _ (by exact ⟨trivial, hb⟩) _ (hone _ (by exact ⟨trivial, hb⟩))⟩,
    ⟨_, ?_, key _ (by exact ⟨trivial, hb'⟩) _ (hone _ (by exact ⟨trivial, hb'⟩))⟩,
    ⟨_, ?_, key _ (by exact ⟨trivial, hb'⟩) _ (hone _ (by exact ⟨trivial, hb'⟩))⟩⟩
  · have h := select_rewrites hs hb (treeOf inner) (treeOf_spec hpi).1 (treeOf_events hpi)
      (level := 0) (count := 0) .nil
    rw [List.append_nil, andThen_nil] at h
    exact h
  · exact select_rewritesTop hs hb (treeOf inner) (treeOf_spec hpi).1 (treeOf_events hpi)
  · exact (run_fallOk _ _).trans (hone _ (by exact ⟨trivial, hb'⟩))
  · exact (run_fallOk _ _).trans (hone _ (by exact ⟨trivial, hb'⟩))

/-- The outer `p` matches and stays. -/
example : ∃ t, Template.fromStr "<p><i><p/></i></p>".toList {} = .ok (.ok t) ∧
    shown (t.transform (Prog.selectOnce .src (.ok (.tag (owned ['p'])))
      (Prog.subselect .src (.ok (.tag (owned ['p']))) numbered))) =
      some "<p><i>0<p /></i></p>".toList :=
  shown_parsed (by exact ⟨trivial, trivial, trivial, numbered_nested⟩) (by decide +kernel)

/-- C50. Attribute calls change the attributes of the start tag and nothing else. -/
theorem C50_attributes (op : AttrOp) (t : Identifier) (as : Attributes) :
    (∀ m, Element (.openingTag t as :: m) → Page (.openingTag t as :: m) →
      run (.attr .src op) (.openingTag t as :: m) = some (.ok (.openingTag t (op.apply as) :: m))) ∧
    (Page [.selfClosedTag t as] → run (.attr .src op) [.selfClosedTag t as] =
      some (.ok [.selfClosedTag t (op.apply as)])) ∧
    (Page [.voidTag t as] →
      run (.attr .src op) [.voidTag t as] = some (.ok [.voidTag t (op.apply as)])) := by
  refine ⟨fun m he hp => ?_, fun hp => ?_, fun hp => ?_⟩
  · rw [run_meaning _ (by exact trivial) hp (by exact he)]
    cases he with
    | pair hc hi =>
      have := treeOf_events (page_inner hc hi hp)
      rw [treeOf_pair hc hi]
      simp only [meaning, onAttributes]
      rw [events_elem, this]
      rfl
  · rw [run_meaning _ (by exact trivial) hp (by exact .selfClosed t as)]
    rfl
  · rw [run_meaning _ (by exact trivial) hp (by exact .void t as)]
    rfl

/-- C50, each attribute call with a valid name is such a change. -/
theorem C50_calls {a : Kind} (q : Prog a .elem) (n : Identifier) (es : List Event) :
    (∀ v, run (q.addAttribute (.ok n) v) es = run (.attr q (.addAttribute n v)) es) ∧
    (∀ v w, run (q.addToAttribute (.ok n) v w) es = run (.attr q (.addToAttribute n v w)) es) ∧
    (∀ v, run (q.replaceAttributeValueIfExists (.ok n) v) es =
      run (.attr q (.replaceAttribute n (some v))) es) ∧
    (∀ v, run (q.setAttribute (.ok n) v) es = run (.attr q (.setAttribute n v)) es) ∧
    run (q.removeAttribute (.ok n)) es = run (.attr q (.removeAttribute n)) es ∧
    run (q.addClass (.ok n)) es = run (.attr q (.addToAttribute ⟨.static "class".toList⟩
      n.intoValue (.static " ".toList))) es ∧
    run (q.removeClass (.ok n)) es = run (.attr q (.removeClass n)) es ∧
    run q.removeId es = run (.attr q (.removeAttribute ⟨.static "id".toList⟩)) es ∧
    run (q.setId (.ok n)) es =
      run (.attr q (.setAttribute ⟨.static "id".toList⟩ (some n.intoValue))) es := by
  refine ⟨?_, ?_, ?_, ?_, ?_, ?_, ?_, ?_, ?_⟩
  all_goals intros
  all_goals first | exact run_fallOk _ _ | rfl

example : run (Prog.addClass .src (.ok (owned ['c']))) [.selfClosedTag ul sampleAttributes] =
    some (.ok [.selfClosedTag ul [⟨owned "class".toList, some (.actual "a b c".toList)⟩]]) := by
  have hp : Page [.selfClosedTag ul sampleAttributes] :=
    parsed_page (s := "<ul class=\"a b\"/>".toList) (o := {}) (t := ⟨_⟩) rfl
  rw [(C50_calls .src (owned ['c']) _).2.2.2.2.2.1, (C50_attributes _ _ _).2.1 hp]
  rfl

/-! ## Templates made of one element -/

/-- C55. `with_element` makes a void tag for void names and a self-closed tag otherwise, without
attributes. -/
theorem C55_with_element (n : Identifier) (x : IdentifierError) :
    (VoidName n.str → Template.withElement (.ok n) = .ok ⟨[.voidTag n []]⟩) ∧
    (¬ VoidName n.str → Template.withElement (.ok n) = .ok ⟨[.selfClosedTag n []]⟩) ∧
    Template.withElement (.error x) = .error x := by
  refine ⟨fun h => ?_, fun h => ?_, rfl⟩
  · have : isVoidTag n.str = true := isVoidTag_iff.2 h
    rw [Template.withElement]
    simp only [bind, Except.bind, this, if_true]
    rfl
  · have : isVoidTag n.str = false := by
      cases hv : isVoidTag n.str
      · rfl
      · exact absurd (isVoidTag_iff.1 hv) h
    rw [Template.withElement]
    simp only [bind, Except.bind, this]
    rfl

/-- C55. `with_transformed_element` runs the builder on exactly that element, whatever the builder. -/
theorem C55_with_transformed_element {k : Kind} (n : Identifier) (hn : Ascii n.str)
    (b : Prog .elem k) (x : IdentifierError) :
    (∀ t, Template.withElement (.ok n) = .ok t →
      Template.withTransformedElement (.ok n) b =
        (run b t.events).map fun r => r.map Template.mk) ∧
    Template.withTransformedElement (.error x) b = some (.error (.identifier x)) := by
  refine ⟨fun t ht => ?_, rfl⟩
  have hid : n.eq n = true := (identifierEq_right hn).2 (sameName_refl _)
  rw [Template.withTransformedElement]
  simp only [ht]
  obtain ⟨h1, h2, -⟩ := C55_with_element n .empty
  rw [transform_run]
  congr 1
  by_cases hv : VoidName n.str
  · rw [h1 hv] at ht
    cases ht
    exact (run_fallOk _ _).trans <| run_selectOnce_single (e := .voidTag n []) (s := .tag n) (by rw [next])
      (by simp) hid b
  · rw [h2 hv] at ht
    cases ht
    exact (run_fallOk _ _).trans <| run_selectOnce_single (e := .selfClosedTag n []) (s := .tag n) (by rw [next])
      (by simp) hid b

example : Template.withTransformedElement (.ok li) (Prog.appendContents .src (text "y")) =
    some (.ok ⟨[.openingTag li [], .data (.static ['y']), .closingTag li]⟩) := by
  have ha : Ascii li.str := by unfold Ascii; decide +kernel
  rw [(C55_with_transformed_element li ha _ .empty).1 ⟨[.selfClosedTag li []]⟩ rfl]
  rw [((C47_empty_elements (text "y") (text_page _) li [] ha).1 _ (by simp)).1]
  rfl

end Fuser
