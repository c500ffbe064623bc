import Verif.Proof.Agree
import Verif.Props.Apart
import Verif.Props.Select

/-!
# Property C115: selectors are seen only through what they match
-/

namespace Fuser

open Spec

/-- C115. If all events of the page have a property, the calls only put such events into a page, and
the selectors of other calls, which are the same apart from that, match the same of the events with
the property, then the result is the same page or the same error. -/
theorem C115_agree {k : Kind} (A : Event → Prop) (t : Template) (p q : Prog .gen k)
    (ht : Page t.events) (hp : WellNested p) (hA : Lasting A) (hk : Keeps A p)
    (h : OtherSelectors A p q) (he : ∀ e ∈ t.events, A e) : t.transform p = t.transform q := by
  rw [transform_eq p hp t ht, transform_eq q (nested_ext h hp) t ht,
    meaning_ext hA h hk _ (allOf_treeOf he)]

/-- C115, for all pages: selectors that match the same events can be exchanged anywhere in a chain of
calls. -/
theorem C115_exchange {k : Kind} (t : Template) (p q : Prog .gen k) (ht : Page t.events)
    (hp : WellNested p) (h : OtherSelectors (fun _ => True) p q) : t.transform p = t.transform q :=
  C115_agree _ t p q ht hp ⟨fun _ => trivial, fun _ _ _ => trivial⟩ (keeps_any p) h
    fun _ _ => trivial

theorem describes_respelled {p q : SelParts} (h : p.Respelled q) {tag : Identifier}
    {as : Attributes} (hd : p.Describes tag as) : q.Describes tag as := by
  obtain ⟨h1, h2, -, h4⟩ := h
  refine ⟨fun t ht => ?_, fun i hi => ?_, fun c hc => ?_⟩
  · generalize hx : p.tag = x at h1
    rw [ht] at h1
    cases h1 with
    | some h => exact (hd.1 _ hx).trans h
  · generalize hx : p.id = x at h2
    rw [hi] at h2
    cases h2 with
    | some h =>
      obtain ⟨a, ha, hn, v, hv, hs⟩ := hd.2.1 _ hx
      exact ⟨a, ha, hn, v, hv, hs.trans h⟩
  · obtain ⟨d, hd', hs⟩ := h4 c hc
    obtain ⟨a, ha, hn, v, hv, w, hw, hs'⟩ := hd.2.2 d hd'
    exact ⟨a, ha, hn, v, hv, w, hw, hs'.trans hs⟩

theorem respelled_symm {p q : SelParts} (h : p.Respelled q) : q.Respelled p := by
  obtain ⟨h1, h2, h3, h4⟩ := h
  have rel : ∀ {x y : Option Str}, Option.Rel SameName x y → Option.Rel SameName y x := by
    intro x y h
    cases h with
    | none => exact .none
    | some h => exact .some h.symm
  exact ⟨rel h1, rel h2, fun c hc => (h4 c hc).imp fun _ h => ⟨h.1, h.2.symm⟩,
    fun c hc => (h3 c hc).imp fun _ h => ⟨h.1, h.2.symm⟩⟩

/-- C115, for selector texts. Two texts that differ only in the case of letters and in the order and
repetition of classes are accepted or rejected both, and the selectors match the same events: after
any calls and with any builders, the selections give the same. -/
theorem C115_respelled {k k' : Kind} (x y : SelParts) (hx : x.WellFormed) (hy : y.WellFormed)
    (h : x.Respelled y) :
    ((∃ s, Selector.ofStatic x.text = .ok (.ok s)) ↔ ∃ r, Selector.ofStatic y.text = .ok (.ok r)) ∧
    ∀ s r, Selector.ofStatic x.text = .ok (.ok s) → Selector.ofStatic y.text = .ok (.ok r) →
      (∀ e, s.matches e = r.matches e) ∧
      ∀ (t : Template) (p : Prog .gen k) (b : Nat → Prog .elem k'), Page t.events → WellNested p →
        (∀ i, WellNested (b i)) →
        t.transform (p.select (.ok s) b) = t.transform (p.select (.ok r) b) ∧
        t.transform (p.selectDirect (.ok s) b) = t.transform (p.selectDirect (.ok r) b) ∧
        t.transform (p.selectOnce (.ok s) (b 0)) = t.transform (p.selectOnce (.ok r) (b 0)) ∧
        t.transform (p.selectDirectOnce (.ok s) (b 0)) =
          t.transform (p.selectDirectOnce (.ok r) (b 0)) := by
  have empty : ∀ {x y : SelParts}, x.Respelled y → x.WellFormed → y.WellFormed → x.text = [] →
      y.text = [] := by
    intro x y h hx hy ht
    obtain ⟨h1, h2, -, h4⟩ := h
    rcases x with ⟨xt, xi, xc⟩
    rcases y with ⟨yt, yi, yc⟩
    simp only [SelParts.text, List.append_eq_nil_iff] at ht ⊢
    obtain ⟨⟨ht, hi⟩, hc⟩ := ht
    simp only at h1 h2 h4
    refine ⟨⟨?_, ?_⟩, ?_⟩
    · cases h1 with
      | none => rfl
      | @some a b h =>
        have : a = [] := ht
        exact absurd this (hx.1 a rfl).1.1
    · cases h2 with
      | none => rfl
      | some h => cases hi
    · cases yc with
      | nil => rfl
      | cons c yc =>
        obtain ⟨d, hd, -⟩ := h4 c List.mem_cons_self
        simp only [List.flatMap_eq_nil_iff] at hc
        exact absurd (hc d hd) (by simp)
  have accepted : ∀ {x : SelParts}, x.WellFormed →
      ((∃ s, Selector.ofStatic x.text = .ok (.ok s)) ↔ x.text ≠ []) := by
    intro x hx
    refine ⟨fun ⟨s, hs⟩ hn => ?_, fun hn => ?_⟩
    · rw [(C33_static_selector x hx).1 hn] at hs
      cases hs
    · obtain ⟨s, hs, -⟩ := (C33_static_selector x hx).2 hn
      exact ⟨s, hs⟩
  refine ⟨?_, fun s r hs hr => ?_⟩
  · rw [accepted hx, accepted hy]
    exact not_congr ⟨empty h hx hy, empty (respelled_symm h) hy hx⟩
  have means : ∀ {x : SelParts} {s : Selector}, x.WellFormed →
      Selector.ofStatic x.text = .ok (.ok s) →
      ∀ e, s.matches e = true ↔ ∃ tag as, Starts e tag as ∧ x.Describes tag as := by
    intro x s hx hs
    by_cases hn : x.text = []
    · rw [(C33_static_selector x hx).1 hn] at hs
      cases hs
    · obtain ⟨s', hs', hm⟩ := (C33_static_selector x hx).2 hn
      rw [hs'] at hs
      cases hs
      exact hm
  have hm : ∀ e, s.matches e = r.matches e := by
    intro e
    rw [Bool.eq_iff_iff, means hx hs, means hy hr]
    exact ⟨fun ⟨t, as, h1, h2⟩ => ⟨t, as, h1, describes_respelled h h2⟩,
      fun ⟨t, as, h1, h2⟩ => ⟨t, as, h1, describes_respelled (respelled_symm h) h2⟩⟩
  have same : ∀ {a k : Kind} (p : Prog a k), OtherSelectors (fun _ => True) p p := by
    intro a k p
    induction p with
    | src => exact .src
    | forget p ih => exact .forget ih
    | apply p q ih1 ih2 => exact .apply ih1 ih2
    | fallOk p ih => exact .fallOk ih
    | fallErr e => exact .fallErr
    | selectRaw p s d b ih ihb => exact .select ih (fun _ _ => rfl) ihb
    | selectOnceRaw p s d b ih ihb => exact .selectOnce ih (fun _ _ => rfl) ihb
    | remove p ih => exact .remove ih
    | prepend p c ih => exact .prepend ih
    | append p c ih => exact .append ih
    | «repeat» p n b ih ihb => exact .repeat ih ihb
    | orElse p n r q ih ihr ihq => exact .orElse ih ihr ihq
    | applyTemplate p g ih => exact .template ih
    | contents p b ih ihb => exact .contents ih ihb
    | attr p op ih => exact .attr ih
  refine ⟨hm, fun t p b ht hp hb => ⟨?_, ?_, ?_, ?_⟩⟩
  · exact C115_exchange t _ _ ht ⟨hp, hb⟩
      (.fallOk (.select (same p) (fun e _ => hm e) fun i => same (b i)))
  · exact C115_exchange t _ _ ht ⟨hp, hb⟩
      (.fallOk (.select (same p) (fun e _ => hm e) fun i => same (b i)))
  · exact C115_exchange t _ _ ht ⟨hp, hb 0⟩
      (.fallOk (.selectOnce (same p) (fun e _ => hm e) (same (b 0))))
  · exact C115_exchange t _ _ ht ⟨hp, hb 0⟩
      (.fallOk (.selectOnce (same p) (fun e _ => hm e) (same (b 0))))

/-! ## Examples and limits -/

/-- C115: an item of two classes, and a page with it. -/
def classyPage : Template :=
  ⟨[.openingTag li [⟨owned "class".toList, some (.actual "A b".toList)⟩], .closingTag li,
    .voidTag lineBreak []]⟩

theorem classyPage_page : Page classyPage.events :=
  parsed_page (s := "<li class=\"A b\"></li><br>".toList) (o := {}) (t := classyPage) rfl

/-- C115: the selectors `LI.a.b` and `li.b.A.b`. -/
example : let x : SelParts := ⟨some "LI".toList, none, ["a".toList, "b".toList]⟩
    let y : SelParts := ⟨some "li".toList, none, ["b".toList, "A".toList, "b".toList]⟩
    x.WellFormed ∧ y.WellFormed ∧ x.Respelled y ∧
    ∃ s r, Selector.ofStatic x.text = .ok (.ok s) ∧ Selector.ofStatic y.text = .ok (.ok r) ∧
      s ≠ r ∧
      shown (classyPage.transform (Prog.select (.src : Prog .gen .gen) (.ok s)
        fun _ => .remove .src)) = some "<br>".toList ∧
      shown (classyPage.transform (Prog.select (.src : Prog .gen .gen) (.ok r)
        fun _ => .remove .src)) = some "<br>".toList := by
  have hx : SelParts.WellFormed ⟨some "LI".toList, none, ["a".toList, "b".toList]⟩ := by
    simp [SelParts.WellFormed, Simple, ValidIdent, Ascii, Space, forbidden]
    decide
  have hy : SelParts.WellFormed ⟨some "li".toList, none, ["b".toList, "A".toList, "b".toList]⟩ := by
    simp [SelParts.WellFormed, Simple, ValidIdent, Ascii, Space, forbidden]
    decide
  have hr : SelParts.Respelled ⟨some "LI".toList, none, ["a".toList, "b".toList]⟩
      ⟨some "li".toList, none, ["b".toList, "A".toList, "b".toList]⟩ := by
    refine ⟨.some (by simp [SameName, SameLetter]), .none, fun c hc => ?_, fun d hd => ?_⟩
    · simp only [List.mem_cons, List.not_mem_nil, or_false] at hc
      rcases hc with rfl | rfl
      · exact ⟨"A".toList, by simp, by simp [SameName, SameLetter]⟩
      · exact ⟨"b".toList, by simp, by simp [SameName, SameLetter]⟩
    · simp only [List.mem_cons, List.not_mem_nil, or_false] at hd
      rcases hd with rfl | rfl | rfl
      · exact ⟨"b".toList, by simp, by simp [SameName, SameLetter]⟩
      · exact ⟨"a".toList, by simp, by simp [SameName, SameLetter]⟩
      · exact ⟨"b".toList, by simp, by simp [SameName, SameLetter]⟩
  refine ⟨hx, hy, hr, .static (some "LI".toList) none (some "a.b".toList),
    .static (some "li".toList) none (some "b.A.b".toList), rfl, rfl, ?_, ?_, ?_⟩
  · intro h
    exact absurd (Selector.static.inj h).2.2 (by decide)
  · rw [(((C115_respelled (k := .gen) (k' := .gen) _ _ hx hy hr).2
        (.static (some "LI".toList) none (some "a.b".toList))
        (.static (some "li".toList) none (some "b.A.b".toList)) rfl rfl).2 classyPage .src
      (fun _ => .remove .src) classyPage_page trivial fun _ => trivial).1,
      transform_eq _ (by exact ⟨trivial, fun _ => trivial⟩) _ classyPage_page]
    decide +kernel
  · rw [transform_eq _ (by exact ⟨trivial, fun _ => trivial⟩) _ classyPage_page]
    decide +kernel

/-- C115: on pages without paragraphs, a selector of items and one of items and paragraphs. -/
example : let A : Event → Prop := fun e => (Selector.tag (owned ['p'])).matches e = false
    let p : Selector → Prog .gen .gen := fun s =>
      (Prog.append .src (text "z")).select (.ok s) fun i => Prog.replaceContents .src (lettered i)
    Lasting A ∧ Keeps A (p (.tag li)) ∧
    OtherSelectors A (p (.tag li)) (p (anyOf (.tag li) (.tag (owned ['p'])))) ∧
    (∀ e ∈ apartPage.events, A e) ∧
    shown (apartPage.transform (p (anyOf (.tag li) (.tag (owned ['p']))))) =
      some "<li>a</li><br><li>b</li>z".toList := by
  intro A p
  have hn : ∀ s, WellNested (p s) :=
    fun s => ⟨⟨trivial, text_page _⟩, fun i => ⟨trivial, trivial, lettered_page i⟩⟩
  have hA : Lasting A := ⟨fun _ => rfl, fun t as h => (tag_slash _ t as).symm.trans h⟩
  have hk : Keeps A (p (.tag li)) := by
    refine ⟨⟨trivial, fun e he => ?_⟩, fun i => ⟨trivial, trivial, fun e he => ?_⟩⟩
    all_goals
      cases List.mem_singleton.1 he
      rfl
  have ho : OtherSelectors A (p (.tag li)) (p (anyOf (.tag li) (.tag (owned ['p'])))) := by
    refine .fallOk (.select (.append .src) (fun e he => ?_) fun i => ?_)
    · show (Selector.tag li).matches e = ((Selector.tag li).matches e ||
        (Selector.tag (owned ['p'])).matches e)
      rw [show (Selector.tag (owned ['p'])).matches e = false from he, Bool.or_false]
    · exact .contents .src (by exact .prepend (.remove .src))
  have hp : ∀ e ∈ apartPage.events, A e := by
    show ∀ e ∈ apartPage.events, (Selector.tag (owned ['p'])).matches e = false
    decide
  refine ⟨hA, hk, ho, hp, ?_⟩
  rw [← C115_agree A _ _ _ apartPage_page (hn _) hA hk ho hp, transform_eq _ (hn _) _ apartPage_page]
  decide +kernel

/-- C115: the calls of the limits: a line break is put after the page, and what a selector matches is
removed. -/
def breakRemoved (s : Selector) : Prog .gen .gen :=
  (Prog.append .src (.template ⟨[.voidTag lineBreak []]⟩)).select (.ok s) fun _ => .remove .src

theorem break_content : PageContent (.template ⟨[.voidTag lineBreak []]⟩) := by
  refine ⟨.leaf trivial .done, ?_⟩
  intro e t h
  simp [results] at h
  subst h
  simp [startName]
  rintro rfl
  exact apartPage_page.2.1 (.voidTag lineBreak []) (by simp [apartPage]) _ rfl

/-- C115, a limit: contents the calls insert are seen by the selectors, not only the page. -/
theorem C115_kept_seen : ∃ (A : Event → Prop) (t : Template) (p q : Prog .gen .gen),
    Page t.events ∧ WellNested p ∧ Lasting A ∧ OtherSelectors A p q ∧ (∀ e ∈ t.events, A e) ∧
    shown (t.transform p) = some "z".toList ∧ shown (t.transform q) = some "z<br>".toList := by
  have ht : Page [Event.data (fromRaw ['z'])] :=
    parsed_page (s := "z".toList) (o := {}) (t := ⟨[.data (fromRaw ['z'])]⟩) rfl
  have hn : ∀ s, WellNested (breakRemoved s) :=
    fun s => ⟨⟨trivial, break_content⟩, fun _ => trivial⟩
  refine ⟨fun e => (Selector.tag lineBreak).matches e = false, ⟨[.data (fromRaw ['z'])]⟩,
    breakRemoved (.tag lineBreak), breakRemoved (.custom fun _ => false), ht, hn _,
    ⟨fun _ => rfl, fun t as h => (tag_slash _ t as).symm.trans h⟩,
    .fallOk (.select (.append .src) (fun e he => he) fun _ => .remove .src), by decide, ?_, ?_⟩
  all_goals
    rw [transform_eq _ (hn _) _ ht]
    decide +kernel

/-- C115, a limit: a self-closed element that gets contents is opened, and it is the opened element
that later selectors see. -/
theorem C115_slash_seen : ∃ (A : Event → Prop) (t : Template) (p q : Prog .gen .gen),
    Page t.events ∧ WellNested p ∧ (∀ c, A (.closingTag c)) ∧ Keeps A p ∧ OtherSelectors A p q ∧
    (∀ e ∈ t.events, A e) ∧
    shown (t.transform p) = some [] ∧ shown (t.transform q) = some "<li>z</li>".toList := by
  have hr : Template.fromStr "<li/>".toList {} = .ok (.ok ⟨[.selfClosedTag li []]⟩) := rfl
  let opened : Event → Bool := fun e => match e with
    | .openingTag _ _ => true
    | _ => false
  let p : Selector → Prog .gen .gen := fun s =>
    (Prog.select .src (.ok (.tag li)) fun _ => Prog.appendContents .src (text "z")).select (.ok s)
      fun _ => .remove .src
  have hn : ∀ s, WellNested (p s) :=
    fun s => ⟨⟨trivial, fun _ => ⟨trivial, trivial, text_page _⟩⟩, fun _ => trivial⟩
  refine ⟨fun e => opened e = false, _, p (.custom opened), p (.custom fun _ => false),
    parsed_page hr, hn _, fun _ => rfl, ?_,
    .fallOk (.select (.fallOk (.select .src (fun _ _ => rfl) fun _ =>
      .contents .src (.append .src))) (fun e he => he) fun _ => .remove .src), by decide, ?_, ?_⟩
  · refine ⟨⟨trivial, fun _ => ⟨trivial, trivial, fun e he => ?_⟩⟩, fun _ => trivial⟩
    cases List.mem_singleton.1 he
    rfl
  all_goals
    rw [transform_eq _ (hn _) _ (parsed_page hr)]
    decide +kernel

end Fuser
