import Verif.Proof.Apart
import Verif.Props.Calls

/-!
# Property C113: selections that do not meet
-/

namespace Fuser

open Spec

/-- C113, for removals. Removing what one selector matches and then what another one matches is
removing what one of them matches, and the order is of no matter, for `select` and
`select_direct`. -/
theorem C113_removals {k : Kind} (t : Template) (p : Prog .gen k) (s r : Selector)
    (ht : Page t.events) (hp : WellNested p) (hs : OnlyStarts s) (hr : OnlyStarts r) :
    (t.transform ((p.select (.ok s) fun _ => .remove .src).select (.ok r) fun _ => .remove .src) =
        t.transform (p.select (.ok (anyOf s r)) fun _ => .remove .src) ∧
      t.transform ((p.select (.ok s) fun _ => .remove .src).select (.ok r) fun _ => .remove .src) =
        t.transform ((p.select (.ok r) fun _ => .remove .src).select (.ok s)
          fun _ => .remove .src)) ∧
    (t.transform ((p.selectDirect (.ok s) fun _ => .remove .src).selectDirect (.ok r)
          fun _ => .remove .src) =
        t.transform (p.selectDirect (.ok (anyOf s r)) fun _ => .remove .src) ∧
      t.transform ((p.selectDirect (.ok s) fun _ => .remove .src).selectDirect (.ok r)
          fun _ => .remove .src) =
        t.transform ((p.selectDirect (.ok r) fun _ => .remove .src).selectDirect (.ok s)
          fun _ => .remove .src)) := by
  have swap : ∀ d f, without (anyOf s r) d 0 f = without (anyOf r s) d 0 f := by
    intro d f
    have : anyOf s r = anyOf r s := by
      simp only [anyOf, Selector.custom.injEq]
      funext e
      exact Bool.or_comm _ _
    rw [this]
  have nested : WellNested p ∧ ∀ _ : Nat, WellNested (.remove .src : Prog .elem .gen) :=
    ⟨hp, fun _ => trivial⟩
  refine ⟨⟨?_, ?_⟩, ?_, ?_⟩
  · rw [transform_eq _ (by exact ⟨nested, fun _ => trivial⟩) t ht,
      transform_eq _ (by exact nested) t ht]
    exact congrArg (fun f : Forest => some (f.events.map Template.mk)) (without_both hs hr false _ 0)
  · rw [transform_eq _ (by exact ⟨nested, fun _ => trivial⟩) t ht,
      transform_eq _ (by exact ⟨nested, fun _ => trivial⟩) t ht]
    exact congrArg (fun f : Forest => some (f.events.map Template.mk))
      ((without_both hs hr false _ 0).trans ((swap false _).trans (without_both hr hs false _ 0).symm))
  · rw [transform_eq _ (by exact ⟨nested, fun _ => trivial⟩) t ht,
      transform_eq _ (by exact nested) t ht]
    exact congrArg (fun f : Forest => some (f.events.map Template.mk)) (without_both hs hr true _ 0)
  · rw [transform_eq _ (by exact ⟨nested, fun _ => trivial⟩) t ht,
      transform_eq _ (by exact ⟨nested, fun _ => trivial⟩) t ht]
    exact congrArg (fun f : Forest => some (f.events.map Template.mk))
      ((without_both hs hr true _ 0).trans ((swap true _).trans (without_both hr hs true _ 0).symm))

/-- C113. If no match of one selector is in, or is, a match of the other one, and neither builder
makes matches of the other selector, then the two selections can be swapped: the result is the same
page or the same error, whether the selections are with `select` or with `select_direct`. The
builders still get the same numbers. -/
theorem C113_swap {k k₁ k₂ : Kind} (t u : Template) (p : Prog .gen k) (s r : Selector)
    (b : Nat → Prog .elem k₁) (c : Nat → Prog .elem k₂) (ht : Page t.events) (hp : WellNested p)
    (hb : ∀ i, WellNested (b i)) (hc : ∀ i, WellNested (c i)) (hs : OnlyStarts s)
    (hr : OnlyStarts r) (hs' : SlashBlind s) (hr' : SlashBlind r)
    (hu : t.transform p = some (.ok u)) (hm : NeverMeet s r u.events)
    (hbr : ∀ i, MakesNone r (b i)) (hcs : ∀ i, MakesNone s (c i)) :
    t.transform ((p.select (.ok s) b).select (.ok r) c) =
      t.transform ((p.select (.ok r) c).select (.ok s) b) ∧
    t.transform ((p.selectDirect (.ok s) b).selectDirect (.ok r) c) =
      t.transform ((p.selectDirect (.ok r) c).selectDirect (.ok s) b) ∧
    t.transform ((p.select (.ok s) b).selectDirect (.ok r) c) =
      t.transform ((p.selectDirect (.ok r) c).select (.ok s) b) := by
  have hw := (meaning_ok p hp _ trivial (treeOf_spec ht).1).2
  rw [transform_eq p hp t ht] at hu
  have hx : (meaning p (treeOf t.events)).events = .ok u.events := by
    cases he : (meaning p (treeOf t.events)).events with
    | error e => rw [he] at hu; cases hu
    | ok es => rw [he] at hu; cases hu; rfl
  have ha := tree_apart hs hm hw (x := []) (y := []) hx (by simp)
  have key := fun d d' => (select_swap (d := d) (d' := d') (b := fun i => meaning (b i))
    (c := fun i => meaning (c i)) hs hr (fun i => mute_meaning hr hr' (b i) (hbr i))
    (fun i => mute_meaning hs hs' (c i) (hcs i)) _ ha 0 0 0).1
  refine ⟨?_, ?_, ?_⟩
  · rw [transform_eq _ (by exact ⟨⟨hp, hb⟩, hc⟩) t ht, transform_eq _ (by exact ⟨⟨hp, hc⟩, hb⟩) t ht]
    exact congrArg (fun o : Outcome => some (o.map Template.mk)) (key false false)
  · rw [transform_eq _ (by exact ⟨⟨hp, hb⟩, hc⟩) t ht, transform_eq _ (by exact ⟨⟨hp, hc⟩, hb⟩) t ht]
    exact congrArg (fun o : Outcome => some (o.map Template.mk)) (key true true)
  · rw [transform_eq _ (by exact ⟨⟨hp, hb⟩, hc⟩) t ht, transform_eq _ (by exact ⟨⟨hp, hc⟩, hb⟩) t ht]
    exact congrArg (fun o : Outcome => some (o.map Template.mk)) (key false true)

/-- C113, for matches one by one. If the builders leave no match of the elements they get, then
`select` is `select_once` for the first matches, one after the other and each time with the next
builder, followed by `select` for the others; and it is `select_once` alone if it is called often
enough, as it is with as many calls as the page has events. -/
theorem C113_one_by_one {k : Kind} (t : Template) (s : Selector) (b : Nat → Prog .elem k) (n : Nat)
    (ht : Page t.events) (hs : OnlyStarts s) (hn : ∀ i, WellNested (b i))
    (hb : ∀ i, Clears s (b i)) :
    t.transform ((oneByOne s b n).select (.ok s) fun i => b (i + n)) =
      t.transform (Prog.select .src (.ok s) b) ∧
    (t.events.length ≤ n → t.transform (oneByOne s b n) = t.transform (Prog.select .src (.ok s) b)) := by
  have hw := (treeOf_spec ht).1
  obtain ⟨-, -, h3, h4⟩ := one_by_one hs hn hb hw (sound_iff.2 ⟨_, treeOf_events ht⟩) n
  rw [transform_eq _ (by exact ⟨one_nested hn n, fun i => hn (i + n)⟩) t ht,
    transform_eq (Prog.select .src (.ok s) b) (by exact ⟨trivial, hn⟩) t ht,
    transform_eq _ (one_nested hn n) t ht]
  refine ⟨congrArg (fun f : Forest => some (f.events.map Template.mk)) h3, fun hl => ?_⟩
  refine congrArg (fun f : Forest => some (f.events.map Template.mk)) (Eq.trans ?_ h3)
  refine (select_none hs _ 0 0 ?_).symm
  have := select_bound (d := false) (b := fun i => meaning (b i)) hs (treeOf_events ht) 0 0
  omega

/-! ## Examples and limits -/

/-- A tag for the examples. -/
def lineBreak : Identifier := owned "br".toList

theorem tag_starts (n : Identifier) : OnlyStarts (.tag n) := by
  intro e h
  cases e <;> first | rfl | cases h

theorem tag_slash (n : Identifier) : SlashBlind (.tag n) := fun _ _ => rfl

/-- Builders for the examples: the first element gets another text than the others. -/
def lettered (i : Nat) : Content := text (if i = 0 then "a" else "b")

theorem lettered_page (i : Nat) : PageContent (lettered i) := text_page _

/-- A page for the examples. -/
def apartPage : Template :=
  ⟨[.selfClosedTag li [], .voidTag lineBreak [], .openingTag li [], .closingTag li]⟩

theorem apartPage_parsed : Template.fromStr "<li/><br><li></li>".toList {} = .ok (.ok apartPage) := rfl

theorem apartPage_page : Page apartPage.events := parsed_page apartPage_parsed

theorem apartPage_apart : NeverMeet (.tag li) (.tag lineBreak) apartPage.events := by
  have alone : ∀ (q : Selector) (e : Event), q.matches e = false → Unmatched q [e] := by
    intro q e h x hx
    cases List.mem_singleton.1 hx
    exact h
  intro x e m y h hE
  simp only [apartPage] at h
  rcases x with _ | ⟨a, _ | ⟨a', _ | ⟨a'', _ | ⟨a3, x⟩⟩⟩⟩ <;>
    simp only [List.nil_append, List.cons_append, List.cons.injEq] at h
  · obtain ⟨rfl, h⟩ := h
    cases hE
    exact ⟨fun _ => alone _ _ (by decide), fun h => absurd h (by decide)⟩
  · obtain ⟨-, rfl, h⟩ := h
    cases hE
    exact ⟨fun h => absurd h (by decide), fun _ => alone _ _ (by decide)⟩
  · obtain ⟨-, -, rfl, h⟩ := h
    refine ⟨fun _ z hz => ?_, fun h => absurd h (by decide)⟩
    rcases List.mem_cons.1 hz with rfl | hz
    · decide
    · have : z ∈ [Event.closingTag li] := h ▸ List.mem_append_left y hz
      cases List.mem_singleton.1 this
      rfl
  · obtain ⟨-, -, -, rfl, h⟩ := h
    cases hE
  · obtain ⟨-, -, -, -, h⟩ := h
    simp at h

/-- C113: the hypotheses hold for texts put into the items and around the line breaks, and the
results. -/
example : WellNested (.append .src (text "z") : Prog .elem .gen) ∧
    (∀ i, MakesNone (.tag lineBreak) (Prog.replaceContents .src (lettered i))) ∧
    MakesNone (.tag li) (.append .src (text "z") : Prog .elem .gen) ∧
    shown (apartPage.transform ((Prog.select .src (.ok (.tag li))
        fun i => Prog.replaceContents .src (lettered i)).select (.ok (.tag lineBreak))
        fun _ => .append .src (text "z"))) = some "<li>a</li><br>z<li>b</li>".toList ∧
    shown (apartPage.transform ((Prog.select .src (.ok (.tag lineBreak))
        fun _ => .append .src (text "z")).select (.ok (.tag li))
        fun i => Prog.replaceContents .src (lettered i))) =
      some "<li>a</li><br>z<li>b</li>".toList := by
  have hw : WellNested (.append .src (text "z") : Prog .elem .gen) := ⟨trivial, text_page _⟩
  have hb : ∀ i, WellNested (Prog.replaceContents .src (lettered i)) :=
    fun i => ⟨trivial, trivial, lettered_page i⟩
  have hbr : ∀ i, MakesNone (.tag lineBreak) (Prog.replaceContents .src (lettered i)) := by
    refine fun i => ⟨trivial, trivial, fun e he => ?_⟩
    cases List.mem_singleton.1 he
    rfl
  have hcs : MakesNone (.tag li) (.append .src (text "z") : Prog .elem .gen) := by
    refine ⟨trivial, fun e he => ?_⟩
    cases List.mem_singleton.1 he
    rfl
  have key := (C113_swap apartPage apartPage (.src : Prog .gen .gen) _ _ _ _ apartPage_page trivial hb
    (fun _ => hw) (tag_starts _) (tag_starts _) (tag_slash _) (tag_slash _)
    ((transform_eq (.src : Prog .gen .gen) trivial _ apartPage_page).trans rfl) apartPage_apart hbr fun _ => hcs).1
  refine ⟨hw, hbr, hcs, ?_, ?_⟩
  · rw [transform_eq _ (by exact ⟨⟨trivial, hb⟩, fun _ => hw⟩) _ apartPage_page]
    decide +kernel
  · rw [← key, transform_eq _ (by exact ⟨⟨trivial, hb⟩, fun _ => hw⟩) _ apartPage_page]
    decide +kernel

/-- C113 for removals: a line break in an item, and one outside. -/
example : shown (Template.transform apartPage ((Prog.select .src (.ok (.tag li))
      fun _ => .remove .src).select (.ok (.tag lineBreak)) fun _ => .remove .src)) = some [] ∧
    shown (Template.transform apartPage (Prog.select (.src : Prog .gen .gen)
      (.ok (anyOf (.tag (owned ['p'])) (.tag li))) fun _ => .remove .src)) =
      some "<br>".toList := by
  constructor
  · rw [(C113_removals apartPage (.src : Prog .gen .gen) _ _ apartPage_page trivial (tag_starts _)
      (tag_starts _)).1.1, transform_eq _ (by exact ⟨trivial, fun _ => trivial⟩) _ apartPage_page]
    decide +kernel
  · rw [transform_eq _ (by exact ⟨trivial, fun _ => trivial⟩) _ apartPage_page]
    decide +kernel

/-- C113 one by one: texts in place of items leave no item. -/
theorem replace_clears (i : Nat) : Clears (.tag li) (Prog.replace .src (lettered i)) := by
  intro e m hE hP _
  have hw : WellNested (Prog.replace .src (lettered i) : Prog .elem .gen) :=
    ⟨trivial, lettered_page i⟩
  refine ⟨[.data (.static (if i = 0 then "a" else "b").toList)], ?_, fun x hx => ?_⟩
  · rw [run_meaning _ hw hP hE]
    have : removed (treeOf (e :: m)) = .nil := by rw [removed, treeOf_events hP]
    have hm : meaning (Prog.replace .src (lettered i) : Prog .elem .gen) (treeOf (e :: m)) =
      (tree (results (lettered i))).append (removed (treeOf (e :: m))) := by
      simp only [Prog.replace, meaning]
    rw [hm, this]
    rfl
  · cases List.mem_singleton.1 hx
    rfl

example : shown (apartPage.transform (oneByOne (.tag li) (fun i => Prog.replace .src (lettered i)) 4)) =
      some "a<br>b".toList ∧
    shown (apartPage.transform (Prog.select .src (.ok (.tag li))
      fun i => Prog.replace .src (lettered i))) = some "a<br>b".toList := by
  have hn : ∀ i, WellNested (Prog.replace .src (lettered i) : Prog .elem .gen) :=
    fun i => ⟨trivial, lettered_page i⟩
  have key := (C113_one_by_one apartPage (.tag li) (fun i => Prog.replace .src (lettered i)) 4
    apartPage_page (tag_starts _) hn replace_clears).2 (by decide)
  rw [key]
  have : shown (apartPage.transform (Prog.select .src (.ok (.tag li))
      fun i => Prog.replace .src (lettered i))) = some "a<br>b".toList := by
    rw [transform_eq _ (by exact ⟨trivial, hn⟩) _ apartPage_page]
    decide +kernel
  exact ⟨this, this⟩

/-- C113, a limit: if matches meet, the order is seen, also if no builder makes a match. -/
theorem C113_meeting_seen : ∃ (t : Template) (s : Selector) (b c : Nat → Prog .elem .elem),
    Page t.events ∧ OnlyStarts s ∧ SlashBlind s ∧ (∀ i, MakesNone s (b i)) ∧
    (∀ i, MakesNone s (c i)) ∧
    shown (t.transform ((Prog.select .src (.ok s) b).select (.ok s) c)) =
      some "<li>ab</li>".toList ∧
    shown (t.transform ((Prog.select .src (.ok s) c).select (.ok s) b)) =
      some "<li>ba</li>".toList := by
  have hr : Template.fromStr "<li></li>".toList {} =
    .ok (.ok ⟨[.openingTag li [], .closingTag li]⟩) := rfl
  have hk : ∀ x, MakesNone (.tag li) (Prog.appendContents .src (text x)) := by
    refine fun x => ⟨trivial, trivial, fun e he => ?_⟩
    cases List.mem_singleton.1 he
    rfl
  have hw : ∀ x, WellNested (Prog.appendContents .src (text x)) :=
    fun x => ⟨trivial, trivial, text_page x⟩
  refine ⟨_, .tag li, fun _ => Prog.appendContents .src (text "a"),
    fun _ => Prog.appendContents .src (text "b"), parsed_page hr, tag_starts _, tag_slash _,
    fun _ => hk _, fun _ => hk _, ?_, ?_⟩
  all_goals
    rw [transform_eq _ (by exact ⟨⟨trivial, fun _ => hw _⟩, fun _ => hw _⟩) _ (parsed_page hr)]
    decide +kernel

/-- C113, a limit: if a builder makes a match of the other selector, the order is seen, also if the
matches do not meet. -/
theorem C113_making_seen : ∃ (t : Template) (s r : Selector) (b c : Nat → Prog .elem .gen),
    Page t.events ∧ OnlyStarts s ∧ OnlyStarts r ∧ SlashBlind s ∧ SlashBlind r ∧
    NeverMeet s r t.events ∧ (∀ i, MakesNone s (c i)) ∧
    shown (t.transform ((Prog.select .src (.ok s) b).select (.ok r) c)) =
      some "zzz".toList ∧
    shown (t.transform ((Prog.select .src (.ok r) c).select (.ok s) b)) =
      some "<br>z<br>".toList := by
  have hk : MakesNone (.tag li) (Prog.replace .src (text "z") : Prog .elem .gen) := by
    refine ⟨trivial, fun e he => ?_⟩
    cases List.mem_singleton.1 he
    rfl
  have hw : WellNested (Prog.replace .src (text "z") : Prog .elem .gen) := ⟨trivial, text_page _⟩
  have hv : WellNested (Prog.replace .src (.template ⟨[.voidTag lineBreak []]⟩) : Prog .elem .gen) :=
    ⟨trivial, .leaf trivial .done, by
      intro e t h
      simp [results] at h
      subst h
      simp [startName]
      rintro rfl
      exact apartPage_page.2.1 (.voidTag lineBreak []) (by simp [apartPage]) _ rfl⟩
  refine ⟨apartPage, .tag li, .tag lineBreak,
    fun _ => Prog.replace .src (.template ⟨[.voidTag lineBreak []]⟩),
    fun _ => Prog.replace .src (text "z"), apartPage_page, tag_starts _, tag_starts _, tag_slash _,
    tag_slash _, apartPage_apart, fun _ => hk, ?_, ?_⟩
  · rw [transform_eq _ (by exact ⟨⟨trivial, fun _ => hv⟩, fun _ => hw⟩) _ apartPage_page]
    decide +kernel
  · rw [transform_eq _ (by exact ⟨⟨trivial, fun _ => hw⟩, fun _ => hv⟩) _ apartPage_page]
    decide +kernel

/-- C113, a limit: if a builder leaves a match, the first match is selected again and again. -/
theorem C113_left_seen : ∃ (t : Template) (s : Selector) (b : Nat → Prog .elem .elem),
    Page t.events ∧ OnlyStarts s ∧
    shown (t.transform (oneByOne s b t.events.length)) =
      some "<li>abbb</li><br><li></li>".toList ∧
    shown (t.transform (Prog.select .src (.ok s) b)) =
      some "<li>a</li><br><li>b</li>".toList := by
  have hw : ∀ i, WellNested (Prog.appendContents .src (lettered i)) :=
    fun i => ⟨trivial, trivial, lettered_page i⟩
  refine ⟨apartPage, .tag li, fun i => Prog.appendContents .src (lettered i), apartPage_page,
    tag_starts _, ?_, ?_⟩
  · rw [transform_eq _ (one_nested hw _) _ apartPage_page]
    decide +kernel
  · rw [transform_eq _ (by exact ⟨trivial, hw⟩) _ apartPage_page]
    decide +kernel

end Fuser
