import Verif.Spec.ElementCalls
import Verif.Proof.Form

/-!
# Chains of calls on one element
-/

namespace Fuser

open Spec

namespace Chained

open Chain

/-- What the calls make of an element. -/
def effect : Chain → Forest → Forest
  | [], f => f
  | c :: cs, f => effect cs (meaning (c.on (.src : Prog .elem .elem)) f)

theorem meaning_on (c : ElementCall) (p : Prog .elem .elem) (f : Forest) :
    meaning (c.on p) f = meaning (c.on (.src : Prog .elem .elem)) (meaning p f) := by
  cases c <;> rfl

theorem meaning_calls (cs : Chain) (f : Forest) : meaning (calls cs) f = effect cs f := by
  have : ∀ p : Prog .elem .elem, meaning (cs.foldl ElementCall.on p) f = effect cs (meaning p f) := by
    induction cs with
    | nil => exact fun p => rfl
    | cons c cs ih =>
      intro p
      rw [List.foldl_cons, ih, meaning_on]
      rfl
  exact this .src

theorem content_page {es : List Event} (h : Page es) : PageContent (.template ⟨es⟩) := by
  have := page_nested h
  exact ⟨this.1, this.2⟩

theorem nested_calls {cs : Chain} (h : ∀ c ∈ cs, c.Proper) : WellNested (calls cs) := by
  have : ∀ p : Prog .elem .elem, WellNested p → WellNested (cs.foldl ElementCall.on p) := by
    induction cs with
    | nil => exact fun p hp => hp
    | cons c cs ih =>
      intro p hp
      refine ih (fun d hd => h d (List.mem_cons_of_mem _ hd)) _ ?_
      have hc := h c List.mem_cons_self
      cases c with
      | before es => exact ⟨hp, trivial, content_page hc⟩
      | behind es => exact ⟨hp, trivial, content_page hc⟩
      | instead es => exact ⟨hp, trivial, content_page hc⟩
      | clear => exact ⟨hp, trivial⟩
      | _ => exact hp
  exact this .src trivial

/-! ## Attributes -/

theorem attributes_nil (as : Attributes) : attributes [] as = as := by
  simp [attributes, Touches, names, left]

theorem other_name {n : Identifier} (h : ValidIdent n.str) (a : Attribute) :
    a.name.eq n = true ↔ SameName a.name.str n.str :=
  identifierEq_right h.2.1

theorem attributes_remove {n : Identifier} (h : ValidIdent n.str) (cs : Chain) (as : Attributes) :
    attributes (.remove n :: cs) as = attributes cs (Attributes.removeAttribute as n) := by
  have ht : ∀ m, Touches (.remove n :: cs) m ↔ SameName m.str n.str ∨ Touches cs m := by
    intro m
    simp [Touches, names]
  simp only [attributes, left, Attributes.removeAttribute, List.filter_filter]
  congr 1
  refine List.filter_congr fun a _ => ?_
  have := other_name h a
  by_cases h1 : SameName a.name.str n.str <;> by_cases h2 : Touches cs a.name <;> simp_all

theorem filter_touches {cs ds : Chain} (h : ∀ n, Touches cs n ↔ Touches ds n) (as : Attributes) :
    attributes cs as = attributes ds as ↔ left cs = left ds := by
  classical
  have : as.filter (fun a => decide (¬ Touches cs a.name)) =
      as.filter (fun a => decide (¬ Touches ds a.name)) :=
    List.filter_congr fun a _ => decide_eq_decide.2 (not_congr (h a.name))
  have h1 : attributes cs as = as.filter (fun a => decide (¬ Touches cs a.name)) ++ left cs := by
    simp [attributes]
  have h2 : attributes ds as = as.filter (fun a => decide (¬ Touches ds a.name)) ++ left ds := by
    simp [attributes]
  rw [h1, h2, this, List.append_cancel_left_eq]

theorem attributes_add (n : Identifier) (v : Option Value) (cs : Chain) (as : Attributes) :
    attributes (.add n v :: cs) as = attributes cs (Attributes.addAttribute as n v) := by
  have ht : ∀ m, Touches (.add n v :: cs) m ↔ Touches cs m := fun m => Iff.rfl
  classical
  have hf : as.filter (fun a => !decide (Touches (.add n v :: cs) a.name)) =
      as.filter (fun a => !decide (Touches cs a.name)) :=
    List.filter_congr fun a _ => congrArg not (decide_eq_decide.2 (ht a.name))
  simp only [attributes, left, Attributes.addAttribute, List.filter_append]
  by_cases h : Touches cs n <;> simp [h, hf]

theorem attributes_set {n : Identifier} (h : ValidIdent n.str) (v : Option Value) (cs : Chain)
    (as : Attributes) :
    attributes (.set n v :: cs) as = attributes cs (Attributes.setAttribute as n v) := by
  have : Attributes.setAttribute as n v =
      Attributes.addAttribute (Attributes.removeAttribute as n) n v := rfl
  rw [this, ← attributes_add, ← attributes_remove h]
  rfl

/-! ## What comes of an element -/

theorem contents_before (es : List Event) (cs : Chain) (inner : List Event) :
    contents (.before es :: cs) inner = contents cs (es ++ inner) := by
  cases h : keeps cs <;> simp [contents, front, keeps, back, h]

theorem contents_behind (es : List Event) (cs : Chain) (inner : List Event) :
    contents (.behind es :: cs) inner = contents cs (inner ++ es) := by
  cases h : keeps cs <;> simp [contents, front, keeps, back, h]

theorem contents_instead (es : List Event) (cs : Chain) (inner : List Event) :
    contents (.instead es :: cs) inner = contents cs es := by
  cases h : keeps cs <;> simp [contents, front, keeps, back, h]

theorem contents_clear (cs : Chain) (inner : List Event) :
    contents (.clear :: cs) inner = contents cs [] := by
  cases h : keeps cs <;> simp [contents, front, keeps, back, h]

theorem effect_elem {cs : Chain} : (∀ c ∈ cs, c.Proper) → ∀ (t : Identifier) (as : Attributes)
    (g : Forest) (inner : List Event) (c : Identifier), g.events = .ok inner →
    (effect cs (.elem t as g c .nil)).events =
      .ok (.openingTag t (attributes cs as) :: (contents cs inner ++ [.closingTag c])) := by
  induction cs with
  | nil =>
    intro _ t as g inner c hg
    rw [effect, events_elem, hg, attributes_nil]
    simp [joinResult, contents, front, keeps, back, Forest.events]
  | cons d cs ih =>
    intro h t as g inner c hg
    have ih := ih fun d hd => h d (List.mem_cons_of_mem _ hd)
    have hd := h d List.mem_cons_self
    cases d with
    | set n v =>
      rw [attributes_set hd]
      exact ih t _ g inner c hg
    | remove n =>
      rw [attributes_remove hd]
      exact ih t _ g inner c hg
    | add n v =>
      rw [attributes_add]
      exact ih t _ g inner c hg
    | before es =>
      refine (ih t as ((treeOf es).append g) (es ++ inner) c ?_).trans ?_
      · rw [events_append, treeOf_events hd, hg]
        rfl
      · rw [contents_before]
        rfl
    | behind es =>
      refine (ih t as (g.append (treeOf es)) (inner ++ es) c ?_).trans ?_
      · rw [events_append, treeOf_events hd, hg]
        rfl
      · rw [contents_behind]
        rfl
    | instead es =>
      refine (ih t as ((treeOf es).append (removed g)) es c ?_).trans ?_
      · rw [events_append, treeOf_events hd, removed, hg]
        simp [joinResult, Forest.events]
      · rw [contents_instead]
        rfl
    | clear =>
      refine (ih t as (removed g) [] c ?_).trans ?_
      · rw [removed, hg]
        rfl
      · rw [contents_clear]
        rfl

theorem effect_selfClosed {cs : Chain} : (∀ c ∈ cs, c.Proper) → ∀ (t : Identifier) (as : Attributes),
    (effect cs (.leaf (.selfClosedTag t as) .nil)).events =
      .ok (if opens cs then
        .openingTag t (attributes cs as) :: (contents cs [] ++ [.closingTag t])
      else [.selfClosedTag t (attributes cs as)]) := by
  induction cs with
  | nil =>
    intro _ t as
    rw [attributes_nil]
    rfl
  | cons d cs ih =>
    intro h t as
    have ih := ih fun d hd => h d (List.mem_cons_of_mem _ hd)
    have hd := h d List.mem_cons_self
    cases d with
    | set n v =>
      rw [attributes_set hd]
      exact ih t _
    | remove n =>
      rw [attributes_remove hd]
      exact ih t _
    | add n v =>
      rw [attributes_add]
      exact ih t _
    | _ => exact effect_elem (cs := _ :: cs) h t as .nil [] t rfl

theorem effect_void {cs : Chain} : (∀ c ∈ cs, c.Proper) → ∀ (t : Identifier) (as : Attributes),
    (effect cs (.leaf (.voidTag t as) .nil)).events = .ok [.voidTag t (attributes cs as)] := by
  induction cs with
  | nil =>
    intro _ t as
    rw [attributes_nil]
    rfl
  | cons d cs ih =>
    intro h t as
    have ih := ih fun d hd => h d (List.mem_cons_of_mem _ hd)
    have hd := h d List.mem_cons_self
    cases d with
    | set n v =>
      rw [attributes_set hd]
      exact ih t _
    | remove n =>
      rw [attributes_remove hd]
      exact ih t _
    | add n v =>
      rw [attributes_add]
      exact ih t _
    | _ =>
      exact ih t as

/-! ## The same chains -/

theorem same_attributes {cs ds : Chain} (h : Same cs ds) (as : Attributes) :
    attributes cs as = attributes ds as := by
  exact (filter_touches h.touched as).2 h.left

theorem same_contents {cs ds : Chain} (h : Same cs ds) (inner : List Event) :
    contents cs inner = contents ds inner := by
  cases hk : keeps cs with
  | true => simp [contents, ← h.keeps, hk, h.parts hk]
  | false =>
    have := h.whole
    simp [contents, ← h.keeps, hk, this]

theorem not_opens {cs : Chain} (h : opens cs = false) : front cs = [] ∧ back cs = [] ∧ keeps cs = true := by
  induction cs with
  | nil => exact ⟨rfl, rfl, rfl⟩
  | cons d cs ih => cases d <;> first | exact ih h | cases h

/-- A text. -/
def tally (n : Nat) : Event := .data (.static (List.replicate n 'x'))

theorem fresh (es : List Event) : ∃ N, ∀ n ≥ N, tally n ∉ es := by
  induction es with
  | nil => exact ⟨0, by simp⟩
  | cons e es ih =>
    obtain ⟨N, hN⟩ := ih
    by_cases h : ∃ k, e = tally k
    · obtain ⟨k, rfl⟩ := h
      refine ⟨max N (k + 1), fun n hn hm => ?_⟩
      rcases List.mem_cons.1 hm with h | h
      · have : n = k := by simpa [tally] using h
        omega
      · exact hN n (by omega) h
    · refine ⟨N, fun n hn hm => ?_⟩
      rcases List.mem_cons.1 hm with h' | h'
      · exact h ⟨n, h'.symm⟩
      · exact hN n hn h'

theorem same_of {cs ds : Chain} (ha : ∀ as, attributes cs as = attributes ds as)
    (ho : opens cs = opens ds)
    (hc : ∀ n, contents cs [tally n] = contents ds [tally n]) (hw : contents cs [] = contents ds []) :
    Same cs ds := by
  classical
  have hl : left cs = left ds := by simpa [attributes] using ha []
  obtain ⟨N, hN⟩ := fresh (front cs ++ back cs ++ (front ds ++ back ds))
  have hn := hN N (Nat.le_refl N)
  simp only [List.mem_append, not_or] at hn
  have hcN := hc N
  have hk : keeps cs = keeps ds := by
    have := congrArg (tally N ∈ ·) hcN
    simp only [contents, List.mem_append] at this
    cases h1 : keeps cs <;> cases h2 : keeps ds <;> simp_all
  refine ⟨fun n => ?_, hl, ho, hk, fun hkc => ?_, ?_⟩
  · have := ha [⟨n, none⟩]
    simp only [attributes, hl, List.append_cancel_right_eq] at this
    by_cases h1 : Touches cs n <;> by_cases h2 : Touches ds n <;> simp_all
  · simp only [contents, ← hk, hkc, if_true, List.append_assoc, List.singleton_append] at hcN
    exact (List.append_cons_inj_of_notMem hn.1.1 hn.1.2).1 hcN |>.imp_right And.right
  · cases h1 : keeps cs <;> simpa [contents, h1, ← hk] using hw

/-! ## The normal form -/

theorem page_both {es fs : List Event} (h : Page es) (h' : Page fs) : Page (es ++ fs) :=
  ⟨balanced_append h.1 h'.1, fun e he => (List.mem_append.1 he).elim (h.2.1 e) (h'.2.1 e),
    fun he => (List.mem_append.1 he).elim h.2.2 h'.2.2⟩

theorem page_nil : Page [] := ⟨⟨0, .nil⟩, by simp [AsciiNames], by simp⟩

theorem ends_page {cs : Chain} (h : ∀ c ∈ cs, c.Proper) : Page (front cs) ∧ Page (back cs) := by
  induction cs with
  | nil => exact ⟨page_nil, page_nil⟩
  | cons d cs ih =>
    have ih := ih fun d hd => h d (List.mem_cons_of_mem _ hd)
    have hd := h d List.mem_cons_self
    have hi : ∀ es, Page es → Page (if keeps cs then es else []) := by
      intro es h
      split
      · exact h
      · exact page_nil
    cases d with
    | before es => exact ⟨page_both ih.1 (hi _ hd), ih.2⟩
    | behind es => exact ⟨ih.1, page_both (hi _ hd) ih.2⟩
    | instead es => exact ⟨page_both ih.1 (hi _ hd), ih.2⟩
    | _ => exact ih

theorem names_valid {cs : Chain} (h : ∀ c ∈ cs, c.Proper) : ∀ n ∈ names cs, ValidIdent n.str := by
  induction cs with
  | nil => simp [names]
  | cons d cs ih =>
    have ih := ih fun d hd => h d (List.mem_cons_of_mem _ hd)
    have hd := h d List.mem_cons_self
    cases d <;> simp only [names, List.mem_cons, forall_eq_or_imp] <;>
      first | exact ih | exact ⟨hd, ih⟩

theorem left_valid {cs : Chain} (h : ∀ c ∈ cs, c.Proper) : ∀ a ∈ left cs, ValidIdent a.name.str := by
  induction cs with
  | nil => simp [left]
  | cons d cs ih =>
    have ih := ih fun d hd => h d (List.mem_cons_of_mem _ hd)
    have hd := h d List.mem_cons_self
    cases d <;> simp only [left] <;> first | exact ih | skip
    all_goals
      split
      · exact ih
      · simp only [List.mem_cons, forall_eq_or_imp]
        exact ⟨hd, ih⟩

theorem normal_proper {cs : Chain} (h : ∀ c ∈ cs, c.Proper) : ∀ c ∈ normal cs, c.Proper := by
  intro c hc
  simp only [normal, List.mem_append, List.mem_map] at hc
  rcases hc with (⟨n, hn, rfl⟩ | ⟨a, ha, rfl⟩) | hc
  · exact names_valid h n hn
  · exact left_valid h a ha
  · obtain ⟨h1, h2⟩ := ends_page h
    split at hc
    · split at hc
      · simp only [List.mem_cons, List.not_mem_nil, or_false] at hc
        rcases hc with rfl | rfl
        · exact h1
        · exact h2
      · simp only [List.mem_cons, List.not_mem_nil, or_false] at hc
        subst hc
        exact page_both h1 h2
    · simp at hc

theorem names_removes (ns : List Identifier) (cs : Chain) :
    names (ns.map .remove ++ cs) = ns ++ names cs ∧ left (ns.map .remove ++ cs) = left cs ∧
      opens (ns.map .remove ++ cs) = opens cs ∧ keeps (ns.map .remove ++ cs) = keeps cs ∧
      front (ns.map .remove ++ cs) = front cs ∧ back (ns.map .remove ++ cs) = back cs := by
  induction ns with
  | nil => simp
  | cons n ns ih =>
    obtain ⟨h1, h2, h3, h4, h5, h6⟩ := ih
    simp only [List.map_cons, List.cons_append]
    exact ⟨by rw [names, h1], h2, h3, h4, h5, h6⟩

theorem names_adds (as : Attributes) (cs : Chain) (hn : names cs = []) (hl : left cs = []) :
    let ds := as.map (fun a => ElementCall.add a.name a.value) ++ cs
    names ds = [] ∧ left ds = as ∧ opens ds = opens cs ∧ keeps ds = keeps cs ∧
      front ds = front cs ∧ back ds = back cs := by
  induction as with
  | nil => simp [hn, hl]
  | cons a as ih =>
    obtain ⟨h1, h2, h3, h4, h5, h6⟩ := ih
    simp only [List.map_cons, List.cons_append]
    refine ⟨h1, ?_, h3, h4, h5, h6⟩
    rw [left, if_neg (by simp [Touches, h1]), h2]

theorem normal_same (cs : Chain) : Same cs (normal cs) := by
  have : ∃ es, normal cs = (names cs).map .remove ++ ((left cs).map
      (fun a => ElementCall.add a.name a.value) ++ es) ∧ names es = [] ∧ left es = [] ∧
      opens es = opens cs ∧ keeps es = keeps cs ∧ (keeps cs = true → front es = front cs ∧ back es = back cs) ∧
      front es ++ back es = front cs ++ back cs := by
    refine ⟨_, by rw [normal, List.append_assoc], ?_⟩
    cases ho : opens cs with
    | false =>
      obtain ⟨h1, h2, h3⟩ := not_opens ho
      simp [names, left, opens, keeps, h1, h2, h3, front, back]
    | true =>
      cases hk : keeps cs <;> simp [names, left, opens, keeps, front, back]
  obtain ⟨es, he, h1, h2, h3, h4, h5, h6⟩ := this
  obtain ⟨a1, a2, a3, a4, a5, a6⟩ := names_adds (left cs) es h1 h2
  obtain ⟨b1, b2, b3, b4, b5, b6⟩ := names_removes (names cs) ((left cs).map
      (fun a => ElementCall.add a.name a.value) ++ es)
  rw [← he] at b1 b2 b3 b4 b5 b6
  refine ⟨fun n => ?_, ?_, ?_, ?_, fun hk => ?_, ?_⟩
  · rw [Touches, Touches, b1, a1, List.append_nil]
  · rw [b2, a2]
  · rw [b3, a3, h3]
  · rw [b4, a4, h4]
  · rw [b5, a5, b6, a6, (h5 hk).1, (h5 hk).2]
    exact ⟨rfl, rfl⟩
  · rw [b5, a5, b6, a6, h6]

end Chained

end Fuser
