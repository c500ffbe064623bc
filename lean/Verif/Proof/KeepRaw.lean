import Verif.Proof.Keep
import Verif.Proof.Insert

/-!
# Lemmas on text put into pages with raw text elements
-/

namespace Fuser

open Spec

theorem guarded_plain {s : Str} (h : '<' ∉ s) : Guarded s := by
  rintro x y rfl
  simp at h

theorem guarded_append {s r : Str} (hs : Guarded s) (hr : Guarded r) : Guarded (s ++ r) := by
  intro x y h
  rcases List.append_eq_append_iff.1 h with ⟨z, rfl, h2⟩ | ⟨z, h1, h2⟩
  · exact hr z y h2
  · cases z with
    | nil =>
      rw [List.nil_append] at h2
      exact hr [] y h2.symm
    | cons c z =>
      rw [List.cons_append] at h2
      obtain ⟨rfl, rfl⟩ := List.cons.inj h2
      obtain ⟨w, c, u, rfl, hg⟩ := hs x z h1
      exact ⟨w, c, u ++ r, by simp, hg⟩

/-- There is no closing tag in guarded text. -/
theorem guarded_no_close {s : Str} (hs : Guarded s) {x p y : Str} {m : Identifier}
    (h : s = x ++ p ++ y) (hp : Piece (.closingTag m) p) : False := by
  cases hp with
  | @closing w1 w2 n w3 h1 h2 hn h3 _ =>
    obtain ⟨w, c, z, heq, hw, hc, hne⟩ := hs x (w1 ++ '/' :: w2 ++ n ++ w3 ++ ['>'] ++ y)
      (by rw [h]; simp)
    have key : ∀ (w w1 : Str) (r : Str), w1 ++ '/' :: r = w ++ c :: z → Blank w → Blank w1 → False := by
      intro w
      induction w with
      | nil =>
        intro w1 r h _ hb
        cases w1 with
        | nil => exact hne (List.cons.inj h).1.symm
        | cons a w1 =>
          obtain ⟨rfl, -⟩ := List.cons.inj h
          exact hc (hb _ (by simp))
      | cons b w ih =>
        intro w1 r h hb hb1
        cases w1 with
        | nil =>
          obtain ⟨rfl, -⟩ := List.cons.inj h
          exact absurd (hb '/' (by simp)) (by decide)
        | cons a w1 =>
          exact ih w1 r (List.cons.inj h).2 (fun c hc => hb c (by simp [hc]))
            (fun c hc => hb1 c (by simp [hc]))
    exact key w w1 (w2 ++ n ++ w3 ++ ['>'] ++ y) (by simpa using heq) hw h1
  | start _ _ _ _ _ _ _ hs => cases hs

/-- The name of the start tag, if any, does not begin with `!`. -/
def NoBang (e : Event) : Prop := ∀ n, startName e = some n → n.str.head? ≠ some '!'

theorem noBang_not_confusing {e : Event} (h : NoBang e) : ¬ Confusing e := by
  cases e with
  | openingTag n as => exact not_directive as (h n rfl)
  | selfClosedTag n as => exact not_directive as (h n rfl)
  | voidTag n as => exact not_directive as (h n rfl)
  | _ => exact id

/-- In a raw text element. -/
def InRaw (x : Option Identifier) : Prop := ∃ t, x = some t ∧ RawName t.str

/-- What may stand in an element. -/
def Placed (x : Option Identifier) : Event → Prop
  | .data c => '<' ∉ c.str
  | .rawData c => InRaw x ∧ Guarded c.str
  | e => ¬ InRaw x ∧ Spelled e ∧ NoBang e

theorem placed_open {x : Option Identifier} {t : Identifier} {as : Attributes}
    (h : Placed x (.selfClosedTag t as)) :
    Placed x (.openingTag t as) ∧ Placed x (.closingTag t) :=
  ⟨⟨h.1, h.2.1, by rintro _ ⟨⟩; exact h.2.2 t rfl⟩, h.1, h.2.1.1, by rintro _ ⟨⟩⟩

theorem placed_change {op : AttrOp} (h : PlainChange op) (x : Option Identifier) (t : Identifier)
    (as : Attributes) :
    (Placed x (.openingTag t as) → Placed x (.openingTag t (op.apply as))) ∧
    (Placed x (.selfClosedTag t as) → Placed x (.selfClosedTag t (op.apply as))) ∧
    (Placed x (.voidTag t as) → Placed x (.voidTag t (op.apply as))) := by
  refine ⟨fun hp => ?_, fun hp => ?_, fun hp => ?_⟩ <;>
  · refine ⟨hp.1, ⟨hp.2.1.1, hp.2.1.2.1, change_spelled h hp.2.1.2.2⟩, ?_⟩
    rintro _ ⟨⟩
    exact hp.2.2 t rfl

theorem ev_data {x : Option Identifier} {f : Forest} {es : List Event} (h : f.events = .ok es)
    (hd : ∀ e ∈ es, ∃ d, e = .data d ∧ '<' ∉ d.str) : Ev Placed x f := by
  induction f generalizing es x with
  | nil => trivial
  | fail e => cases h
  | leaf e r ih =>
    rw [events_leaf] at h
    cases hr : r.events with
    | error e => rw [hr] at h; cases h
    | ok es' =>
      rw [hr] at h
      cases h
      obtain ⟨d, rfl, hlt⟩ := hd e (by simp)
      exact ⟨hlt, ih hr fun e he => hd e (by simp [he])⟩
  | elem t as ch c r _ _ =>
    rw [events_elem] at h
    cases hc : ch.events with
    | error e => rw [hc] at h; cases h
    | ok cs =>
      rw [hc] at h
      cases hr : r.events with
      | error e => rw [hr] at h; cases h
      | ok rs =>
        rw [hr] at h
        cases h
        obtain ⟨d, hd, -⟩ := hd (.openingTag t as) (by simp)
        cases hd

theorem textCalls_each {a k : Kind} {p : Prog a k} (hp : WellNested p) (h : TextCalls p) :
    EachKeeps Placed p := by
  refine each_mono ?_ ?_ ?_ p hp h
  · intro c hc h hs x
    obtain ⟨es, he⟩ := sound_iff.1 hs
    refine ev_data he fun e hm => ?_
    rw [tree_events hc] at he
    exact h e (outcome_mem he hm)
  · intro op h x t as
    exact placed_change h x t as
  · intro g _ h
    exact h.elim

/-- Pages with everything in its place can be written. -/
theorem placed_normal {f : Forest} {x : Option Identifier} {es : List Event} (hw : f.WF)
    (h : Ev Placed x f) (he : f.events = .ok es) :
    (InRaw x → ∃ s, Texts es s ∧ Guarded s) ∧
    (¬ InRaw x → ∀ rs ms, Normal rs ms → ∃ ms', Normal (es ++ rs) ms') := by
  induction f generalizing x es with
  | nil =>
    cases he
    exact ⟨fun _ => ⟨[], .nil, guarded_plain (by simp)⟩, fun _ rs ms h => ⟨ms, h⟩⟩
  | fail e => cases he
  | leaf e r ih =>
    rw [events_leaf] at he
    cases hr : r.events with
    | error e => rw [hr] at he; cases he
    | ok es' =>
      rw [hr] at he
      cases he
      obtain ⟨ih1, ih2⟩ := ih hw.2.2.2 h.2 hr
      constructor
      · intro hx
        obtain ⟨s, h1, h2⟩ := ih1 hx
        have hp := h.1
        cases e with
        | data c => exact ⟨_, .data h1, guarded_append (guarded_plain hp) h2⟩
        | rawData c => exact ⟨_, .raw h1, guarded_append hp.2 h2⟩
        | _ => exact (hp.1 hx).elim
      · intro hx rs ms hn
        obtain ⟨ms', hn'⟩ := ih2 hx rs ms hn
        have hp := h.1
        have hl := hw.1
        cases e with
        | data c => exact ⟨_, .data hp hn'⟩
        | rawData c => exact (hx hp.1).elim
        | openingTag t as => exact hl.elim
        | _ => exact ⟨_, .plain hp.2.1 (noBang_not_confusing hp.2.2) (by simp) hn'⟩
  | elem t as ch c r ih1 ih2 =>
    rw [events_elem] at he
    cases hc : ch.events with
    | error e => rw [hc] at he; cases he
    | ok cs =>
      rw [hc] at he
      cases hr : r.events with
      | error e => rw [hr] at he; cases he
      | ok rs' =>
        rw [hr] at he
        cases he
        obtain ⟨hsame, -, hw1, hw2⟩ := hw
        obtain ⟨ho, hcl, h1, h2⟩ := h
        refine ⟨fun hx => (ho.1 hx).elim, fun hx rs ms hn => ?_⟩
        obtain ⟨ms', hn'⟩ := (ih2 hw2 h2 hr).2 hx rs ms hn
        have hnc : ¬ Confusing (.openingTag t as) := noBang_not_confusing ho.2.2
        by_cases ht : RawName t.str
        · obtain ⟨s, hs1, hs2⟩ := (ih1 hw1 h1 hc).1 ⟨t, rfl, ht⟩
          rw [show [Event.openingTag t as] ++ (cs ++ ([Event.closingTag c] ++ rs')) ++ rs =
            .openingTag t as :: (cs ++ .closingTag c :: (rs' ++ rs)) by simp]
          exact ⟨_, .raw ho.2.1 hnc ht hs1 (fun x p y m hx hp _ => guarded_no_close hs2 hx hp) hsame
            hcl.2.1 hn'⟩
        · have hnr : ¬ InRaw (some t) := by
            rintro ⟨_, ⟨⟩, h⟩
            exact ht h
          obtain ⟨ms'', hn''⟩ := (ih1 hw1 h1 hc).2 hnr (.closingTag c :: (rs' ++ rs)) _
            (.plain hcl.2.1 id (by simp) hn')
          rw [show [Event.openingTag t as] ++ (cs ++ ([Event.closingTag c] ++ rs')) ++ rs =
            .openingTag t as :: (cs ++ .closingTag c :: (rs' ++ rs)) by simp]
          exact ⟨_, .plain ho.2.1 hnc (by rintro _ _ ⟨⟩; exact ht) hn''⟩

theorem canonical_closing {n : Identifier} {a b l : List Event} (h : Canonical l)
    (hl : l = a ++ .closingTag n :: b) : Name n.str := by
  induction h generalizing a with
  | nil => simp at hl
  | plain hw _ _ _ ih =>
    cases a with
    | nil =>
      obtain ⟨rfl, -⟩ := List.cons.inj hl
      exact hw
    | cons x a => exact ih (List.cons.inj hl).2
  | raw _ _ _ _ _ ih =>
    cases a with
    | nil => cases (List.cons.inj hl).1
    | cons x a =>
      have hl := (List.cons.inj hl).2
      cases a with
      | nil => cases (List.cons.inj hl).1
      | cons y a => exact ih (List.cons.inj hl).2

/-- Parsed templates have everything in its place. -/
theorem canonical_placed {f : Forest} {x : Option Identifier} {es rest : List Event} (hw : f.WF)
    (he : f.events = .ok es) (hc : Canonical (es ++ rest)) (hx : ¬ InRaw x)
    (hb : ∀ e ∈ es, NoBang e) (hg : ∀ c, .rawData c ∈ es → Guarded c.str) : Ev Placed x f := by
  have wr : ∀ {e l}, Canonical (e :: l) → (∀ c, e ≠ .data c) → Spelled e := by
    intro e l h hd
    cases h with
    | plain h =>
      rcases writable_spelled h with ⟨c, rfl⟩ | ⟨h, -⟩
      · exact absurd rfl (hd c)
      · exact h
    | raw h =>
      rcases writable_spelled h with ⟨c, h⟩ | ⟨h, -⟩
      · cases h
      · exact h
  induction f generalizing x es rest with
  | nil => trivial
  | fail e => cases he
  | leaf e r ih =>
    rw [events_leaf] at he
    cases hr : r.events with
    | error e => rw [hr] at he; cases he
    | ok es' =>
      rw [hr] at he
      cases he
      have hl := hw.1
      have hne : ∀ t as, e ≠ .openingTag t as := by
        rintro t as rfl
        exact hl.elim
      have hc : Canonical (e :: (es' ++ rest)) := hc
      refine ⟨?_, ih hw.2.2.2 hr (canonical_rest (a := []) hc rfl hne) hx
        (fun e he => hb e (by simp [he])) fun c h => hg c (by simp [h])⟩
      have hbe := hb e (by simp)
      cases e with
      | data c =>
        cases hc with
        | plain h => exact h.2
      | rawData c => exact (wr hc (by simp)).elim
      | openingTag t as => exact (hne t as rfl).elim
      | _ => exact ⟨hx, wr hc (by simp), hbe⟩
  | elem t as ch c r ih1 ih2 =>
    rw [events_elem] at he
    cases hch : ch.events with
    | error e => rw [hch] at he; cases he
    | ok cs =>
      rw [hch] at he
      cases hr : r.events with
      | error e => rw [hr] at he; cases he
      | ok rs' =>
        rw [hr] at he
        cases he
        obtain ⟨hsame, -, hw1, hw2⟩ := hw
        have hc : Canonical (.openingTag t as :: (cs ++ .closingTag c :: (rs' ++ rest))) := by
          simpa using hc
        have hrest : Canonical (rs' ++ rest) :=
          canonical_rest (a := .openingTag t as :: cs) hc rfl (by simp)
        have ho : Spelled (.openingTag t as) := wr hc (by simp)
        have hbo : NoBang (.openingTag t as) := hb _ (by simp)
        have hcn : Name c.str := canonical_closing (a := .openingTag t as :: cs) hc rfl
        have key : Ev Placed (some t) ch := by
          generalize hl : cs ++ .closingTag c :: (rs' ++ rest) = l at hc
          cases hc with
          | plain _ hr hd hc =>
            subst hl
            have hnr : ¬ InRaw (some t) := by
              rintro ⟨_, ⟨⟩, h⟩
              exact hr t as rfl h
            exact ih1 hw1 hch hc hnr (fun e he => hb e (by simp [he])) fun c h => hg c (by simp [h])
          | @raw _ _ d n es' _ ht hn _ hc =>
            cases ch with
            | nil =>
              cases hch
              cases hl
            | fail e => trivial
            | leaf e u =>
              rw [events_leaf] at hch
              cases hu : u.events with
              | error e => rw [hu] at hch; cases hch
              | ok us =>
                rw [hu] at hch
                cases hch
                obtain ⟨rfl, hl'⟩ := List.cons.inj hl
                refine ⟨⟨⟨t, rfl, ht⟩, hg d (by simp)⟩, ?_⟩
                cases u with
                | nil => trivial
                | fail e => cases hu
                | leaf e v =>
                  rw [events_leaf] at hu
                  cases hv : v.events with
                  | error e => rw [hv] at hu; cases hu
                  | ok vs =>
                    rw [hv] at hu
                    cases hu
                    obtain ⟨rfl, -⟩ := List.cons.inj hl'
                    exact hw1.2.2.2.1.elim
                | elem t' as' ch' c' v =>
                  rw [events_elem] at hu
                  cases hv : ch'.events with
                  | error e => rw [hv] at hu; cases hu
                  | ok vs =>
                    rw [hv] at hu
                    cases hv' : v.events with
                    | error e => rw [hv'] at hu; cases hu
                    | ok vs' =>
                      rw [hv'] at hu
                      cases hu
                      cases (List.cons.inj hl').1
            | elem t' as' ch' c' v =>
              rw [events_elem] at hch
              cases hv : ch'.events with
              | error e => rw [hv] at hch; cases hch
              | ok vs =>
                rw [hv] at hch
                cases hv' : v.events with
                | error e => rw [hv'] at hch; cases hch
                | ok vs' =>
                  rw [hv'] at hch
                  cases hch
                  cases (List.cons.inj hl).1
        exact ⟨⟨hx, ho, hbo⟩, ⟨hx, hcn, by rintro _ ⟨⟩⟩, key, ih2 hw2 hr hrest hx
          (fun e he => hb e (by simp [he])) fun c h => hg c (by simp [h])⟩

end Fuser
