import Verif.Proof.Calls
import Verif.Proof.Canonical

/-!
# Lemmas on canonical event lists with inserted text
-/

namespace Fuser

open Spec

/-- What follows an event that is not an opening tag is canonical. -/
theorem canonical_rest {e : Event} {a b l : List Event} (h : Canonical l) (hl : l = a ++ e :: b)
    (he : ∀ t as, e ≠ .openingTag t as) : Canonical b := by
  induction h generalizing a with
  | nil => simp at hl
  | plain _ _ _ hc ih =>
    cases a with
    | nil =>
      obtain ⟨-, rfl⟩ := List.cons.inj hl
      exact hc
    | cons x a =>
      obtain ⟨-, h⟩ := List.cons.inj hl
      exact ih h
  | raw _ _ _ _ hc ih =>
    cases a with
    | nil =>
      obtain ⟨h, -⟩ := List.cons.inj hl
      exact absurd h.symm (he _ _)
    | cons x a =>
      obtain ⟨-, hl⟩ := List.cons.inj hl
      cases a with
      | nil =>
        obtain ⟨-, rfl⟩ := List.cons.inj hl
        exact hc
      | cons y a =>
        obtain ⟨-, hl⟩ := List.cons.inj hl
        exact ih hl

/-- Every start tag of a canonical list is writable. -/
theorem canonical_writable {l : List Event} (h : Canonical l) {e : Event} (he : e ∈ l) :
    Writable e ∨ ∃ c, e = .rawData c := by
  induction h with
  | nil => simp at he
  | plain hw _ _ _ ih =>
    rcases List.mem_cons.1 he with rfl | h
    · exact .inl hw
    · exact ih h
  | raw hw _ _ _ _ ih =>
    rcases List.mem_cons.1 he with rfl | h
    · exact .inl hw
    · rcases List.mem_cons.1 h with rfl | h
      · exact .inr ⟨_, rfl⟩
      · exact ih h

/-- The last event of an element. -/
theorem element_last {m : List Event} (h : Element m) :
    ∃ u e, m = u ++ [e] ∧ (∀ t as, e ≠ .openingTag t as) ∧
      ((∃ t as, u = [] ∧ (e = .selfClosedTag t as ∨ e = .voidTag t as)) ∨
        ∃ c, e = .closingTag c) := by
  cases h with
  | selfClosed t as => exact ⟨[], _, rfl, by simp, .inl ⟨t, as, rfl, .inl rfl⟩⟩
  | void t as => exact ⟨[], _, rfl, by simp, .inl ⟨t, as, rfl, .inr rfl⟩⟩
  | @pair t as inner c _ _ => exact ⟨.openingTag t as :: inner, _, rfl, by simp, .inr ⟨c, rfl⟩⟩

/-- Raw text as data. -/
def rawAsData : Event → Event
  | .rawData c => .data c
  | e => e

/-- `Reread` changes data to raw text only. -/
theorem reread_map {m l : List Event} (h : Reread m l) : m.map rawAsData = l.map rawAsData := by
  induction h with
  | nil => rfl
  | raw _ _ ih => simp [rawAsData, ih]
  | keep _ _ ih => simp [ih]

theorem reread_render {m l : List Event} (h : Reread m l) :
    m.flatMap Event.render = l.flatMap Event.render := by
  induction h with
  | nil => rfl
  | @raw t as d es es' _ _ ih =>
    show Event.render (.openingTag t as) ++ (Event.render (.data d) ++ es.flatMap Event.render) =
      Event.render (.openingTag t as) ++ (Event.render (.rawData d) ++ es'.flatMap Event.render)
    rw [ih]
    rfl
  | keep _ _ ih => rw [List.flatMap_cons, List.flatMap_cons, ih]

theorem reread_confusing {m l : List Event} (h : Reread m l) :
    (∀ e ∈ l, ¬ Confusing e) ↔ ∀ e ∈ m, ¬ Confusing e := by
  induction h with
  | nil => rfl
  | raw _ _ ih =>
    simp only [List.forall_mem_cons, ih]
    exact and_congr_right fun _ => and_congr_left fun _ => Iff.rfl
  | keep _ _ ih => simp only [List.forall_mem_cons, ih]

theorem own_confusing {e : Event} : Confusing (ownEvent e) ↔ Confusing e := by
  have key : ∀ t as, LooksLikeDirective (ownName t) (ownAttributes as) ↔
      LooksLikeDirective t as := by
    intro t as
    have hh : (∃ a, (ownAttributes as).head? = some a ∧ SameName a.name.str "doctype".toList) ↔
        ∃ a, as.head? = some a ∧ SameName a.name.str "doctype".toList := by
      cases as with
      | nil => simp [ownAttributes]
      | cons a as => simp [ownAttributes, ownName, ownText, Identifier.str, Deferred.str]
    exact or_congr Iff.rfl (or_congr Iff.rfl (and_congr Iff.rfl hh))
  cases e <;> first | exact key _ _ | exact Iff.rfl

theorem own_renderLoop (as : Attributes) (b : Bool) :
    Attributes.renderLoop b (ownAttributes as) = Attributes.renderLoop b as := by
  induction as generalizing b with
  | nil => rfl
  | cons a as ih =>
    obtain ⟨n, v⟩ := a
    have hn : (ownName n).render = n.render := by rw [ident_render, ident_render]; rfl
    have hv : ∀ v : Deferred, (ownText v).render = v.render := fun v => by
      rw [render_str, render_str]; rfl
    have h : Attribute.render ⟨ownName n, v.map ownText⟩ = Attribute.render ⟨n, v⟩ := by
      cases v with
      | none => simp only [Attribute.render, hn, Option.map_none]
      | some v => simp only [Attribute.render, hn, hv, Option.map_some]
    show _ ++ Attribute.render ⟨ownName n, v.map ownText⟩ ++
      Attributes.renderLoop false (ownAttributes as) = _ ++ Attribute.render ⟨n, v⟩ ++ _
    rw [h, ih]

theorem own_render (e : Event) : (ownEvent e).render = e.render := by
  have hd : ∀ d : Deferred, (ownText d).render = d.render := fun d => by
    rw [render_str, render_str]; rfl
  have ht : ∀ t as, tagDisplay (ownName t) (ownAttributes as) = tagDisplay t as := by
    intro t as
    have h1 : (ownName t).render = t.render := by rw [ident_render, ident_render]; rfl
    have h2 : (ownAttributes as).isEmpty = as.isEmpty := by cases as <;> rfl
    rw [tagDisplay, tagDisplay, h1, h2, Attributes.render, Attributes.render, own_renderLoop]
  have hi : ∀ t, (ownName t).render = t.render := fun t => by
    rw [ident_render, ident_render]; rfl
  cases e with
  | noop => rfl
  | data d => exact hd d
  | rawData d => exact hd d
  | doctype d => exact congrArg (fun x => "<!doctype ".toList ++ x ++ ">".toList) (hd d)
  | comment d => exact congrArg (fun x => "<!--".toList ++ x ++ "-->".toList) (hd d)
  | openingTag t as => exact congrArg (fun x => "<".toList ++ x ++ ">".toList) (ht t as)
  | selfClosedTag t as => exact congrArg (fun x => "<".toList ++ x ++ " />".toList) (ht t as)
  | voidTag t as => exact congrArg (fun x => "<".toList ++ x ++ ">".toList) (ht t as)
  | closingTag t => exact congrArg (fun x => "</".toList ++ x ++ ">".toList) (hi t)

theorem leaf_rawAsData {e : Event} : Leaf (rawAsData e) ↔ Leaf e := by
  cases e <;> rfl

/-- Nesting does not depend on the kind of text. -/
theorem nests_rawAsData {n : Nat} {l : List Event} :
    Nests n (l.map rawAsData) ↔ Nests n l := by
  constructor
  · generalize hk : l.map rawAsData = k
    intro h
    induction h generalizing l with
    | nil =>
      rw [List.map_eq_nil_iff.1 hk]
      exact .nil
    | leaf hl _ ih =>
      obtain ⟨e, es, rfl, rfl, rfl⟩ := List.map_eq_cons_iff.1 hk
      exact .leaf (leaf_rawAsData.1 hl) (ih rfl)
    | @element n t as c inner es hs _ _ ih1 ih2 =>
      obtain ⟨e, es', rfl, he, h⟩ := List.map_eq_cons_iff.1 hk
      obtain ⟨i, j, rfl, hi, h⟩ := List.map_eq_append_iff.1 h
      obtain ⟨z, w, rfl, hz, hw⟩ := List.map_eq_cons_iff.1 h
      have he' : e = .openingTag t as := by cases e <;> first | exact he | cases he
      have hz' : z = .closingTag c := by cases z <;> first | exact hz | cases hz
      subst he' hz'
      exact .element hs (ih1 hi) (ih2 hw)
  · intro h
    induction h with
    | nil => exact .nil
    | leaf hl _ ih => exact .leaf (leaf_rawAsData.2 hl) ih
    | element hs _ _ ih1 ih2 =>
      simp only [List.map_cons, List.map_append]
      exact .element hs ih1 ih2

theorem reread_nests {n : Nat} {m l : List Event} (h : Reread m l) : Nests n l ↔ Nests n m := by
  rw [← nests_rawAsData, ← reread_map h, nests_rawAsData]

/-- Replacing the contents of the matching elements with a text gives a list that is read again as
a canonical list. -/
theorem canonical_replaced {s : Selector} (hs : OnlyStarts s) {d : Deferred} (hd : d.str ≠ [])
    (hlt : '<' ∉ d.str) {b : Nat → List Event → Option Outcome}
    (hb : ∀ i t as,
      (∀ inner c, SameName c.str t.str → Balanced inner →
        .noop ∉ inner → AsciiNames (.openingTag t as :: (inner ++ [.closingTag c])) →
        b i (.openingTag t as :: (inner ++ [.closingTag c])) =
          some (.ok [.openingTag t as, .data d, .closingTag c])) ∧
      (AsciiNames [.selfClosedTag t as] → b i [.selfClosedTag t as] =
        some (.ok [.openingTag t as, .data d, .closingTag t])) ∧
      (AsciiNames [.voidTag t as] → b i [.voidTag t as] = some (.ok [.voidTag t as])))
    {n : Nat} {l : List Event} {r : Outcome} (h : Rewrites s b n l r) (hc : Canonical l)
    (ha : AsciiNames l) (hno : .noop ∉ l) :
    ∃ m q, r = .ok m ∧ Reread m q ∧ Canonical q ∧
      (∀ c, q.head? = some (.data c) → l.head? = some (.data c)) ∧
      (∀ e ∈ m, e ∈ l ∨ e = .data d ∨ ∃ t as, .selfClosedTag t as ∈ l ∧
        (e = .openingTag t as ∨ e = .closingTag t)) ∧
      ((∀ e ∈ l, ∀ t, startName e = some t → s.matches e = true → ¬ RawName t.str) → q = m) := by
  induction hk : l.length using Nat.strongRecOn generalizing n l r with
  | _ k ih =>
  subst hk
  cases h with
  | nil => exact ⟨[], [], rfl, .nil, .nil, by simp, by simp, fun _ => rfl⟩
  | @keep i e es r hm h =>
    have sub : ∀ x ∈ es, x ∈ e :: es := fun x hx => by simp [hx]
    cases hc with
    | plain hw h1 h2 hc =>
      obtain ⟨m, q, rfl, hrr, hcm, hh, hall, hq⟩ := ih _ (by simp) h hc
        (fun x hx => ha x (sub x hx)) (fun hx => hno (sub _ hx)) rfl
      refine ⟨e :: m, e :: q, rfl, .keep ?_ hrr, .plain hw h1 ?_ hcm, by simp, ?_,
        fun hraw => by rw [hq fun x hx => hraw x (sub x hx)]⟩
      · rintro t as c he hr -
        exact h1 _ _ he hr
      · intro c c' he hx
        exact h2 c c' he (hh _ hx)
      · intro x hx
        rcases List.mem_cons.1 hx with rfl | hx
        · exact .inl (by simp)
        · rcases hall x hx with h | h | ⟨t, as, h, h'⟩
          · exact .inl (sub _ h)
          · exact .inr (.inl h)
          · exact .inr (.inr ⟨t, as, sub _ h, h'⟩)
    | @raw t as c cn es' hw h1 h2 h3 hc =>
      have skip : ∀ {i e es r}, Rewrites s b i (e :: es) r → isStart e = false →
          ∃ r', r = andThen (.ok [e]) r' ∧ Rewrites s b i es r' := by
        intro i e es r h he
        generalize hl : e :: es = l at h
        cases h with
        | nil => cases hl
        | keep _ h =>
          obtain ⟨rfl, rfl⟩ := List.cons.inj hl
          exact ⟨_, rfl, h⟩
        | swap _ hm _ _ =>
          obtain ⟨rfl, -⟩ := List.cons.inj hl
          rw [hs _ hm] at he
          cases he
      obtain ⟨r1, rfl, h'⟩ := skip h rfl
      obtain ⟨r2, rfl, h''⟩ := skip h' rfl
      have hce : Canonical es' := canonical_rest (a := []) hc rfl (by simp)
      have sub : ∀ x ∈ es', x ∈ .openingTag t as :: .rawData c :: .closingTag cn :: es' :=
        fun x hx => by simp [hx]
      obtain ⟨m, q, rfl, hrr, hcm, hh, hall, hq⟩ := ih _ (by simp; omega) h'' hce
        (fun x hx => ha x (sub x hx)) (fun hx => hno (sub _ hx)) rfl
      have hwc : Writable (.closingTag cn) := by
        cases hc with
        | plain h => exact h
      refine ⟨.openingTag t as :: .rawData c :: .closingTag cn :: m,
        .openingTag t as :: .rawData c :: .closingTag cn :: q, rfl,
        .keep (by simp) (.keep (by simp) (.keep (by simp) hrr)),
        .raw hw h1 h2 h3 (.plain hwc (by simp) (by simp) hcm), by simp, ?_,
        fun hraw => by rw [hq fun x hx => hraw x (sub x hx)]⟩
      intro x hx
      simp only [List.mem_cons] at hx
      rcases hx with rfl | rfl | rfl | hx
      · exact .inl (by simp)
      · exact .inl (by simp)
      · exact .inl (by simp)
      · rcases hall x hx with h | h | ⟨t, as, h, h'⟩
        · exact .inl (sub _ h)
        · exact .inr (.inl h)
        · exact .inr (.inr ⟨t, as, sub _ h, h'⟩)
  | @swap i e m es r r' hel hm hbi h =>
    have sub : ∀ x ∈ es, x ∈ e :: m ++ es := fun x hx => by simp [hx]
    obtain ⟨u, z, huz, hz, -⟩ := element_last hel
    have hce : Canonical es := canonical_rest (a := u) hc (by rw [huz]; simp) hz
    obtain ⟨m', q, rfl, hrr, hcm, hh, hall, hq⟩ := ih _ (by simp; omega) h hce
      (fun x hx => ha x (sub x hx)) (fun hx => hno (sub _ hx)) rfl
    have hq' : (∀ x ∈ e :: m ++ es, ∀ t, startName x = some t → s.matches x = true →
        ¬ RawName t.str) → q = m' := fun hraw => hq fun x hx => hraw x (sub x hx)
    have hall' : ∀ x ∈ m', x ∈ e :: m ++ es ∨ x = .data d ∨
        ∃ t as, .selfClosedTag t as ∈ e :: m ++ es ∧
          (x = .openingTag t as ∨ x = .closingTag t) := by
      intro x hx
      rcases hall x hx with h | h | ⟨t, as, h, h'⟩
      · exact .inl (sub _ h)
      · exact .inr (.inl h)
      · exact .inr (.inr ⟨t, as, sub _ h, h'⟩)
    have hwd : Writable (.data d) := ⟨hd, hlt⟩
    have build : ∀ t as (c : Identifier), Writable (.openingTag t as) →
        Writable (.closingTag c) → SameName c.str t.str →
        ∃ q', Reread (.openingTag t as :: .data d :: .closingTag c :: m') q' ∧ Canonical q' ∧
          (∀ c, q'.head? ≠ some (.data c)) ∧
          (¬ RawName t.str → q = m' → q' = .openingTag t as :: .data d :: .closingTag c :: m') := by
      intro t as c h1 h3 hsn
      by_cases h2 : RawName t.str
      · refine ⟨_, .raw h2 (.keep (by simp) hrr), .raw h1 h2 hsn ?_
          (.plain h3 (by simp) (by simp) hcm), by simp, fun h => absurd h2 h⟩
        intro x p y n hx hp
        exfalso
        apply hlt
        rw [hx]
        cases hp with
        | closing => simp
        | start _ _ _ _ _ _ _ h => cases h
      · refine ⟨_, .keep ?_ (.keep (by simp) (.keep (by simp) hrr)),
          .plain h1 ?_ (by simp) (.plain hwd (by simp) (by simp) (.plain h3 (by simp) (by simp)
          hcm)), by simp, fun _ h => by rw [h]⟩
        · rintro t' as' c' he hr -
          cases he
          exact h2 hr
        · intro t' as' he
          cases he
          exact h2
    have hA : AsciiNames (e :: m) := fun x hx => ha x (by simp at hx ⊢; tauto)
    have hN : .noop ∉ e :: m := fun hx => hno (by simp at hx ⊢; tauto)
    have hR : (∀ x ∈ e :: m ++ es, ∀ t, startName x = some t → s.matches x = true →
        ¬ RawName t.str) → ∀ t, startName e = some t → ¬ RawName t.str :=
      fun hraw t ht => hraw e (by simp) t ht hm
    have hW : ∀ x ∈ e :: m, Writable x ∨ ∃ c, x = .rawData c :=
      fun x hx => canonical_writable hc (by simp at hx ⊢; tauto)
    clear ha hno huz
    cases hel with
    | selfClosed t as =>
      rw [(hb n t as).2.1 hA] at hbi
      cases hbi
      have hw : Writable (.selfClosedTag t as) := (hW (.selfClosedTag t as) (by simp)).resolve_right (by simp)
      obtain ⟨q', b1, b2, b3, b4⟩ := build t as t hw hw.1 (SameName.refl _)
      refine ⟨.openingTag t as :: .data d :: .closingTag t :: m', q', rfl, b1, b2,
        fun c h => absurd h (b3 c), ?_, fun hraw => b4 (hR hraw t rfl) (hq' hraw)⟩
      intro x hx
      simp only [List.mem_cons] at hx
      rcases hx with rfl | rfl | rfl | hx
      · exact .inr (.inr ⟨t, as, by simp, .inl rfl⟩)
      · exact .inr (.inl rfl)
      · exact .inr (.inr ⟨t, as, by simp, .inr rfl⟩)
      · exact hall' x hx
    | void t as =>
      rw [(hb n t as).2.2 hA] at hbi
      cases hbi
      have hw : Writable (.voidTag t as) := (hW (.voidTag t as) (by simp)).resolve_right (by simp)
      refine ⟨.voidTag t as :: m', .voidTag t as :: q, rfl, .keep (by simp) hrr,
        .plain hw (by simp) (by simp) hcm, by simp, ?_, fun hraw => by rw [hq' hraw]⟩
      intro x hx
      rcases List.mem_cons.1 hx with rfl | hx
      · exact .inl (by simp)
      · exact hall' x hx
    | @pair t as inner c hcn hin =>
      rw [(hb n t as).1 inner c hcn hin (fun hx => hN (by simp [hx])) hA] at hbi
      cases hbi
      have hw : Writable (.openingTag t as) := (hW (.openingTag t as) (by simp)).resolve_right (by simp)
      have hw' : Writable (.closingTag c) := (hW (.closingTag c) (by simp)).resolve_right (by simp)
      obtain ⟨q', b1, b2, b3, b4⟩ := build t as c hw hw' hcn
      refine ⟨.openingTag t as :: .data d :: .closingTag c :: m', q', rfl, b1, b2,
        fun c h => absurd h (b3 c), ?_, fun hraw => b4 (hR hraw t rfl) (hq' hraw)⟩
      intro x hx
      simp only [List.mem_cons] at hx
      rcases hx with rfl | rfl | rfl | hx
      · exact .inl (by simp)
      · exact .inr (.inl rfl)
      · exact .inl (by simp)
      · exact hall' x hx

theorem escape_ne_nil {s : Str} (h : s ≠ []) : escape s ≠ [] := by
  intro he
  have := decode_escape s
  rw [he] at this
  exact h this.symm

end Fuser
