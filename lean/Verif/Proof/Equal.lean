import Verif.Proof.Akin
import Verif.Proof.Keep
import Verif.Proof.Invariant
import Verif.Proof.Calls

/-!
# Lemmas on the comparison of templates
-/

namespace Fuser

open Spec

theorem nameEq_iff {i j : Identifier} : i.eq j = true ↔ SameName i.str j.str ∧ Ascii i.str := by
  rw [Identifier.eq, identifierEq_iff, map_lowerChar_eq, isAscii_iff', isAscii_iff']
  exact ⟨fun h => ⟨h.2.2, h.1⟩, fun h => ⟨h.2, (sameName_ascii h.1).1 h.2, h.1⟩⟩

theorem likeValue_case {n : Identifier} {v w : Option Value} : LikeValue .case n v w ↔ v = w := by
  constructor
  · intro h
    cases h with
    | none => rfl
    | some h => exact congrArg some h
  · rintro rfl
    cases v with
    | none => exact .none
    | some v => exact .some rfl

theorem attributesEq_iff {as bs : Attributes} : Attributes.eq as bs = true ↔
    List.Forall₂ (LikeAttribute .case) as bs ∧ ∀ a ∈ as, Ascii a.name.str := by
  induction as generalizing bs with
  | nil =>
    cases bs with
    | nil => simp [Attributes.eq]
    | cons b bs => simp [Attributes.eq]
  | cons a as ih =>
    cases bs with
    | nil => simp [Attributes.eq]
    | cons b bs =>
      rw [Attributes.eq, Attribute.eq, Bool.and_eq_true, Bool.and_eq_true, nameEq_iff, beq_iff_eq,
        ih, List.forall₂_cons, List.forall_mem_cons]
      unfold LikeAttribute
      rw [likeValue_case]
      exact ⟨fun h => ⟨⟨⟨h.1.1.1, h.1.2⟩, h.2.1⟩, h.1.1.2, h.2.2⟩,
        fun h => ⟨⟨⟨h.1.1.1, h.2.1⟩, h.1.1.2⟩, h.1.2, h.2.2⟩⟩

theorem eventEq_iff {e f : Event} : e.eq f = true ↔ LikeEvent .case e f ∧ AsciiEvent e := by
  constructor
  · intro h
    cases e <;> cases f <;>
      simp only [Event.eq, Bool.and_eq_true, beq_iff_eq, nameEq_iff, attributesEq_iff,
        reduceCtorEq] at h
    · exact ⟨.noop, trivial⟩
    · exact ⟨.doctype h, trivial⟩
    · exact ⟨.comment h, trivial⟩
    · exact ⟨.data h, trivial⟩
    · exact ⟨.rawData h, trivial⟩
    · exact ⟨.opening h.1.1 h.2.1, h.1.2, h.2.2⟩
    · exact ⟨.closing h.1, h.2⟩
    · exact ⟨.selfClosed h.1.1 h.2.1, h.1.2, h.2.2⟩
    · exact ⟨.void h.1.1 h.2.1, h.1.2, h.2.2⟩
  · rintro ⟨h, ha⟩
    cases h with
    | noop => rfl
    | doctype h => exact beq_iff_eq.2 h
    | comment h => exact beq_iff_eq.2 h
    | data h => exact beq_iff_eq.2 h
    | rawData h => exact beq_iff_eq.2 h
    | closing h => exact nameEq_iff.2 ⟨h, ha⟩
    | _ h h' =>
      rw [Event.eq, Bool.and_eq_true, nameEq_iff, attributesEq_iff]
      exact ⟨⟨h, ha.1⟩, h', ha.2⟩

theorem templateEq_iff {t u : Template} : t.eq u = true ↔
    LikeTemplate .case t u ∧ ∀ e ∈ t.events, AsciiEvent e := by
  obtain ⟨es⟩ := t
  obtain ⟨fs⟩ := u
  unfold Template.eq LikeTemplate
  simp only [Bool.and_eq_true, beq_iff_eq]
  induction es generalizing fs with
  | nil =>
    cases fs with
    | nil => simp
    | cons f fs => simp
  | cons e es ih =>
    cases fs with
    | nil => simp
    | cons f fs =>
      have ih := ih fs
      simp only [List.length_cons, Nat.add_right_cancel_iff, List.zip_cons_cons, List.all_cons,
        Bool.and_eq_true, List.forall₂_cons, List.forall_mem_cons, eventEq_iff]
      constructor
      · rintro ⟨h1, h2, h3⟩
        exact ⟨⟨h2.1, (ih.1 ⟨h1, h3⟩).1⟩, h2.2, (ih.1 ⟨h1, h3⟩).2⟩
      · rintro ⟨⟨h1, h2⟩, h3, h4⟩
        exact ⟨(ih.2 ⟨h2, h4⟩).1, ⟨h1, h3⟩, (ih.2 ⟨h2, h4⟩).2⟩

/-! ## Likeness as a relation -/

theorem like_attributes_refl {L : Likeness} (hL : L.Proper) (hn : ∀ i, L.name i i)
    (as : Attributes) : List.Forall₂ (LikeAttribute L) as as := by
  refine List.forall₂_same.2 fun a _ => ⟨hn _, ?_⟩
  cases a.value with
  | none => exact .none
  | some v => exact .some (hL.refl _ v)

theorem like_event_refl {L : Likeness} (hL : L.Proper) (hn : ∀ i, L.name i i) (e : Event) :
    LikeEvent L e e := by
  cases e with
  | noop => exact .noop
  | doctype c => exact .doctype (hL.text c)
  | comment c => exact .comment (hL.text c)
  | data c => exact .data (hL.text c)
  | rawData c => exact .rawData (hL.text c)
  | openingTag t as => exact .opening (hn t) (like_attributes_refl hL hn as)
  | closingTag t => exact .closing (hn t)
  | selfClosedTag t as => exact .selfClosed (hn t) (like_attributes_refl hL hn as)
  | voidTag t as => exact .void (hn t) (like_attributes_refl hL hn as)

theorem like_results_refl {L : Likeness} (hL : L.Proper) (hn : ∀ i, L.name i i)
    (rs : List (Except StreamError Event)) : List.Forall₂ (LikeResult L) rs rs := by
  refine List.forall₂_same.2 fun r _ => ?_
  cases r with
  | ok e => exact .ok (like_event_refl hL hn e)
  | error e => exact .error .same

theorem like_change_refl {L : Likeness} (hL : L.Proper) (hn : ∀ i, L.name i i) (o : AttrOp) :
    LikeChange L o o := by
  have hv : ∀ (n : Identifier) (v : Option Value), LikeValue L n v v := by
    intro n v
    cases v with
    | none => exact .none
    | some v => exact .some (hL.refl n v)
  cases o with
  | removeClass n => exact .removeClass (hn n)
  | removeAttribute n => exact .removeAttribute (hn n)
  | addAttribute n v => exact .addAttribute (hn n) (hv n v)
  | replaceAttribute n v => exact .replaceAttribute (hn n) (hv n v)
  | addToAttribute n v s => exact .addToAttribute (hn n) (hL.refl n v) (hL.refl n s)
  | setAttribute n v => exact .setAttribute (hn n) (hv n v)

theorem like_calls_refl {L : Likeness} (hL : L.Proper) (hn : ∀ i, L.name i i) {a k : Kind}
    (p : Prog a k) (h : Steady L p) : LikeCalls L p p := by
  induction p with
  | src => exact .src
  | forget p ih => exact .forget (ih h)
  | apply p q ih1 ih2 => exact .apply (ih1 h.1) (ih2 h.2)
  | fallOk p ih => exact .fallOk (ih h)
  | fallErr e => exact .fallErr .same
  | selectRaw p s d b ih ihb => exact .select (ih h.1) h.2.1 fun i => ihb i (h.2.2 i)
  | selectOnceRaw p s d b ih ihb => exact .selectOnce (ih h.1) h.2.1 (ihb h.2.2)
  | remove p ih => exact .remove (ih h)
  | prepend p c ih => exact .prepend (ih h) (like_results_refl hL hn _)
  | append p c ih => exact .append (ih h) (like_results_refl hL hn _)
  | «repeat» p n b ih ihb => exact .repeat (ih h.1) fun i => ihb i (h.2 i)
  | orElse p n r q ih ihr ihq => exact .orElse (ih h.1) (ihr h.2.1) (ihq h.2.2)
  | applyTemplate p g ih => exact .applyTemplate (ih h.1) h.2
  | contents p b ih ihb => exact .contents (ih h.1) (ihb h.2)
  | attr p o ih => exact .attr (ih h) (like_change_refl hL hn o)

theorem case_proper : Likeness.case.Proper where
  name h := h
  seen _ h := congrArg Deferred.str h
  text _ := rfl
  refl _ _ := rfl
  join h h' := by cases h; cases h'; rfl
  anyCase _ h := h

theorem stored_proper : Likeness.stored.Proper where
  name h := by rw [show _ = _ from h]; exact .refl _
  seen _ h := h
  text _ := rfl
  refl _ _ := rfl
  anyCase _ h := h
  join := by
    intro n a b c d h h'
    have h : a.str = b.str := h
    have h' : c.str = d.str := h'
    change (EncodedText.join a c).str = (EncodedText.join b d).str
    have ia : ∀ x : Deferred, x.intoActual = x.str := by intro x; cases x <;> rfl
    unfold EncodedText.join
    rw [h', ia, ia, h]
    split
    · exact h
    · rfl

theorem like_symm {e f : Event} (h : LikeEvent .case e f) : LikeEvent .case f e := by
  have ha : ∀ {as bs : Attributes}, List.Forall₂ (LikeAttribute .case) as bs →
      List.Forall₂ (LikeAttribute .case) bs as := fun h =>
    List.Forall₂.flip (h.imp fun _ _ h => ⟨h.1.symm, likeValue_case.2 (likeValue_case.1 h.2).symm⟩)
  cases h with
  | noop => exact .noop
  | doctype h => exact .doctype h.symm
  | comment h => exact .comment h.symm
  | data h => exact .data h.symm
  | rawData h => exact .rawData h.symm
  | opening h h' => exact .opening h.symm (ha h')
  | closing h => exact .closing h.symm
  | selfClosed h h' => exact .selfClosed h.symm (ha h')
  | void h h' => exact .void h.symm (ha h')

theorem forall₂_trans {α : Type} {R : α → α → Prop} (hR : ∀ a b c, R a b → R b c → R a c)
    {as bs cs : List α} (h : List.Forall₂ R as bs) (h' : List.Forall₂ R bs cs) :
    List.Forall₂ R as cs := by
  induction h generalizing cs with
  | nil => exact h'
  | cons h _ ih =>
    cases h' with
    | cons h' ht => exact .cons (hR _ _ _ h h') (ih ht)

theorem like_trans {e f g : Event} (h : LikeEvent .case e f) (h' : LikeEvent .case f g) :
    LikeEvent .case e g := by
  have ha : ∀ {as bs cs : Attributes}, List.Forall₂ (LikeAttribute .case) as bs →
      List.Forall₂ (LikeAttribute .case) bs cs → List.Forall₂ (LikeAttribute .case) as cs :=
    fun h h' => forall₂_trans (fun a b c (h : LikeAttribute .case a b)
      (h' : LikeAttribute .case b c) => ⟨h.1.trans h'.1,
        likeValue_case.2 ((likeValue_case.1 h.2).trans (likeValue_case.1 h'.2))⟩) h h'
  cases h with
  | noop => exact h'
  | doctype h => cases h' with | doctype h' => exact .doctype (h.trans h')
  | comment h => cases h' with | comment h' => exact .comment (h.trans h')
  | data h => cases h' with | data h' => exact .data (h.trans h')
  | rawData h => cases h' with | rawData h' => exact .rawData (h.trans h')
  | opening h u => cases h' with | opening h' u' => exact .opening (h.trans h') (ha u u')
  | closing h => cases h' with | closing h' => exact .closing (h.trans h')
  | selfClosed h u => cases h' with | selfClosed h' u' => exact .selfClosed (h.trans h') (ha u u')
  | void h u => cases h' with | void h' u' => exact .void (h.trans h') (ha u u')

theorem like_ascii {e f : Event} (h : LikeEvent .case e f) : AsciiEvent e ↔ AsciiEvent f := by
  have ha : ∀ {as bs : Attributes}, List.Forall₂ (LikeAttribute .case) as bs →
      ((∀ a ∈ as, Ascii a.name.str) ↔ ∀ b ∈ bs, Ascii b.name.str) := by
    intro as bs h
    induction h with
    | nil => simp
    | cons h _ ih => simp only [List.forall_mem_cons, sameName_ascii h.1, ih]
  cases h with
  | opening h h' => exact and_congr (sameName_ascii h) (ha h')
  | closing h => exact sameName_ascii h
  | selfClosed h h' => exact and_congr (sameName_ascii h) (ha h')
  | void h h' => exact and_congr (sameName_ascii h) (ha h')
  | _ => exact Iff.rfl

theorem like_ascii_all {es fs : List Event} (h : List.Forall₂ (LikeEvent .case) es fs) :
    (∀ e ∈ es, AsciiEvent e) ↔ ∀ f ∈ fs, AsciiEvent f := by
  induction h with
  | nil => simp
  | cons h _ ih => simp only [List.forall_mem_cons, like_ascii h, ih]

/-! ## Rendering -/

theorem render_str' (d : Deferred) : d.render = d.str := by cases d <;> rfl

theorem sameName_append {a b c d : Str} (h : SameName a b) (h' : SameName c d) :
    SameName (a ++ c) (b ++ d) := List.rel_append h h'

/-- Rendering of things alike, for a relation of texts. -/
theorem like_render {L : Likeness} {S : Str → Str → Prop} (hS : ∀ s, S s s)
    (happ : ∀ {a b c d}, S a b → S c d → S (a ++ c) (b ++ d))
    (hn : ∀ {i j}, L.name i j → S i.str j.str) (ht : ∀ {a b}, L.text a b → S a.str b.str)
    (hv : ∀ {n v w}, L.value n v w → S v.str w.str)
    {t u : Template} (h : LikeTemplate L t u) : S t.render u.render := by
  have name : ∀ {i j : Identifier}, L.name i j → S i.render j.render := by
    intro i j h
    have := hn h
    rw [Identifier.str, Identifier.str] at this
    rwa [Identifier.render, Identifier.render, render_str', render_str']
  have text : ∀ {a b : Deferred}, L.text a b → S a.render b.render := by
    intro a b h
    rw [render_str', render_str']
    exact ht h
  have attr : ∀ {a b : Attribute}, LikeAttribute L a b → S a.render b.render := by
    intro a b h
    obtain ⟨an, av⟩ := a
    obtain ⟨bn, bv⟩ := b
    refine happ (name h.1) ?_
    cases (show LikeValue L an av bv from h.2) with
    | none => exact hS _
    | some hw =>
      have := hv hw
      rw [← render_str', ← render_str'] at this
      exact happ (happ (hS _) this) (hS _)
  have loop : ∀ {as bs : Attributes}, List.Forall₂ (LikeAttribute L) as bs → ∀ f,
      S (Attributes.renderLoop f as) (Attributes.renderLoop f bs) := by
    intro as bs h
    induction h with
    | nil => intro f; exact hS _
    | cons h _ ih => intro f; exact happ (happ (hS _) (attr h)) (ih false)
  have tag : ∀ {t u : Identifier} {as bs : Attributes}, L.name t u →
      List.Forall₂ (LikeAttribute L) as bs → S (tagDisplay t as) (tagDisplay u bs) := by
    intro t u as bs h h'
    refine happ (name h) ?_
    cases h' with
    | nil => exact hS _
    | cons h h' => exact happ (hS _) (loop (.cons h h') true)
  have event : ∀ {e f : Event}, LikeEvent L e f → S e.render f.render := by
    intro e f h
    cases h with
    | noop => exact hS _
    | doctype h => exact happ (happ (hS _) (text h)) (hS _)
    | comment h => exact happ (happ (hS _) (text h)) (hS _)
    | data h => exact text h
    | rawData h => exact text h
    | closing h => exact happ (happ (hS _) (name h)) (hS _)
    | _ h h' => exact happ (happ (hS _) (tag h h')) (hS _)
  obtain ⟨es⟩ := t
  obtain ⟨fs⟩ := u
  replace h : List.Forall₂ (LikeEvent L) es fs := h
  unfold Template.render
  simp only
  induction h with
  | nil => exact hS _
  | cons he _ ih => exact happ (event he) ih

/-! ## ASCII names -/

theorem ascii_change {op : AttrOp} (h : AsciiChange op) {as : Attributes}
    (ha : ∀ a ∈ as, Ascii a.name.str) : ∀ a ∈ op.apply as, Ascii a.name.str := by
  have sub : ∀ {p : Attribute → Bool}, ∀ a ∈ as.filter p, Ascii a.name.str :=
    fun a hm => ha a (List.mem_filter.1 hm).1
  have snoc : ∀ {bs : Attributes} {n : Identifier} {v : Option Value},
      (∀ a ∈ bs, Ascii a.name.str) → Ascii n.str →
      ∀ a ∈ bs ++ [(⟨n, v⟩ : Attribute)], Ascii a.name.str := by
    intro bs n v hb hn a hm
    rcases List.mem_append.1 hm with hm | hm
    · exact hb a hm
    · rw [List.mem_singleton] at hm
      subst hm
      exact hn
  cases op with
  | removeAttribute n => exact sub
  | addAttribute n v => exact snoc ha h
  | setAttribute n v => exact snoc sub h
  | replaceAttribute n v =>
    simp only [AttrOp.apply, Attributes.replaceAttribute]
    split
    · exact snoc sub h
    · exact sub
  | addToAttribute n v s =>
    simp only [AttrOp.apply]
    clear sub snoc
    induction as with
    | nil =>
      intro a hm
      rw [Attributes.addToAttribute, List.mem_singleton] at hm
      subst hm
      exact h
    | cons b bs ih =>
      rw [Attributes.addToAttribute]
      rw [List.forall_mem_cons] at ha
      split
      · exact List.forall_mem_cons.2 ⟨ha.1, ha.2⟩
      · exact List.forall_mem_cons.2 ⟨ha.1, ih ha.2⟩
  | removeClass n =>
    simp only [AttrOp.apply, Attributes.removeClass]
    split
    · intro b hb
      obtain ⟨a, hm, hab⟩ := List.mem_filterMap.1 hb
      exact (removeClass_spelled hab).1 ▸ ha a hm
    · exact ha

theorem asciiCalls_keeps {a k : Kind} {p : Prog a k} (h : AsciiCalls p) : Keeps AsciiEvent p :=
  each_imp (fun _ h => h)
    (fun _ h _ _ => ⟨fun x => ⟨x.1, ascii_change h x.2⟩, fun x => ⟨x.1, ascii_change h x.2⟩,
      fun x => ⟨x.1, ascii_change h x.2⟩⟩) (fun _ h => h) p h

theorem ascii_transform {k : Kind} {p : Prog .gen k} (h : AsciiCalls p) {t t' : Template}
    (ha : ∀ e ∈ t.events, AsciiEvent e) (hr : t.transform p = some (.ok t')) :
    ∀ e ∈ t'.events, AsciiEvent e :=
  keeps_transform (fun _ _ h => ⟨h, h.1⟩) (asciiCalls_keeps h) ha hr

theorem ascii_parsed {s : Str} {o : Options} {t : Template}
    (h : Template.fromStr s o = .ok (.ok t)) : ∀ e ∈ t.events, AsciiEvent e := by
  rw [fromStr_ok, parseEvents_ok] at h
  obtain ⟨-, d, -, he, hr, ho⟩ := h
  have hc := reads_canonical hr rfl ho
  rw [← he] at hc
  clear * - hc
  have nm : ∀ {n : Str}, Name n → Ascii n := fun h => h.1.2.1
  have att : ∀ {as : Attributes}, PlainAttributes as → ∀ a ∈ as, Ascii a.name.str :=
    fun h a ha => nm (h a ha).1
  have key : ∀ {e : Event}, Writable e → AsciiEvent e := by
    intro e h
    cases e with
    | openingTag t as => exact ⟨nm h.1, att h.2.2⟩
    | selfClosedTag t as => exact ⟨nm h.1, att h.2.2⟩
    | voidTag t as => exact ⟨nm h.1, att h.2.2⟩
    | closingTag t => exact nm h
    | _ => trivial
  generalize t.events = es at hc
  induction hc with
  | nil => simp
  | plain h _ _ _ ih => exact List.forall_mem_cons.2 ⟨key h, ih⟩
  | raw h _ _ _ _ ih =>
    exact List.forall_mem_cons.2 ⟨key h, List.forall_mem_cons.2 ⟨trivial, ih⟩⟩

/-! ## Contents that give the same -/

/-- Nothing differs. -/
def Spec.Likeness.same : Likeness := ⟨(· = ·), (· = ·), fun _ => (· = ·)⟩

theorem same_proper : Likeness.same.Proper where
  name h := by rw [show _ = _ from h]; exact .refl _
  seen _ h := congrArg Deferred.str h
  text _ := rfl
  refl _ _ := rfl
  join h h' := by cases h; cases h'; rfl
  anyCase _ h := h

theorem likeValue_same {n : Identifier} {v w : Option Value} (h : LikeValue .same n v w) : v = w := by
  cases h with
  | none => rfl
  | some h => exact congrArg some h

theorem likeAttributes_same {as bs : Attributes} (h : List.Forall₂ (LikeAttribute .same) as bs) :
    as = bs := by
  induction h with
  | nil => rfl
  | @cons a b _ _ h _ ih =>
    obtain ⟨an, av⟩ := a
    obtain ⟨bn, bv⟩ := b
    cases (show an = bn from h.1)
    cases likeValue_same h.2
    rw [ih]

theorem likeEvent_same {e f : Event} (h : LikeEvent .same e f) : e = f := by
  cases h with
  | noop => rfl
  | doctype h => exact congrArg _ h
  | comment h => exact congrArg _ h
  | data h => exact congrArg _ h
  | rawData h => exact congrArg _ h
  | closing h => exact congrArg _ h
  | _ h h' => cases h; cases likeAttributes_same h'; rfl

theorem likeEvents_same {es fs : List Event} (h : List.Forall₂ (LikeEvent .same) es fs) :
    es = fs := by
  induction h with
  | nil => rfl
  | cons h _ ih => rw [likeEvent_same h, ih]

theorem likeFound_same {e f : Option Event} (h : LikeFound .same e f) : e = f := by
  cases h with
  | none => rfl
  | some h => rw [likeEvent_same h]

theorem likeError_same {e f : StreamError} (h : LikeError .same e f) : e = f := by
  cases h with
  | same => rfl
  | unexpectedClosing h => cases h; rfl
  | expectedOpening h => cases likeFound_same h; rfl
  | expectedClosing h h' => cases likeFound_same h; cases h'; rfl

theorem likeOutcome_same {r r' : Except StreamError Template} (h : LikeOutcome .same r r') :
    r = r' := by
  cases h with
  | ok h => exact congrArg (fun es => Except.ok (Template.mk es)) (likeEvents_same h)
  | error h => rw [likeError_same h]

theorem likeOutcome_refl (r : Except StreamError Template) : LikeOutcome .same r r := by
  cases r with
  | ok t => exact .ok (List.forall₂_same.2 fun e _ => like_event_refl same_proper (fun _ => rfl) e)
  | error e => exact .error .same

theorem steady_same {a k : Kind} (p : Prog a k) : Steady .same p := by
  have hs : ∀ s : Selector, LikeSelector .same s s := fun s e f h => by rw [likeEvent_same h]
  induction p with
  | src => trivial
  | fallErr e => trivial
  | forget p ih => exact ih
  | apply p q ih ih' => exact ⟨ih, ih'⟩
  | fallOk p ih => exact ih
  | selectRaw p s d b ih ih' => exact ⟨ih, hs s, ih'⟩
  | selectOnceRaw p s d b ih ih' => exact ⟨ih, hs s, ih'⟩
  | remove p ih => exact ih
  | prepend p c ih => exact ih
  | append p c ih => exact ih
  | «repeat» p n b ih ih' => exact ⟨ih, ih'⟩
  | orElse p n r q ih ih' ih'' => exact ⟨ih, ih', ih''⟩
  | applyTemplate p g ih =>
    refine ⟨ih, fun t u h => ?_⟩
    obtain ⟨es⟩ := t
    obtain ⟨fs⟩ := u
    cases likeEvents_same h
    exact likeOutcome_refl _
  | contents p b ih ih' => exact ⟨ih, ih'⟩
  | attr p op ih => exact ih

/-- Calls with other contents that give things alike. -/
theorem like_withContents {L : Likeness} (hL : L.Proper) (hn : ∀ i, L.name i i)
    {f : Content → Content} (hf : ∀ c, List.Forall₂ (LikeResult L) (visible (results c))
      (visible (results (f c)))) {a k : Kind} (p : Prog a k) (h : Steady L p) :
    LikeCalls L p (withContents f p) := by
  induction p with
  | src => exact .src
  | forget p ih => exact .forget (ih h)
  | apply p q ih1 ih2 => exact .apply (ih1 h.1) (ih2 h.2)
  | fallOk p ih => exact .fallOk (ih h)
  | fallErr e => exact .fallErr .same
  | selectRaw p s d b ih ihb => exact .select (ih h.1) h.2.1 fun i => ihb i (h.2.2 i)
  | selectOnceRaw p s d b ih ihb => exact .selectOnce (ih h.1) h.2.1 (ihb h.2.2)
  | remove p ih => exact .remove (ih h)
  | prepend p c ih => exact .prepend (ih h) (hf c)
  | append p c ih => exact .append (ih h) (hf c)
  | «repeat» p n b ih ihb => exact .repeat (ih h.1) fun i => ihb i (h.2 i)
  | orElse p n r q ih ihr ihq => exact .orElse (ih h.1) (ihr h.2.1) (ihq h.2.2)
  | applyTemplate p g ih => exact .applyTemplate (ih h.1) h.2
  | contents p b ih ihb => exact .contents (ih h.1) (ihb h.2)
  | attr p o ih => exact .attr (ih h) (like_change_refl hL hn o)

theorem transform_contents {f : Content → Content}
    (hf : ∀ c, visible (results (f c)) = visible (results c)) {k : Kind} (t : Template)
    (p : Prog .gen k) {r : Except StreamError Template} (h : t.transform p = some r) :
    t.transform (withContents f p) = some r := by
  obtain ⟨r', h', ho⟩ := like_transform same_proper
    (like_withContents same_proper (fun _ => rfl) (fun c => by
      rw [hf c]
      exact like_results_refl same_proper (fun _ => rfl) _) p (steady_same p))
    (List.forall₂_same.2 fun e _ => like_event_refl same_proper (fun _ => rfl) e) h
  rw [h', ← likeOutcome_same ho]

end Fuser
