import Verif.Spec.Respell
import Verif.Proof.Equal
import Verif.Proof.FromStr

/-!
# Lemmas about texts that differ in spelling only
-/

namespace Fuser

open Spec

theorem respelled_like {d d' : Doc} (h : Respelled d d') :
    List.Forall₂ (LikeEvent .case) (Doc.events d) (Doc.events d') := by
  induction h with
  | nil => exact .nil
  | raw _ ih => exact .cons (.rawData rfl) ih
  | piece h _ _ ih => exact .cons h ih

theorem like_leaf {L : Likeness} {e f : Event} (h : LikeEvent L e f) : Leaf e ↔ Leaf f := by
  cases h <;> exact Iff.rfl

theorem forall₂_split {α β : Type} {R : α → β → Prop} {a b : List α} :
    ∀ {c : List β}, List.Forall₂ R (a ++ b) c →
      ∃ x y, List.Forall₂ R a x ∧ List.Forall₂ R b y ∧ c = x ++ y := by
  induction a with
  | nil => exact fun {c} h => ⟨[], c, .nil, h, rfl⟩
  | cons a l ih =>
    intro c h
    cases h with
    | cons h1 h2 =>
      obtain ⟨x, y, hx, hy, rfl⟩ := ih h2
      exact ⟨_ :: x, y, .cons h1 hx, hy, rfl⟩

/-- Nesting does not depend on the case of names. -/
theorem nests_like {L : Likeness} (hL : L.Proper) {n : Nat} {es : List Event} (h : Nests n es) :
    ∀ {fs : List Event}, List.Forall₂ (LikeEvent L) es fs → Nests n fs := by
  induction h with
  | nil => intro fs h; cases h; exact .nil
  | leaf hl _ ih =>
    intro fs h
    cases h with
    | cons h1 h2 => exact .leaf ((like_leaf h1).1 hl) (ih h2)
  | element hs _ _ ih₁ ih₂ =>
    intro fs h
    cases h with
    | cons h1 h2 =>
      cases h1 with
      | opening hn ha =>
        obtain ⟨fi, fr, hi, hr, rfl⟩ := forall₂_split h2
        cases hr with
        | cons h3 h4 =>
          cases h3 with
          | closing hc =>
            exact .element ((hL.name hc).symm.trans (hs.trans (hL.name hn))) (ih₁ hi) (ih₂ h4)

/-- A closing tag starting before a text that starts with `<` ends before it. -/
theorem closesAt_cut {t y z z' : Str} (h : ClosesAt t (y ++ z)) (hy : y ≠ [])
    (hz : ∀ c, z.head? = some c → c = '<') : ClosesAt t (y ++ z') := by
  obtain ⟨n, p, r, heq, hp, hn⟩ := h
  rcases List.append_eq_append_iff.1 heq with ⟨q, rfl, hq⟩ | ⟨q, rfl, -⟩
  · cases q with
    | nil => exact ⟨n, y, z', rfl, by simpa using hp, hn⟩
    | cons c q =>
      subst hq
      have hc := hz c rfl
      subst hc
      exfalso
      cases y with
      | nil => exact hy rfl
      | cons x y =>
        generalize hw : x :: y ++ '<' :: q = w at hp
        cases hp with
        | closing h1 h2 h3 h4 =>
          simp only [List.cons_append, List.append_assoc, List.cons.injEq] at hw
          have hmem : '<' ∈ y ++ '<' :: q := by simp
          rw [hw.2] at hmem
          have nb : ∀ {w}, Blank w → '<' ∉ w := fun h hm => absurd (h _ hm) (by decide)
          simp only [List.mem_append, List.mem_cons, List.not_mem_nil, or_false] at hmem
          rcases hmem with h | h | h | h | h | h
          · exact nb h1 h
          · cases h
          · exact nb h2 h
          · exact absurd (h3.2 _ h) (by decide)
          · exact nb h4 h
          · cases h
        | start _ _ _ _ _ _ _ hs => cases hs
  · exact ⟨n, p, q ++ z', by simp, hp, hn⟩

/-- The text of a document with more in it is not empty. -/
theorem reads_text_nil {d : Doc} {b : Str} (h : Reads d b) (ht : Doc.text d = []) : d = [] := by
  cases h with
  | nil => rfl
  | plain hp => exact absurd (List.append_eq_nil_iff.1 ht).1 (piece_ne_nil hp)
  | rawStart hp => exact absurd (List.append_eq_nil_iff.1 ht).1 (piece_ne_nil hp)
  | raw hp => exact absurd (List.append_eq_nil_iff.1 ht).1 (piece_ne_nil hp)

/-- The first piece of a document. -/
theorem reads_first {e : Event} {p : Str} {d : Doc} {b : Str} (h : Reads ((e, p) :: d) b) :
    Piece e p ∧ ∀ s c, e = .data s → (Doc.text d ++ b).head? = some c → c = '<' := by
  cases h with
  | plain hp _ hd => exact ⟨hp, hd⟩
  | rawStart hp ho => exact ⟨hp, fun s c he => by obtain ⟨_, h, -⟩ := ho; rw [h] at he; cases he⟩
  | raw hp ho => exact ⟨hp, fun s c he => by obtain ⟨_, h, -⟩ := ho; rw [h] at he; cases he⟩

theorem piece_not_raw {s : EncodedText} {p : Str} (h : Piece (.rawData s) p) : False := by
  cases h with
  | start _ _ _ _ _ _ _ hs => cases hs

/-- Respelling keeps whether the text starts with `<`. -/
theorem respelled_head {d d' : Doc} {b : Str} (h : Reads d b) (hr : Respelled d d')
    (hb : ∀ c, (Doc.text d ++ b).head? = some c → c = '<') :
    ∀ c, (Doc.text d' ++ b).head? = some c → c = '<' := by
  cases hr with
  | nil => exact hb
  | raw h' => exact (piece_not_raw (reads_first h).1).elim
  | @piece e e' p p' d d' hl hp' hr =>
    have hp := (reads_first h).1
    intro c hc
    rcases piece_head hp with ⟨⟨x, rfl⟩, hx⟩ | ⟨hx, hd⟩
    · exfalso
      cases hp with
      | data hne hlt =>
        cases p with
        | nil => exact hne rfl
        | cons a p => exact hlt (by rw [hb a rfl]; simp)
      | start _ _ _ _ _ _ _ hs => cases hs
    · rcases piece_head hp' with ⟨⟨x, rfl⟩, -⟩ | ⟨-, hd'⟩
      · cases hl with
        | data _ => exact (hx ⟨_, rfl⟩).elim
      · cases p' with
        | nil => cases hd'
        | cons a p' =>
          cases hd'
          cases hc
          rfl

/-- A respelled start tag of a raw text element. -/
theorem respelled_opensRaw {e e' : Event} {p' : Str} {t : Str} (hl : LikeEvent .case e e')
    (hp : Piece e' p') (h : OpensRaw e t) : ∃ t', OpensRaw e' t' ∧ SameName t t' := by
  obtain ⟨as, rfl, hr⟩ := h
  cases hl with
  | @opening _ u _ bs hn ha =>
    obtain ⟨w, rfl, -⟩ := piece_opening_name hp
    refine ⟨w, ⟨bs, rfl, ?_⟩, hn⟩
    have hn : SameName t w := hn
    rcases hr with h | h | h | h
    · exact .inl (hn.symm.trans h)
    · exact .inr (.inl (hn.symm.trans h))
    · exact .inr (.inr (.inl (hn.symm.trans h)))
    · exact .inr (.inr (.inr (hn.symm.trans h)))

/-- Respelling keeps the closing tag at the start of the text. -/
theorem respelled_closes {d d' : Doc} {b t t' : Str} (h : Reads d b) (hr : Respelled d d')
    (ht : SameName t t') (hc : ClosesAt t (Doc.text d ++ b)) : ClosesAt t' (Doc.text d' ++ b) := by
  rw [closesAt_congr ht] at hc
  cases hr with
  | nil => exact hc
  | raw h' => exact (piece_not_raw (reads_first h).1).elim
  | @piece e e' p p' d d' hl hp' hr =>
    obtain ⟨hp, hd⟩ := reads_first h
    obtain ⟨n, q, r, heq, hq, hn⟩ := hc
    have heq : p ++ (Doc.text d ++ b) = q ++ r := by
      rw [← heq]; simp [Doc.text]
    obtain ⟨rfl, rfl, -⟩ := piece_unique hp hq heq hd (by intro s c h; cases h)
    cases hl with
    | closing hu =>
      exact ⟨_, p', Doc.text d' ++ b, by simp [Doc.text], hp', hu.symm.trans hn⟩

/-- Respelled texts are read as the respelled events. -/
theorem reads_respelled {d : Doc} {b : Str} (h : Reads d b) :
    ∀ {d' : Doc}, Respelled d d' → Reads d' b := by
  induction h with
  | nil => intro d' hr; cases hr; exact .nil
  | @plain e p d b hp ho hd hrest ih =>
    intro d' hr
    cases hr with
    | raw h' => exact (piece_not_raw hp).elim
    | @piece _ e' _ p' _ d' hl hp' hr =>
      refine .plain hp' ?_ ?_ (ih hr)
      · rintro ⟨t, h⟩
        obtain ⟨t', h, -⟩ := respelled_opensRaw (like_symm hl) hp h
        exact ho ⟨t', h⟩
      · rintro s c rfl
        cases hl with
        | data _ => exact fun hc => respelled_head hrest hr (fun c => hd _ c rfl) c hc
  | rawStart hp ho =>
    intro d' hr
    cases hr with
    | raw h' => exact (piece_not_raw hp).elim
    | piece hl hp' hr =>
      cases hr
      obtain ⟨t', h, -⟩ := respelled_opensRaw hl hp' ho
      exact .rawStart hp' h
  | @raw e p t c d b hp ho h1 h2 h3 hrest ih =>
    intro d' hr
    cases hr with
    | raw h' => exact (piece_not_raw hp).elim
    | @piece _ e' _ p' _ d' hl hp' hr =>
      obtain ⟨t', h, ht⟩ := respelled_opensRaw hl hp' ho
      cases hr with
      | piece hlr hraw _ =>
        cases hlr
        exact (piece_not_raw hraw).elim
      | @raw _ _ _ d' hr =>
        have hhead : ∀ c, (Doc.text d ++ b).head? = some c → c = '<' := by
          intro x hx
          by_cases hn : Doc.text d ++ b = []
          · rw [hn] at hx; cases hx
          · have := closesAt_head (h3 hn)
            rw [this] at hx
            exact (Option.some.inj hx).symm
        have hnil : Doc.text d' ++ b = [] → Doc.text d ++ b = [] := by
          intro hn
          obtain ⟨hn, hb⟩ := List.append_eq_nil_iff.1 hn
          have := reads_text_nil (ih hr) hn
          subst this
          cases hr
          exact hb
        have hnil' : Doc.text d ++ b = [] → Doc.text d' ++ b = [] := by
          intro hn
          obtain ⟨hn, hb⟩ := List.append_eq_nil_iff.1 hn
          have := reads_text_nil hrest hn
          subst this
          cases hr
          exact hb
        refine .raw hp' h ?_ (fun hn => h2 (hnil hn)) ?_ (ih hr)
        · intro x y hxy hy hc
          exact h1 x y hxy hy ((closesAt_congr ht).2
            (closesAt_cut hc hy (respelled_head hrest hr hhead)))
        · intro hn
          exact respelled_closes hrest hr ht (h3 fun h => hn (hnil' h))

/-- Readings of like events are respellings of each other. -/
theorem respelled_of_like {d : Doc} {b : Str} (h : Reads d b) : ∀ {d' : Doc} {b' : Str},
    Reads d' b' → List.Forall₂ (LikeEvent .case) (Doc.events d) (Doc.events d') →
    Respelled d d' := by
  induction h with
  | nil =>
    intro d' b' h' hl
    cases d' with
    | nil => exact .nil
    | cons x d' => cases hl
  | @plain e p d b hp ho hd hrest ih =>
    intro d' b' h' hl
    cases h' with
    | nil => cases hl
    | plain hp' _ _ hrest' =>
      cases hl with
      | cons h1 h2 => exact .piece h1 hp' (ih hrest' h2)
    | rawStart hp' _ =>
      cases hl with
      | cons h1 h2 =>
        cases d with
        | nil => exact .piece h1 hp' .nil
        | cons x d => cases h2
    | raw hp' ho' =>
      cases hl with
      | cons h1 h2 =>
        obtain ⟨t, ht, -⟩ := respelled_opensRaw (like_symm h1) hp ho'
        exact absurd ⟨t, ht⟩ ho
  | @rawStart e p t b hp ho =>
    intro d' b' h' hl
    cases d' with
    | nil => cases hl
    | cons x d' =>
      obtain ⟨e', p'⟩ := x
      cases hl with
      | cons h1 h2 =>
        cases d' with
        | nil => exact .piece h1 (reads_first h').1 .nil
        | cons x d' => cases h2
  | @raw e p t c d b hp ho h1 h2 h3 hrest ih =>
    intro d' b' h' hl
    cases h' with
    | nil => cases hl
    | plain hp' ho' _ _ =>
      cases hl with
      | cons h1 h2 =>
        obtain ⟨t, ht, -⟩ := respelled_opensRaw h1 hp' ho
        exact absurd ⟨t, ht⟩ ho'
    | rawStart hp' _ =>
      cases hl with
      | cons h1 h2 => cases h2
    | raw hp' ho' _ _ _ hrest' =>
      cases hl with
      | cons h1 h2 =>
        cases h2 with
        | cons h2 h3 =>
          cases h2 with
          | rawData h =>
            cases h
            exact .piece h1 hp' (.raw (ih hrest' h3))

theorem opensRaw_name {e : Event} {t t' : Str} (h : OpensRaw e t) (h' : OpensRaw e t') : t = t' := by
  obtain ⟨as, rfl, -⟩ := h
  obtain ⟨as', heq, -⟩ := h'
  simp only [owned, Event.openingTag.injEq, Identifier.mk.injEq, Deferred.actual.injEq] at heq
  exact heq.1

/-- A text has one reading only. -/
theorem reads_unique {d : Doc} {b : Str} (h : Reads d b) (hb : b = []) :
    ∀ {d' : Doc}, Reads d' b → Doc.text d' = Doc.text d → d' = d := by
  induction h with
  | nil => exact fun h' ht => reads_text_nil h' ht
  | @plain e p d b hp ho hd hrest ih =>
    subst hb
    intro d' h' ht
    cases d' with
    | nil => exact absurd (List.append_eq_nil_iff.1 ht.symm).1 (piece_ne_nil hp)
    | cons x d' =>
      obtain ⟨e', p'⟩ := x
      obtain ⟨hp', hd'⟩ := reads_first h'
      rw [List.append_nil] at hd'
      have ht : p' ++ Doc.text d' = p ++ Doc.text d := ht
      obtain ⟨rfl, rfl, hr⟩ := piece_unique hp' hp ht hd' (by rwa [List.append_nil] at hd)
      cases h' with
      | plain _ _ _ hrest' => rw [ih rfl hrest' hr]
      | rawStart _ h => exact absurd ⟨_, h⟩ ho
      | raw _ h => exact absurd ⟨_, h⟩ ho
  | @rawStart e p t b hp ho =>
    subst hb
    intro d' h' ht
    cases d' with
    | nil => exact absurd (List.append_eq_nil_iff.1 ht.symm).1 (piece_ne_nil hp)
    | cons x d' =>
      obtain ⟨e', p'⟩ := x
      obtain ⟨hp', hd'⟩ := reads_first h'
      rw [List.append_nil] at hd'
      have ht : p' ++ Doc.text d' = p ++ Doc.text [] := ht
      obtain ⟨rfl, rfl, hr⟩ := piece_unique hp' hp ht hd' (fun _ _ _ h => by cases h)
      cases h' with
      | plain _ h _ _ => exact absurd ⟨_, ho⟩ h
      | rawStart _ _ => rfl
      | raw _ _ _ hne _ _ =>
        obtain ⟨hc, hd⟩ := List.append_eq_nil_iff.1 hr
        exact absurd hc (hne (by rw [List.append_nil]; exact hd))
  | @raw e p t c d b hp ho h1 h2 h3 hrest ih =>
    subst hb
    intro d' h' ht
    cases d' with
    | nil => exact absurd (List.append_eq_nil_iff.1 ht.symm).1 (piece_ne_nil hp)
    | cons x d' =>
      obtain ⟨e', p'⟩ := x
      obtain ⟨hp', hd'⟩ := reads_first h'
      rw [List.append_nil] at hd'
      have ht : p' ++ Doc.text d' = p ++ Doc.text ((.rawData (.actual c), c) :: d) := ht
      obtain ⟨rfl, rfl, hr⟩ := piece_unique hp' hp ht hd' (by
        intro s c he
        obtain ⟨_, h, -⟩ := ho
        rw [h] at he
        cases he)
      cases h' with
      | plain _ h _ _ => exact absurd ⟨_, ho⟩ h
      | rawStart _ _ =>
        obtain ⟨hc, hd⟩ := List.append_eq_nil_iff.1 hr.symm
        exact absurd hc (h2 (by rw [List.append_nil]; exact hd))
      | @raw _ _ _ c' d' _ _ ho' k1 k2 k3 hrest' =>
        obtain rfl := opensRaw_name ho ho'
        have cut : ∀ {x : Str}, (x ++ [] ≠ [] → ClosesAt t (x ++ [])) → x = [] ∨ ClosesAt t x := by
          intro x h
          simp only [List.append_nil] at h
          by_cases hx : x = []
          · exact .inl hx
          · exact .inr (h hx)
        simp only [List.append_nil] at h1 k1
        have hr : c' ++ Doc.text d' = c ++ Doc.text d := hr
        obtain ⟨rfl, hr'⟩ := first_unique (t := t) hr k1 (cut k3) h1 (cut h3)
        rw [ih rfl hrest' hr']

end Fuser
