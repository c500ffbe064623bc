import Verif.Proof.Contents
import Verif.Proof.Alike

/-!
# Streams of things alike give things alike

A simulation between the machine and itself: names, texts and errors in the two runs are alike, and
so is what the contents give.
-/

namespace Fuser

open Spec

variable {L : Likeness}

/-- Results of pulls alike. -/
inductive LikeRes (L : Likeness) : Res → Res → Prop
  | ev {e f} : LikeEvent L e f → LikeRes L (.ev e) (.ev f)
  | done : LikeRes L .done .done
  | err {e f} : LikeError L e f → LikeRes L (.err e) (.err f)

/-- Collected events alike. -/
inductive LikeCollected (L : Likeness) :
    Except StreamError (List Event) → Except StreamError (List Event) → Prop
  | ok {es fs} : List.Forall₂ (LikeEvent L) es fs → LikeCollected L (.ok es) (.ok fs)
  | error {e f} : LikeError L e f → LikeCollected L (.error e) (.error f)

theorem like_opening {e f : Event} (hL : L.Proper) (h : LikeEvent L e f) {t u : Identifier}
    (hn : L.name t u) : e.isOpeningTagFor t = f.isOpeningTagFor u := by
  cases h <;> first
    | rfl
    | exact like_nameEq hL (by assumption) hn

theorem like_closing {e f : Event} (hL : L.Proper) (h : LikeEvent L e f) {t u : Identifier}
    (hn : L.name t u) : e.isClosingTagFor t = f.isClosingTagFor u := by
  cases h <;> first
    | rfl
    | exact like_nameEq hL (by assumption) hn

/-- Levels that are the same, or errors alike. -/
inductive LikeLevel (L : Likeness) : Except StreamError Nat → Except StreamError Nat → Prop
  | ok {n} : LikeLevel L (.ok n) (.ok n)
  | error {e f} : LikeError L e f → LikeLevel L (.error e) (.error f)

theorem like_level {e f : Event} (h : LikeEvent L e f) (l : Nat) :
    LikeLevel L (levelAdjust l e) (levelAdjust l f) := by
  cases h with
  | closing h =>
    simp only [levelAdjust, Event.openingTagName, Event.closingTagName]
    split
    · exact .error (.unexpectedClosing h)
    · exact .ok
  | _ => exact .ok

/-- Two states alike. -/
inductive Akin (L : Likeness) : Node → Node → Prop
  | dead : Akin L .dead .dead
  | shared : Akin L .shared .shared
  | tmpl {es fs i} : List.Forall₂ (LikeEvent L) es fs → Akin L (.tmpl es i) (.tmpl fs i)
  | fallStart {s s'} : Akin L s s' → Akin L (.fallStart s) (.fallStart s')
  | fallError {e f} : LikeError L e f → Akin L (.fallError e) (.fallError f)
  | fallEmit {s s'} : Akin L s s' → Akin L (.fallEmit s) (.fallEmit s')
  | expandStart {s s'} : Akin L s s' → Akin L (.expandStart s) (.expandStart s')
  | expandEmit {s s'} : Akin L s s' → Akin L (.expandEmit s) (.expandEmit s')
  | expandClose {t u} : L.name t u → Akin L (.expandClose t) (.expandClose u)
  | peek {s s' b b'} : Akin L s s' → LikeFound L b b' → Akin L (.peek s b) (.peek s' b')
  | prepended {rs rs' c c' s s'} : Gives rs c → Gives rs' c' →
      List.Forall₂ (LikeResult L) rs rs' → Akin L s s' →
      Akin L (.combFirst c s) (.combFirst c' s')
  | appended {rs rs' c c' s s'} : Akin L s s' → Gives rs c → Gives rs' c' →
      List.Forall₂ (LikeResult L) rs rs' → Akin L (.combFirst s c) (.combFirst s' c')
  | combSecond {s s'} : Akin L s s' → Akin L (.combSecond s) (.combSecond s')
  | appendedNow {rs rs' c c'} : Gives rs c → Gives rs' c' → List.Forall₂ (LikeResult L) rs rs' →
      Akin L (.combSecond c) (.combSecond c')
  | singleStart {e f s s'} : LikeEvent L e f → Akin L s s' →
      Akin L (.singleStart e s) (.singleStart f s')
  | singleUntil {t u s s' l} : L.name t u → Akin L s s' →
      Akin L (.singleUntil t s l) (.singleUntil u s' l)
  | selScan {src src' s s' d k n l} {b c : Nat → Prog .elem k} : Akin L src src' →
      LikeSelector L s s' → (∀ i, LikeCalls L (b i) (c i)) →
      Akin L (.selScan src s d k b n l) (.selScan src' s' d k c n l)
  | selActive {src src' s s' d k n l st st'} {b c : Nat → Prog .elem k} : Akin L src src' →
      LikeSelector L s s' → (∀ i, LikeCalls L (b i) (c i)) → Akin L st st' →
      Akin L (.selActive src s d k b n l st) (.selActive src' s' d k c n l st')
  | onceScan {src src' s s' d k l} {b c : Prog .elem k} : Akin L src src' →
      LikeSelector L s s' → LikeCalls L b c →
      Akin L (.onceScan src s d k b l) (.onceScan src' s' d k c l)
  | onceActive {src src' st st'} : Akin L src src' → Akin L st st' →
      Akin L (.onceActive src st) (.onceActive src' st')
  | oncePass {src src'} : Akin L src src' → Akin L (.oncePass src) (.oncePass src')
  | contOpen {s s' k} {b c : Prog .gen k} : Akin L s s' → LikeCalls L b c →
      Akin L (.contOpen s k b) (.contOpen s' k c)
  | contContent {src src' st st' t u} : Akin L src src' → Akin L st st' → L.name t u →
      Akin L (.contContent src st t) (.contContent src' st' u)
  | contClose {src src' t u} : Akin L src src' → L.name t u →
      Akin L (.contClose src t) (.contClose src' u)
  | curContent {t u l} : L.name t u → Akin L (.curContent t l) (.curContent u l)
  | attrStart {o o' s s'} : LikeChange L o o' → Akin L s s' →
      Akin L (.attrStart o s) (.attrStart o' s')
  | attrEmit {s s'} : Akin L s s' → Akin L (.attrEmit s) (.attrEmit s')
  | remove {s s'} : Akin L s s' → Akin L (.remove s) (.remove s')
  | repCollect {s s' n k k'} {b c : Nat → Prog k k'} : Akin L s s' →
      (∀ i, LikeCalls L (b i) (c i)) →
      Akin L (.repCollect s n k k' b) (.repCollect s' n k k' c)
  | repNext {es fs i n k k'} {b c : Nat → Prog k k'} : List.Forall₂ (LikeEvent L) es fs →
      (∀ i, LikeCalls L (b i) (c i)) → Akin L (.repNext es i n k k' b) (.repNext fs i n k k' c)
  | repEmit {es fs i n k k' s s'} {b c : Nat → Prog k k'} : List.Forall₂ (LikeEvent L) es fs →
      (∀ i, LikeCalls L (b i) (c i)) → Akin L s s' →
      Akin L (.repEmit es i n k k' b s) (.repEmit fs i n k k' c s')
  | orElseStart {n r r' s s'} : Akin L r r' → Akin L s s' →
      Akin L (.orElseStart n r s) (.orElseStart n r' s')
  | orElseRun {s s'} : Akin L s s' → Akin L (.orElseRun s) (.orElseRun s')
  | applyCollect {s s' g h} : Akin L s s' →
      (∀ t u, LikeTemplate L t u → LikeOutcome L (g t) (h u)) →
      Akin L (.applyCollect s g) (.applyCollect s' h)
  | applyEmit {s s'} : Akin L s s' → Akin L (.applyEmit s) (.applyEmit s')

theorem Akin.build {a k : Kind} {p q : Prog a k} (h : LikeCalls L p q) :
    ∀ {n n' : Node}, Akin L n n' → Akin L (p.build n) (q.build n') := by
  induction h with
  | src => exact id
  | forget _ ih => exact ih
  | apply _ _ ih ih' => exact fun h => ih' (ih h)
  | fallOk _ ih => exact fun h => .fallStart (ih h)
  | fallErr h => exact fun _ => .fallError h
  | select _ hs hb ih _ => exact fun h => .selScan (ih h) hs hb
  | selectOnce _ hs hb ih _ => exact fun h => .onceScan (ih h) hs hb
  | remove _ ih => exact fun h => .remove (ih h)
  | prepend _ hc ih => exact fun h => .prepended (gives_content _) (gives_content _) hc (ih h)
  | append _ hc ih => exact fun h => .appended (ih h) (gives_content _) (gives_content _) hc
  | «repeat» _ hb ih _ => exact fun h => .repCollect (ih h) hb
  | orElse _ _ _ ih ih' ih'' => exact fun h => .orElseStart (ih' (ih h)) (ih'' (ih h))
  | applyTemplate _ hg ih => exact fun h => .applyCollect (ih h) hg
  | contents _ hb ih _ => exact fun h => .contOpen (.expandStart (ih h)) hb
  | attr _ ho ih => exact fun h => .attrStart ho (ih h)

/-- A pull of `n` that gives `p` is matched by one of any state alike. -/
def Mirrored (L : Likeness) (run : Env → Node → Option Pull) (env : Env) (n : Node)
    (p : Pull) : Prop :=
  ∀ env' n', List.Forall₂ (Akin L) env env' → Akin L n n' →
    ∃ r m cells, run env' n' = some (r, m, cells) ∧ LikeRes L p.1 r ∧
      List.Forall₂ (Akin L) p.2.2 cells ∧ Akin L p.2.1 m

/-- The same for collecting. -/
def MirroredCollect (L : Likeness) (env : Env) (n : Node)
    (p : Except StreamError (List Event) × Env) : Prop :=
  ∀ env' n', List.Forall₂ (Akin L) env env' → Akin L n n' →
    ∃ r cells, collect env' n' = some (r, cells) ∧ LikeCollected L p.1 r ∧
      List.Forall₂ (Akin L) p.2 cells

theorem bind_some_of {α β : Type} {x : Option α} {g : α → Option β} {P : Option β → Prop}
    (a : α) (h : x = some a) (hp : P (g a)) : P (x.bind g) := by
  rw [h]
  exact hp

local macro "alike" : tactic => `(tactic| first
  | exact .done
  | exact .ev .noop
  | exact .ev (by assumption)
  | exact .err (by assumption)
  | exact .err (.expectedOpening .none)
  | exact .err (.expectedOpening (.some (by assumption)))
  | exact .err (.expectedClosing .none (by assumption))
  | exact .err (.expectedClosing (.some (by assumption)) (by assumption))
  | exact .ev (.opening (by assumption) (by assumption))
  | exact .ev (.closing (by assumption)))

theorem like_get {es fs : List Event} (h : List.Forall₂ (LikeEvent L) es fs) (i : Nat) :
    Option.Rel (LikeEvent L) es[i]? fs[i]? := by
  induction h generalizing i with
  | nil => exact .none
  | cons h _ ih =>
    cases i with
    | zero => exact .some h
    | succ i => simpa using ih i

set_option maxHeartbeats 2000000 in
theorem machine_akin (hL : L.Proper) :
    (∀ env n p, next env n = some p → Mirrored L next env n p ∧
      ∀ r n', contentStep n = some (r, n') → p = (r, n', env)) ∧
    (∀ env n p, collect env n = some p → MirroredCollect L env n p) ∧
    (∀ env n p, nextSkipNoop env n = some p → Mirrored L nextSkipNoop env n p ∧
      ∀ rs, Gives rs n → Pulled env p rs) ∧
    (∀ env n p, drain env n = some p → Mirrored L drain env n p) := by
  refine next.mutual_partial_correctness
    (fun env n p => Mirrored L next env n p ∧
      ∀ r n', contentStep n = some (r, n') → p = (r, n', env))
    (MirroredCollect L)
    (fun env n p => Mirrored L nextSkipNoop env n p ∧ ∀ rs, Gives rs n → Pulled env p rs)
    (Mirrored L drain) ?_ ?_ ?_ ?_
  · intro next' collect skip drain h1 h2 h3 h4 env n p h
    constructor
    · intro env' n' henv hal
      cases hal
      case dead => cases h; exact ⟨_, _, _, by rw [next], .done, henv, .dead⟩
      case tmpl es fs i hes =>
        rw [next.eq_def]
        have hrel : Option.Rel (LikeEvent L) es[i]? fs[i]? := like_get hes i
        cases hi : es[i]? <;> cases hj : fs[i]? <;> rw [hi, hj] at hrel <;> cases hrel <;>
          simp only [hi, hj] at h ⊢ <;> cases h
        · exact ⟨_, _, _, rfl, .done, henv, .tmpl hes⟩
        · exact ⟨_, _, _, rfl, .ev (by assumption), henv, .tmpl hes⟩
      case fallStart hs => cases h; exact ⟨_, _, _, by rw [next], .ev .noop, henv, .fallEmit hs⟩
      case fallError he => cases h; exact ⟨_, _, _, by rw [next], .err he, henv, .dead⟩
      case expandClose hn => cases h; exact ⟨_, _, _, by rw [next], .ev (.closing hn), henv, .dead⟩
      case singleStart e f s s' hev hs =>
        rw [next.eq_def]
        cases hev <;> cases h <;> first
          | exact ⟨_, _, _, rfl, .ev (.opening (by assumption) (by assumption)), henv,
              .singleUntil (by assumption) hs⟩
          | exact ⟨_, _, _, rfl, .ev (.selfClosed (by assumption) (by assumption)), henv, .dead⟩
          | exact ⟨_, _, _, rfl, .ev (.void (by assumption) (by assumption)), henv, .dead⟩
          | exact ⟨_, _, _, rfl, .err (.expectedOpening (.some (by constructor <;> assumption))),
              henv, .dead⟩
          | exact ⟨_, _, _, rfl, .err (.expectedOpening (.some .noop)), henv, .dead⟩
      case shared =>
        cases henv with
        | nil => cases h
        | cons hcell henv =>
          simp only [bind, Option.bind_eq_some_iff] at h
          obtain ⟨⟨r, cell, rest⟩, hx, h⟩ := h
          cases h
          obtain ⟨r', m, cells, hrun, hr, he, hm⟩ := (h1 _ _ _ hx).1 _ _ henv hcell
          rw [next.eq_def]
          simp only [bind, hrun, Option.bind_some]
          exact ⟨_, _, _, rfl, hr, .cons hm he, .shared⟩
      case fallEmit hs =>
        simp only [bind, Option.bind_eq_some_iff] at h
        obtain ⟨⟨r, s₁, env₁⟩, hx, h⟩ := h
        obtain ⟨r', m, cells, hrun, hr, he, hm⟩ := (h1 _ _ _ hx).1 _ _ henv hs
        rw [next.eq_def]
        simp only [bind, hrun, Option.bind_some]
        cases hr <;> cases h
        · exact ⟨_, _, _, rfl, by alike, he, .fallEmit hm⟩
        all_goals exact ⟨_, _, _, rfl, by alike, he, .dead⟩
      case expandEmit hs =>
        simp only [bind, Option.bind_eq_some_iff] at h
        obtain ⟨⟨r, s₁, env₁⟩, hx, h⟩ := h
        obtain ⟨r', m, cells, hrun, hr, he, hm⟩ := (h1 _ _ _ hx).1 _ _ henv hs
        rw [next.eq_def]
        simp only [bind, hrun, Option.bind_some]
        cases hr <;> cases h
        · exact ⟨_, _, _, rfl, by alike, he, .expandEmit hm⟩
        all_goals exact ⟨_, _, _, rfl, by alike, he, .dead⟩
      case attrEmit hs =>
        simp only [bind, Option.bind_eq_some_iff] at h
        obtain ⟨⟨r, s₁, env₁⟩, hx, h⟩ := h
        obtain ⟨r', m, cells, hrun, hr, he, hm⟩ := (h1 _ _ _ hx).1 _ _ henv hs
        rw [next.eq_def]
        simp only [bind, hrun, Option.bind_some]
        cases hr <;> cases h
        · exact ⟨_, _, _, rfl, by alike, he, .attrEmit hm⟩
        all_goals exact ⟨_, _, _, rfl, by alike, he, .dead⟩
      case orElseRun hs =>
        simp only [bind, Option.bind_eq_some_iff] at h
        obtain ⟨⟨r, s₁, env₁⟩, hx, h⟩ := h
        obtain ⟨r', m, cells, hrun, hr, he, hm⟩ := (h1 _ _ _ hx).1 _ _ henv hs
        rw [next.eq_def]
        simp only [bind, hrun, Option.bind_some]
        cases hr <;> cases h
        · exact ⟨_, _, _, rfl, by alike, he, .orElseRun hm⟩
        all_goals exact ⟨_, _, _, rfl, by alike, he, .dead⟩
      case applyEmit hs =>
        simp only [bind, Option.bind_eq_some_iff] at h
        obtain ⟨⟨r, s₁, env₁⟩, hx, h⟩ := h
        obtain ⟨r', m, cells, hrun, hr, he, hm⟩ := (h1 _ _ _ hx).1 _ _ henv hs
        rw [next.eq_def]
        simp only [bind, hrun, Option.bind_some]
        cases hr <;> cases h
        · exact ⟨_, _, _, rfl, by alike, he, .applyEmit hm⟩
        all_goals exact ⟨_, _, _, rfl, by alike, he, .dead⟩
      case oncePass hs =>
        simp only [bind, Option.bind_eq_some_iff] at h
        obtain ⟨⟨r, s₁, env₁⟩, hx, h⟩ := h
        obtain ⟨r', m, cells, hrun, hr, he, hm⟩ := (h1 _ _ _ hx).1 _ _ henv hs
        rw [next.eq_def]
        simp only [bind, hrun, Option.bind_some]
        cases hr <;> cases h
        · exact ⟨_, _, _, rfl, by alike, he, .oncePass hm⟩
        all_goals exact ⟨_, _, _, rfl, by alike, he, .dead⟩
      case singleUntil t u s s' l hn hs =>
        simp only [bind, Option.bind_eq_some_iff] at h
        obtain ⟨⟨r, s₁, env₁⟩, hx, h⟩ := h
        obtain ⟨r', m, cells, hrun, hr, he, hm⟩ := (h1 _ _ _ hx).1 _ _ henv hs
        rw [next.eq_def]
        simp only [bind, hrun, Option.bind_some]
        cases hr with
        | @ev e f hev =>
          cases h
          refine ⟨_, _, _, rfl, .ev hev, he, ?_⟩
          simp only [singleUntilStep, like_opening hL hev hn, like_closing hL hev hn]
          repeat' split
          all_goals first
            | exact .singleUntil hn hm
            | exact .dead
        | done => cases h; exact ⟨_, _, _, rfl, by alike, he, .dead⟩
        | err he' => cases h; exact ⟨_, _, _, rfl, by alike, he, .dead⟩
      case repEmit hes hb hs =>
        simp only [bind, Option.bind_eq_some_iff] at h
        obtain ⟨⟨r, s₁, env₁⟩, hx, h⟩ := h
        obtain ⟨r', m, cells, hrun, hr, he, hm⟩ := (h1 _ _ _ hx).1 _ _ henv hs
        rw [next.eq_def]
        simp only [bind, hrun, Option.bind_some]
        cases hr <;> cases h
        · exact ⟨_, _, _, rfl, by alike, he, .repEmit hes hb hm⟩
        · exact ⟨_, _, _, rfl, by alike, he, .repNext hes hb⟩
        · exact ⟨_, _, _, rfl, by alike, he, .dead⟩
      case expandStart hs =>
        simp only [bind, Option.bind_eq_some_iff] at h
        obtain ⟨⟨r, s₁, env₁⟩, hx, h⟩ := h
        obtain ⟨r', m, cells, hrun, hr, he, hm⟩ := (h3 _ _ _ hx).1 _ _ henv hs
        rw [next.eq_def]
        simp only [bind, hrun, Option.bind_some]
        cases hr with
        | ev hev =>
          have hev' := hev
          cases hev <;> cases h <;> first
            | exact ⟨_, _, _, rfl, .ev hev', he, .expandEmit hm⟩
            | exact ⟨_, _, _, rfl, by alike, he, .expandClose (by assumption)⟩
            | exact ⟨_, _, _, rfl, .ev hev', he, .dead⟩
            | exact ⟨_, _, _, rfl, by alike, he, .dead⟩
        | done => cases h; exact ⟨_, _, _, rfl, by alike, he, .dead⟩
        | err he' => cases h; exact ⟨_, _, _, rfl, by alike, he, .dead⟩
      case attrStart o o' s s' ho hs =>
        simp only [bind, Option.bind_eq_some_iff] at h
        obtain ⟨⟨r, s₁, env₁⟩, hx, h⟩ := h
        obtain ⟨r', m, cells, hrun, hr, he, hm⟩ := (h3 _ _ _ hx).1 _ _ henv hs
        rw [next.eq_def]
        simp only [bind, hrun, Option.bind_some]
        cases hr with
        | ev hev =>
          have hev' := hev
          cases hev <;> cases h <;> first
            | exact ⟨_, _, _, rfl, .ev (.opening (by assumption) (like_change hL ho (by assumption))),
                he, .attrEmit hm⟩
            | exact ⟨_, _, _, rfl,
                .ev (.selfClosed (by assumption) (like_change hL ho (by assumption))), he, .dead⟩
            | exact ⟨_, _, _, rfl, .ev (.void (by assumption) (like_change hL ho (by assumption))),
                he, .dead⟩
            | exact ⟨_, _, _, rfl, .err (.expectedOpening (.some hev')), he, .dead⟩
        | done => cases h; exact ⟨_, _, _, rfl, by alike, he, .dead⟩
        | err he' => cases h; exact ⟨_, _, _, rfl, by alike, he, .dead⟩
      case peek s s' b b' hs hb =>
        rw [next.eq_def]
        cases hb with
        | some hev => cases h; exact ⟨_, _, _, rfl, .ev hev, henv, .peek hs .none⟩
        | none =>
          simp only [bind, Option.bind_eq_some_iff] at h
          obtain ⟨⟨r, s₁, env₁⟩, hx, h⟩ := h
          obtain ⟨r', m, cells, hrun, hr, he, hm⟩ := (h3 _ _ _ hx).1 _ _ henv hs
          simp only [bind, hrun, Option.bind_some]
          cases h
          exact ⟨_, _, _, rfl, hr, he, .peek hm .none⟩
      case combSecond hs =>
        simp only [bind, Option.bind_eq_some_iff] at h
        obtain ⟨⟨r, s₁, env₁⟩, hx, h⟩ := h
        obtain ⟨r', m, cells, hrun, hr, he, hm⟩ := (h3 _ _ _ hx).1 _ _ henv hs
        rw [next.eq_def]
        simp only [bind, hrun, Option.bind_some]
        cases hr <;> cases h
        · exact ⟨_, _, _, rfl, by alike, he, .combSecond hm⟩
        all_goals exact ⟨_, _, _, rfl, by alike, he, .dead⟩
      case appendedNow hc hc' hrs =>
        simp only [bind, Option.bind_eq_some_iff] at h
        obtain ⟨⟨r, s₁, env₁⟩, hx, h⟩ := h
        have hp := (h3 _ _ _ hx).2 _ hc
        obtain ⟨⟨r', s', cells⟩, hrun, hp'⟩ := hc'.skip env'
        rw [next.eq_def]
        simp only [bind, hrun, Option.bind_some]
        cases hrs with
        | nil =>
          obtain ⟨rfl, rfl⟩ := hp
          obtain ⟨rfl, rfl⟩ := hp'
          cases h
          exact ⟨_, _, _, rfl, .done, henv, .dead⟩
        | cons hr hrs =>
          cases hr with
          | error hr =>
            obtain ⟨rfl, rfl⟩ := hp
            obtain ⟨rfl, rfl⟩ := hp'
            cases h
            exact ⟨_, _, _, rfl, .err hr, henv, .dead⟩
          | ok hr =>
            obtain ⟨rfl, hg, rfl⟩ := hp
            obtain ⟨rfl, hg', rfl⟩ := hp'
            cases h
            exact ⟨_, _, _, rfl, .ev hr, henv, .appendedNow hg hg' hrs⟩
      case prepended hc hc' hrs hs =>
        simp only [bind, Option.bind_eq_some_iff] at h
        obtain ⟨⟨r, s₁, env₁⟩, hx, h⟩ := h
        have hp := (h3 _ _ _ hx).2 _ hc
        obtain ⟨⟨r', s', cells⟩, hrun, hp'⟩ := hc'.skip env'
        rw [next.eq_def]
        simp only [bind, hrun, Option.bind_some]
        cases hrs with
        | nil =>
          obtain ⟨rfl, rfl⟩ := hp
          obtain ⟨rfl, rfl⟩ := hp'
          cases h
          exact ⟨_, _, _, rfl, .ev .noop, henv, .combSecond hs⟩
        | cons hr hrs =>
          cases hr with
          | error hr =>
            obtain ⟨rfl, rfl⟩ := hp
            obtain ⟨rfl, rfl⟩ := hp'
            cases h
            exact ⟨_, _, _, rfl, .err hr, henv, .dead⟩
          | ok hr =>
            obtain ⟨rfl, hg, rfl⟩ := hp
            obtain ⟨rfl, hg', rfl⟩ := hp'
            cases h
            exact ⟨_, _, _, rfl, .ev hr, henv, .prepended hg hg' hrs hs⟩
      case appended hs hc hc' hrs =>
        simp only [bind, Option.bind_eq_some_iff] at h
        obtain ⟨⟨r, s₁, env₁⟩, hx, h⟩ := h
        obtain ⟨r', m, cells, hrun, hr, he, hm⟩ := (h3 _ _ _ hx).1 _ _ henv hs
        rw [next.eq_def]
        simp only [bind, hrun, Option.bind_some]
        cases hr <;> cases h
        · exact ⟨_, _, _, rfl, by alike, he, .appended hm hc hc' hrs⟩
        · exact ⟨_, _, _, rfl, by alike, he, .appendedNow hc hc' hrs⟩
        · exact ⟨_, _, _, rfl, by alike, he, .dead⟩
      case remove hs =>
        simp only [bind, Option.bind_eq_some_iff] at h
        obtain ⟨⟨r, s₁, env₁⟩, hx, h⟩ := h
        obtain ⟨r', m, cells, hrun, hr, he, hm⟩ := h4 _ _ _ hx _ _ henv hs
        rw [next.eq_def]
        simp only [bind, hrun, Option.bind_some]
        cases h
        exact ⟨_, _, _, rfl, hr, he, .remove hm⟩
      case repCollect hs hb =>
        simp only [bind, Option.bind_eq_some_iff] at h
        obtain ⟨⟨r, env₁⟩, hx, h⟩ := h
        obtain ⟨r', cells, hrun, hr, he⟩ := h2 _ _ _ hx _ _ henv hs
        rw [next.eq_def]
        simp only [bind, hrun, Option.bind_some]
        cases hr with
        | ok hes => cases h; exact ⟨_, _, _, rfl, .ev .noop, he, .repNext hes hb⟩
        | error he' => cases h; exact ⟨_, _, _, rfl, .err he', he, .dead⟩
      case applyCollect s s' g g' hs hg =>
        simp only [bind, Option.bind_eq_some_iff] at h
        obtain ⟨⟨r, env₁⟩, hx, h⟩ := h
        obtain ⟨r', cells, hrun, hr, he⟩ := h2 _ _ _ hx _ _ henv hs
        rw [next.eq_def]
        simp only [bind, hrun, Option.bind_some]
        cases hr with
        | error he' => cases h; exact ⟨_, _, _, rfl, .err he', he, .dead⟩
        | @ok es fs hes =>
          have hgo := hg ⟨es⟩ ⟨fs⟩ hes
          simp only at h ⊢
          generalize g ⟨es⟩ = x at h hgo
          generalize g' ⟨fs⟩ = y at hgo ⊢
          cases hgo with
          | ok hl => cases h; exact ⟨_, _, _, rfl, .ev .noop, he, .applyEmit (.tmpl hl)⟩
          | error he' => cases h; exact ⟨_, _, _, rfl, .err he', he, .dead⟩
      case repNext es fs i n k k' b c hes hb =>
        rw [next.eq_def]
        simp only at h ⊢
        split at h
        next hlt =>
          cases h
          rw [if_pos hlt]
          exact ⟨_, _, _, rfl, .ev .noop, henv, .repEmit hes hb (.build (hb i) (.tmpl hes))⟩
        next hlt =>
          cases h
          rw [if_neg hlt]
          exact ⟨_, _, _, rfl, .done, henv, .dead⟩
      case orElseStart n r r' s s' hr hs =>
        rw [next.eq_def]
        simp only at h ⊢
        split at h
        next hlt => cases h; rw [if_pos hlt]; exact ⟨_, _, _, rfl, .ev .noop, henv, .orElseRun hr⟩
        next hlt => cases h; rw [if_neg hlt]; exact ⟨_, _, _, rfl, .ev .noop, henv, .orElseRun hs⟩
      case selScan src src' s s' direct k count level b c hs hsel hb =>
        simp only [bind, Option.bind_eq_some_iff] at h
        obtain ⟨⟨r, s₁, env₁⟩, hx, h⟩ := h
        obtain ⟨r', m, cells, hrun, hr, he, hm⟩ := (h3 _ _ _ hx).1 _ _ henv hs
        rw [next.eq_def]
        simp only [bind, hrun, Option.bind_some]
        cases hr with
        | @ev e f hev =>
          simp only [← hsel e f hev] at h ⊢
          split at h
          next hi =>
            cases h
            rw [if_pos hi]
            exact ⟨_, _, _, rfl, .ev .noop, he,
              .selActive hm hsel hb (.build (hb count) (.singleStart hev .shared))⟩
          next hi =>
            rw [if_neg hi]
            have hl := like_level hev level
            generalize levelAdjust level e = x at h hl
            generalize levelAdjust level f = y at hl ⊢
            cases hl with
            | ok => cases h; exact ⟨_, _, _, rfl, .ev hev, he, .selScan hm hsel hb⟩
            | error he' => cases h; exact ⟨_, _, _, rfl, .err he', he, .dead⟩
        | done => cases h; exact ⟨_, _, _, rfl, by alike, he, .dead⟩
        | err he' => cases h; exact ⟨_, _, _, rfl, by alike, he, .dead⟩
      case onceScan src src' s s' direct k level b c hs hsel hb =>
        simp only [bind, Option.bind_eq_some_iff] at h
        obtain ⟨⟨r, s₁, env₁⟩, hx, h⟩ := h
        obtain ⟨r', m, cells, hrun, hr, he, hm⟩ := (h3 _ _ _ hx).1 _ _ henv hs
        rw [next.eq_def]
        simp only [bind, hrun, Option.bind_some]
        cases hr with
        | @ev e f hev =>
          simp only [← hsel e f hev] at h ⊢
          split at h
          next hi =>
            cases h
            rw [if_pos hi]
            exact ⟨_, _, _, rfl, .ev .noop, he, .onceActive hm (.build hb (.singleStart hev .shared))⟩
          next hi =>
            rw [if_neg hi]
            have hl := like_level hev level
            generalize levelAdjust level e = x at h hl
            generalize levelAdjust level f = y at hl ⊢
            cases hl with
            | ok => cases h; exact ⟨_, _, _, rfl, .ev hev, he, .onceScan hm hsel hb⟩
            | error he' => cases h; exact ⟨_, _, _, rfl, .err he', he, .dead⟩
        | done => cases h; exact ⟨_, _, _, rfl, by alike, he, .dead⟩
        | err he' => cases h; exact ⟨_, _, _, rfl, by alike, he, .dead⟩
      case selActive hs hsel hb hst =>
        simp only [bind, Option.bind_eq_some_iff] at h
        obtain ⟨⟨r, s₁, env₁⟩, hx, h⟩ := h
        obtain ⟨r', m, cells, hrun, hr, he, hm⟩ := (h1 _ _ _ hx).1 _ _ (.cons hs henv) hst
        rw [next.eq_def]
        simp only [bind, hrun, Option.bind_some]
        cases he with
        | nil => cases h
        | cons hc he =>
          cases hr <;> cases h
          · exact ⟨_, _, _, rfl, by alike, he, .selActive hc hsel hb hm⟩
          · exact ⟨_, _, _, rfl, by alike, he, .selScan hc hsel hb⟩
          · exact ⟨_, _, _, rfl, by alike, he, .dead⟩
      case onceActive hs hst =>
        simp only [bind, Option.bind_eq_some_iff] at h
        obtain ⟨⟨r, s₁, env₁⟩, hx, h⟩ := h
        obtain ⟨r', m, cells, hrun, hr, he, hm⟩ := (h1 _ _ _ hx).1 _ _ (.cons hs henv) hst
        rw [next.eq_def]
        simp only [bind, hrun, Option.bind_some]
        cases he with
        | nil => cases h
        | cons hc he =>
          cases hr <;> cases h
          · exact ⟨_, _, _, rfl, by alike, he, .onceActive hc hm⟩
          · exact ⟨_, _, _, rfl, by alike, he, .oncePass hc⟩
          · exact ⟨_, _, _, rfl, by alike, he, .dead⟩
      case contContent hs hst hn =>
        simp only [bind, Option.bind_eq_some_iff] at h
        obtain ⟨⟨r, s₁, env₁⟩, hx, h⟩ := h
        obtain ⟨r', m, cells, hrun, hr, he, hm⟩ := (h1 _ _ _ hx).1 _ _ (.cons hs henv) hst
        rw [next.eq_def]
        simp only [bind, hrun, Option.bind_some]
        cases he with
        | nil => cases h
        | cons hc he =>
          cases hr <;> cases h
          · exact ⟨_, _, _, rfl, by alike, he, .contContent hc hm hn⟩
          · exact ⟨_, _, _, rfl, by alike, he, .contClose hc hn⟩
          · exact ⟨_, _, _, rfl, by alike, he, .dead⟩
      case contClose hs hn =>
        simp only [bind, Option.bind_eq_some_iff] at h
        obtain ⟨⟨r, s₁, env₁⟩, hx, h⟩ := h
        obtain ⟨r', m, cells, hrun, hr, he, hm⟩ := (h3 _ _ _ hx).1 _ _ henv hs
        rw [next.eq_def]
        simp only [bind, hrun, Option.bind_some]
        cases hr with
        | ev hev =>
          have hev' := hev
          cases hev
          case closing hc =>
            simp only [like_nameEq hL hc hn] at h ⊢
            split at h
            next hi => cases h; rw [if_pos hi]; exact ⟨_, _, _, rfl, .ev hev', he, .dead⟩
            next hi =>
              cases h
              rw [if_neg hi]
              exact ⟨_, _, _, rfl, .err (.unexpectedClosing hc), he, .dead⟩
          all_goals
            cases h
            exact ⟨_, _, _, rfl, .err (.expectedClosing (.some hev') hn), he, .dead⟩
        | done => cases h; exact ⟨_, _, _, rfl, .err (.expectedClosing .none hn), he, .dead⟩
        | err he' => cases h; exact ⟨_, _, _, rfl, by alike, he, .dead⟩
      case contOpen s s' k b c hs hb =>
        simp only [bind, Option.bind_eq_some_iff] at h
        obtain ⟨⟨r, s₁, env₁⟩, hx, h⟩ := h
        obtain ⟨r', m, cells, hrun, hr, he, hm⟩ := (h3 _ _ _ hx).1 _ _ henv hs
        rw [next.eq_def]
        simp only [bind, hrun, Option.bind_some]
        cases hr with
        | ev hev =>
          have hev' := hev
          cases hev
          case opening hn ha =>
            cases h
            exact ⟨_, _, _, rfl, .ev hev', he,
              .contContent (.peek hm .none) (.build hb (.curContent hn)) hn⟩
          case void hn ha => cases h; exact ⟨_, _, _, rfl, .ev hev', he, .dead⟩
          all_goals
            cases h
            exact ⟨_, _, _, rfl, .err (.expectedOpening (.some hev')), he, .dead⟩
        | done => cases h; exact ⟨_, _, _, rfl, by alike, he, .dead⟩
        | err he' => cases h; exact ⟨_, _, _, rfl, by alike, he, .dead⟩
      case curContent tag tag' level hn =>
        cases henv with
        | nil => cases h
        | cons hcell henv =>
          cases hcell
          case peek s s' b b' hs hb =>
            simp only [bind] at h
            rw [Option.bind_eq_some_iff] at h
            obtain ⟨⟨r, s₁, b₁, env₁⟩, hx, h⟩ := h
            rename_i env env'
            have phase : ∃ r' s₁' b₁' cells, (if level = 0 then
                  match b' with
                  | some e => some (Res.ev e, s', some e, env')
                  | none => (nextSkipNoop env' s').bind fun (r, s, env) =>
                    match r with
                    | .ev e => some (Res.ev e, s, some e, env)
                    | r => some (r, s, none, env)
                else some (Res.ev .noop, s', b', env')) = some (r', s₁', b₁', cells) ∧
                LikeRes L r r' ∧ LikeFound L b₁ b₁' ∧ Akin L s₁ s₁' ∧
                List.Forall₂ (Akin L) env₁ cells := by
              by_cases hl : level = 0
              · rw [if_pos hl] at hx ⊢
                cases hb with
                | some hev => cases hx; exact ⟨_, _, _, _, rfl, .ev hev, .some hev, hs, henv⟩
                | none =>
                  simp only [Option.bind_eq_some_iff] at hx
                  obtain ⟨⟨r', s₂, env₂⟩, hy, hx⟩ := hx
                  obtain ⟨r'', m, cells, hrun, hr, he, hm⟩ := (h3 _ _ _ hy).1 _ _ henv hs
                  simp only [hrun, Option.bind_some]
                  cases hr with
                  | ev hev => cases hx; exact ⟨_, _, _, _, rfl, .ev hev, .some hev, hm, he⟩
                  | done => cases hx; exact ⟨_, _, _, _, rfl, .done, .none, hm, he⟩
                  | err he' => cases hx; exact ⟨_, _, _, _, rfl, .err he', .none, hm, he⟩
              · rw [if_neg hl] at hx ⊢
                cases hx
                exact ⟨_, _, _, _, rfl, .ev .noop, hb, hs, henv⟩
            obtain ⟨r', s₁', b₁', cells, hrun, hr, hb₁, hs₁, he₁⟩ := phase
            rw [next.eq_def]
            simp only [bind]
            refine bind_some_of (P := fun x => ∃ r m cells, x = some (r, m, cells) ∧
              LikeRes L p.1 r ∧ List.Forall₂ (Akin L) p.2.2 cells ∧ Akin L p.2.1 m) _ hrun ?_
            simp only at h ⊢
            cases hr with
            | done =>
              cases h
              exact ⟨_, _, _, rfl, .err (.expectedClosing .none hn), .cons (.peek hs₁ hb₁) he₁, .dead⟩
            | err he' =>
              cases h
              exact ⟨_, _, _, rfl, .err he', .cons (.peek hs₁ hb₁) he₁, .dead⟩
            | ev hev =>
              simp only [like_closing hL hev hn] at h ⊢
              split at h
              next hi =>
                cases h
                rw [if_pos hi]
                exact ⟨_, _, _, rfl, .done, .cons (.peek hs₁ hb₁) he₁, .dead⟩
              next hi =>
                rw [if_neg hi]
                rw [Option.bind_eq_some_iff] at h
                obtain ⟨⟨r, cell, env₂⟩, hy, h⟩ := h
                obtain ⟨r₂, m, cells₂, hrun₂, hr₂, he₂, hm⟩ :=
                  (h1 _ _ _ hy).1 _ _ he₁ (.peek hs₁ hb₁)
                simp only [hrun₂, Option.bind_some]
                cases hr₂ with
                | done =>
                  cases h
                  exact ⟨_, _, _, rfl, .err (.expectedClosing .none hn), .cons hm he₂, .dead⟩
                | err he' => cases h; exact ⟨_, _, _, rfl, .err he', .cons hm he₂, .dead⟩
                | @ev e f hev₂ =>
                  simp only at h ⊢
                  have hl := like_level hev₂ level
                  generalize levelAdjust level e = x at h hl
                  generalize levelAdjust level f = y at hl ⊢
                  cases hl with
                  | ok => cases h; exact ⟨_, _, _, rfl, .ev hev₂, .cons hm he₂, .curContent hn⟩
                  | error he' =>
                    cases h
                    exact ⟨_, _, _, rfl, .err (.expectedClosing .none hn), .cons hm he₂, .dead⟩
          all_goals cases h
    · intro r n' hstep
      cases n
      case fallEmit s =>
        simp only [contentStep] at hstep
        simp only [bind, Option.bind_eq_some_iff] at h
        obtain ⟨⟨r₁, s₁, env₁⟩, hx, h⟩ := h
        cases hc : contentStep s with
        | none => rw [hc] at hstep; cases hstep
        | some q =>
          obtain ⟨r₂, s₂⟩ := q
          have := (h1 _ _ _ hx).2 _ _ hc
          cases this
          rw [hc] at hstep
          cases r₁ <;> cases hstep <;> cases h <;> rfl
      case tmpl es i =>
        simp only [contentStep] at hstep
        cases hi : es[i]? <;> simp only [hi] at h hstep <;> cases h <;> cases hstep <;> rfl
      case once d => cases d <;> cases h <;> cases hstep <;> rfl
      case script rs =>
        rcases rs with _ | ⟨_ | _ | _, _⟩ <;> cases h <;> cases hstep <;> rfl
      all_goals first
        | (cases hstep; done)
        | (cases h; cases hstep; rfl)
  · intro collect' skip h2 h3 env n p h env' n' henv hal
    simp only [bind, Option.bind_eq_some_iff] at h
    obtain ⟨⟨r, s₁, env₁⟩, hx, h⟩ := h
    obtain ⟨r', m, cells, hrun, hr, he, hm⟩ := (h3 _ _ _ hx).1 _ _ henv hal
    rw [collect]
    simp only [bind, hrun, Option.bind_some]
    cases hr with
    | done => cases h; exact ⟨_, _, rfl, .ok .nil, he⟩
    | err he' => cases h; exact ⟨_, _, rfl, .error he', he⟩
    | ev hev =>
      simp only [Option.bind_eq_some_iff] at h
      obtain ⟨⟨r, env₂⟩, hy, h⟩ := h
      obtain ⟨r₂, cells₂, hrun₂, hr₂, he₂⟩ := h2 _ _ _ hy _ _ he hm
      simp only [hrun₂, Option.bind_some]
      cases hr₂ with
      | ok hes => cases h; exact ⟨_, _, rfl, .ok (.cons hev hes), he₂⟩
      | error he' => cases h; exact ⟨_, _, rfl, .error he', he₂⟩
  · intro next' skip h1 h3 env n p h
    simp only [bind, Option.bind_eq_some_iff] at h
    obtain ⟨⟨r, s₁, env₁⟩, hx, h⟩ := h
    constructor
    · intro env' n' henv hal
      obtain ⟨r', m, cells, hrun, hr, he, hm⟩ := (h1 _ _ _ hx).1 _ _ henv hal
      rw [nextSkipNoop]
      simp only [bind, hrun, Option.bind_some]
      cases hr with
      | ev hev =>
        have hev' := hev
        cases hev
        case noop => exact (h3 _ _ _ h).1 _ _ he hm
        all_goals cases h; exact ⟨_, _, _, rfl, .ev hev', he, hm⟩
      | done => cases h; exact ⟨_, _, _, rfl, .done, he, hm⟩
      | err he' => cases h; exact ⟨_, _, _, rfl, .err he', he, hm⟩
    · intro rs hg
      cases hg with
      | @ev n n' e rs hstep hne hg =>
        cases (h1 _ _ _ hx).2 _ _ hstep
        cases e <;> first
          | exact absurd rfl hne
          | (cases h; exact ⟨rfl, hg, rfl⟩)
      | noop hstep hg =>
        cases (h1 _ _ _ hx).2 _ _ hstep
        exact (h3 _ _ _ h).2 _ hg
      | done hstep => cases (h1 _ _ _ hx).2 _ _ hstep; cases h; exact ⟨rfl, rfl⟩
      | err hstep => cases (h1 _ _ _ hx).2 _ _ hstep; cases h; exact ⟨rfl, rfl⟩
  · intro next' drain' h1 h4 env n p h env' n' henv hal
    simp only [bind, Option.bind_eq_some_iff] at h
    obtain ⟨⟨r, s₁, env₁⟩, hx, h⟩ := h
    obtain ⟨r', m, cells, hrun, hr, he, hm⟩ := (h1 _ _ _ hx).1 _ _ henv hal
    rw [drain]
    simp only [bind, hrun, Option.bind_some]
    cases hr with
    | done => cases h; exact ⟨_, _, _, rfl, .done, he, hm⟩
    | err he' => cases h; exact ⟨_, _, _, rfl, .err he', he, hm⟩
    | ev hev => exact h4 _ _ _ h _ _ he hm

theorem like_transform (hL : L.Proper) {k : Kind} {p q : Prog .gen k} (h : LikeCalls L p q)
    {t u : Template} (hl : LikeTemplate L t u) {r : Except StreamError Template}
    (hr : t.transform p = some r) : ∃ r', u.transform q = some r' ∧ LikeOutcome L r r' := by
  simp only [Template.transform, bind, Option.bind_eq_some_iff] at hr
  obtain ⟨⟨es, env⟩, hc, hr⟩ := hr
  obtain ⟨r', cells, hrun, hres, -⟩ := (machine_akin hL).2.1 _ _ _ hc [] _ .nil
    (Akin.build h (n := t.toStream) (n' := u.toStream) (.tmpl hl))
  rw [Template.transform]
  simp only [bind, hrun, Option.bind_some]
  cases hres with
  | ok hes => cases hr; exact ⟨_, rfl, .ok hes⟩
  | error he => cases hr; exact ⟨_, rfl, .error he⟩

end Fuser
