import Verif.Spec.Keep
import Verif.Proof.Transform

/-!
# What every event of a stream has

An invariant of the machine: if the events, contents and functions that a stream holds have a
property, then so do the events it gives.
-/

namespace Fuser

open Spec

/-- The events that the stream holds, up to its end, have property `P`. With `f`, also after the
end. -/
inductive Has (P : Event → Prop) : Bool → Node → Prop
  | dead : Has P true .dead
  | shared : Has P true .shared
  | tmpl {f es i} : (∀ e ∈ es, P e) → Has P f (.tmpl es i)
  | once {f x} : (∀ d, x = some d → P (.data d)) → Has P f (.once x)
  | script {rs} : (∀ e, .ok e ∈ untilEnd rs → P e) → Has P false (.script rs)
  | fallStart {f g s} : Has P f s → Has P g (.fallStart s)
  | fallError {f e} : Has P f (.fallError e)
  | fallEmit {f g s} : Has P f s → Has P g (.fallEmit s)
  | expandStart {s} : Has P true s → Has P true (.expandStart s)
  | expandEmit {s} : Has P true s → Has P true (.expandEmit s)
  | expandClose {t} : P (.closingTag t) → Has P true (.expandClose t)
  | peek {s x} : Has P true s → (∀ e, x = some e → P e) → Has P true (.peek s x)
  | combFirst {f g s t} : Has P f s → Has P g t → Has P true (.combFirst s t)
  | combSecond {f s} : Has P f s → Has P true (.combSecond s)
  | singleStart {e s} : P e → Has P true s → Has P true (.singleStart e s)
  | singleUntil {t s l} : Has P true s → Has P true (.singleUntil t s l)
  | selScan {src s dir k b n l} : Has P true src → (∀ i, Keeps P (b i)) →
      Has P true (.selScan src s dir k b n l)
  | selActive {src s dir k b n l st} : Has P true src → (∀ i, Keeps P (b i)) → Has P true st →
      Has P true (.selActive src s dir k b n l st)
  | onceScan {src s dir k b l} : Has P true src → Keeps P b →
      Has P true (.onceScan src s dir k b l)
  | onceActive {src st} : Has P true src → Has P true st → Has P true (.onceActive src st)
  | oncePass {src} : Has P true src → Has P true (.oncePass src)
  | contOpen {s k b} : Has P true s → Keeps P b → Has P true (.contOpen s k b)
  | contContent {src st t} : Has P true src → Has P true st → Has P true (.contContent src st t)
  | contClose {src t} : Has P true src → Has P true (.contClose src t)
  | curContent {t l} : Has P true (.curContent t l)
  | attrStart {op s} : (∀ t as, (P (.openingTag t as) → P (.openingTag t (op.apply as))) ∧
      (P (.selfClosedTag t as) → P (.selfClosedTag t (op.apply as))) ∧
      (P (.voidTag t as) → P (.voidTag t (op.apply as)))) → Has P true s →
      Has P true (.attrStart op s)
  | attrEmit {s} : Has P true s → Has P true (.attrEmit s)
  | remove {s} : Has P true s → Has P true (.remove s)
  | repCollect {s n k k' b} : Has P true s → (∀ i, Keeps P (b i)) →
      Has P true (.repCollect s n k k' b)
  | repNext {es i n k k' b} : (∀ e ∈ es, P e) → (∀ i, Keeps P (b i)) →
      Has P true (.repNext es i n k k' b)
  | repEmit {es i n k k' b s} : (∀ e ∈ es, P e) → (∀ i, Keeps P (b i)) → Has P true s →
      Has P true (.repEmit es i n k k' b s)
  | orElseStart {n r s} : Has P true r → Has P true s → Has P true (.orElseStart n r s)
  | orElseRun {s} : Has P true s → Has P true (.orElseRun s)
  | applyCollect {s g} : (∀ t t', (∀ e ∈ t.events, P e) → g t = .ok t' → ∀ e ∈ t'.events, P e) →
      Has P true s → Has P true (.applyCollect s g)
  | applyEmit {s} : Has P true s → Has P true (.applyEmit s)

theorem has_content {P : Event → Prop} (c : Content) (h : ∀ e, .ok e ∈ results c → P e) :
    Has P false c.intoStream := by
  induction c with
  | data x => exact .once fun d hd => h _ (by cases hd; simp [results])
  | template t => exact .tmpl fun e he => h e (by simpa [results] using he)
  | script rs => exact .script h
  | resultOk c ih => exact .fallStart (ih h)
  | resultErr e => exact .fallError

theorem Has.build {P : Event → Prop} {a k : Kind} (p : Prog a k) : Keeps P p → ∀ {n : Node},
    Has P true n → Has P true (p.build n) := by
  induction p with
  | src => exact fun _ _ => id
  | forget p ih => exact ih
  | apply p q ih ih' => exact fun hk _ h => ih' hk.2 (ih hk.1 h)
  | fallOk p ih => exact fun hk _ h => .fallStart (ih hk h)
  | fallErr e => exact fun _ _ _ => .fallError
  | selectRaw p s d b ih _ => exact fun hk _ h => .selScan (ih hk.1 h) hk.2
  | selectOnceRaw p s d b ih _ => exact fun hk _ h => .onceScan (ih hk.1 h) hk.2
  | remove p ih => exact fun hk _ h => .remove (ih hk h)
  | prepend p c ih => exact fun hk _ h => .combFirst (has_content c hk.2) (ih hk.1 h)
  | append p c ih => exact fun hk _ h => .combFirst (ih hk.1 h) (has_content c hk.2)
  | «repeat» p n b ih _ => exact fun hk _ h => .repCollect (ih hk.1 h) hk.2
  | orElse p n r q ih ih' ih'' =>
    exact fun hk _ h => .orElseStart (ih' hk.2.1 (ih hk.1 h)) (ih'' hk.2.2 (ih hk.1 h))
  | applyTemplate p g ih => exact fun hk _ h => .applyCollect hk.2 (ih hk.1 h)
  | contents p b ih _ => exact fun hk _ h => .contOpen (.expandStart (ih hk.1 h)) hk.2
  | attr p op ih => exact fun hk _ h => .attrStart hk.2 (ih hk.1 h)

/-- What holds after a pull. -/
def HasRest (P : Event → Prop) (f : Bool) (p : Pull) : Prop :=
  match p.1 with
  | .ev e => (e = .noop ∨ P e) ∧ Has P f p.2.1 ∧ ∀ c ∈ p.2.2, Has P true c
  | .done => (f = true → Has P true p.2.1) ∧ ∀ c ∈ p.2.2, Has P true c
  | .err _ => True

/-- A pull keeps the invariant. -/
def Carries (P : Event → Prop) (env : Env) (n : Node) (p : Pull) : Prop :=
  ∀ f, Has P f n → (∀ c ∈ env, Has P true c) → HasRest P f p

/-- The same without placeholders. -/
def CarriesEvents (P : Event → Prop) (env : Env) (n : Node) (p : Pull) : Prop :=
  Carries P env n p ∧ p.1 ≠ .ev .noop

/-- The cell of `CurrentContent` stays peekable. -/
def CarriesPeek (P : Event → Prop) (env : Env) (n : Node) (p : Pull) : Prop :=
  ∀ s x, n = .peek s x → Has P true s → (∀ e, x = some e → P e) → (∀ c ∈ env, Has P true c) →
    match p.1 with
    | .ev e => P e ∧ Has P true p.2.1 ∧ ∀ c ∈ p.2.2, Has P true c
    | .done => Has P true p.2.1 ∧ ∀ c ∈ p.2.2, Has P true c
    | .err _ => True

/-- The same for collecting. -/
def CarriesCollect (P : Event → Prop) (env : Env) (n : Node)
    (p : Except StreamError (List Event) × Env) : Prop :=
  ∀ f, Has P f n → (∀ c ∈ env, Has P true c) → ∀ es, p.1 = .ok es →
    (∀ e ∈ es, P e) ∧ ∀ c ∈ p.2, Has P true c

set_option maxHeartbeats 4000000 in
theorem machine_carries {P : Event → Prop}
    (hopen : ∀ t as, P (.selfClosedTag t as) → P (.openingTag t as) ∧ P (.closingTag t)) :
    (∀ env n p, next env n = some p → Carries P env n p ∧ CarriesPeek P env n p) ∧
    (∀ env n p, collect env n = some p → CarriesCollect P env n p) ∧
    (∀ env n p, nextSkipNoop env n = some p → CarriesEvents P env n p) ∧
    (∀ env n p, drain env n = some p → Carries P env n p) := by
  refine next.mutual_partial_correctness
    (fun env n p => Carries P env n p ∧ CarriesPeek P env n p) (CarriesCollect P) (CarriesEvents P)
    (Carries P) ?_ ?_ ?_ ?_
  · intro next' collect skip drain h1 h2 h3 h4 env n p h
    have strong : CarriesPeek P env n p := by
      rintro s x rfl hs hx henv
      cases x with
      | some e => cases h; exact ⟨hx _ rfl, .peek hs nofun, henv⟩
      | none =>
        simp only [bind, Option.bind_eq_some_iff] at h
        obtain ⟨⟨r, s₁, env₁⟩, hx, h⟩ := h
        cases h
        obtain ⟨hc, hne⟩ := h3 _ _ _ hx
        have := hc _ hs henv
        cases r with
        | ev e =>
          exact ⟨this.1.resolve_left fun he => hne (by rw [he]), .peek this.2.1 nofun, this.2.2⟩
        | done => exact ⟨.peek (this.1 rfl) nofun, this.2⟩
        | err e => trivial
    refine ⟨?_, strong⟩
    intro f hn henv
    cases hn
    case dead => cases h; exact ⟨fun _ => .dead, henv⟩
    case shared =>
      cases env with
      | nil => cases h
      | cons cell env =>
        simp only [bind, Option.bind_eq_some_iff] at h
        obtain ⟨⟨r, s₁, env₁⟩, hx, h⟩ := h
        cases h
        have := (h1 _ _ _ hx).1 _ (henv cell (by simp)) fun c hc => henv c (by simp [hc])
        cases r with
        | ev e => exact ⟨this.1, .shared, List.forall_mem_cons.2 this.2⟩
        | done => exact ⟨fun _ => .shared, List.forall_mem_cons.2 ⟨this.1 rfl, this.2⟩⟩
        | err e => trivial
    case tmpl es i hes =>
      cases hi : es[i]? with
      | none => simp only [hi] at h; cases h; exact ⟨fun _ => .tmpl hes, henv⟩
      | some e =>
        simp only [hi] at h
        cases h
        exact ⟨.inr (hes _ (List.mem_of_getElem? hi)), .tmpl hes, henv⟩
    case once x hd =>
      cases x with
      | none => cases h; exact ⟨fun _ => .once nofun, henv⟩
      | some d => cases h; exact ⟨.inr (hd _ rfl), .once nofun, henv⟩
    case script rs hrs =>
      rcases rs with _ | ⟨_ | _ | _, _⟩ <;> cases h
      · exact ⟨nofun, henv⟩
      · trivial
      · exact ⟨nofun, henv⟩
      · exact ⟨.inr (hrs _ (by simp [untilEnd])), .script fun e he => hrs _ (by simp [untilEnd, he]),
          henv⟩
    case fallStart hs => cases h; exact ⟨.inl rfl, .fallEmit hs, henv⟩
    case fallError => cases h; trivial
    case expandClose hc => cases h; exact ⟨.inr hc, .dead, henv⟩
    case singleStart e s he hs =>
      cases e <;> cases h <;> first
        | exact ⟨.inr he, .singleUntil hs, henv⟩
        | exact ⟨.inr he, .dead, henv⟩
        | trivial
    case peek s x hs hx =>
      have := strong _ _ rfl hs hx henv
      rcases p with ⟨r, n', env'⟩
      cases r with
      | ev e => exact ⟨.inr this.1, this.2.1, this.2.2⟩
      | done => exact ⟨fun _ => this.1, this.2⟩
      | err e => trivial
    case fallEmit hs =>
      simp only [bind, Option.bind_eq_some_iff] at h
      obtain ⟨⟨r, s₁, env₁⟩, hx, h⟩ := h
      have := (h1 _ _ _ hx).1 _ hs henv
      cases r <;> cases h
      · exact ⟨this.1, .fallEmit this.2.1, this.2.2⟩
      · exact ⟨fun _ => .dead, this.2⟩
      · trivial
    case expandEmit hs =>
      simp only [bind, Option.bind_eq_some_iff] at h
      obtain ⟨⟨r, s₁, env₁⟩, hx, h⟩ := h
      have := (h1 _ _ _ hx).1 _ hs henv
      cases r <;> cases h
      · exact ⟨this.1, .expandEmit this.2.1, this.2.2⟩
      · exact ⟨fun _ => .dead, this.2⟩
      · trivial
    case attrEmit hs =>
      simp only [bind, Option.bind_eq_some_iff] at h
      obtain ⟨⟨r, s₁, env₁⟩, hx, h⟩ := h
      have := (h1 _ _ _ hx).1 _ hs henv
      cases r <;> cases h
      · exact ⟨this.1, .attrEmit this.2.1, this.2.2⟩
      · exact ⟨fun _ => .dead, this.2⟩
      · trivial
    case orElseRun hs =>
      simp only [bind, Option.bind_eq_some_iff] at h
      obtain ⟨⟨r, s₁, env₁⟩, hx, h⟩ := h
      have := (h1 _ _ _ hx).1 _ hs henv
      cases r <;> cases h
      · exact ⟨this.1, .orElseRun this.2.1, this.2.2⟩
      · exact ⟨fun _ => .dead, this.2⟩
      · trivial
    case applyEmit hs =>
      simp only [bind, Option.bind_eq_some_iff] at h
      obtain ⟨⟨r, s₁, env₁⟩, hx, h⟩ := h
      have := (h1 _ _ _ hx).1 _ hs henv
      cases r <;> cases h
      · exact ⟨this.1, .applyEmit this.2.1, this.2.2⟩
      · exact ⟨fun _ => .dead, this.2⟩
      · trivial
    case oncePass hs =>
      simp only [bind, Option.bind_eq_some_iff] at h
      obtain ⟨⟨r, s₁, env₁⟩, hx, h⟩ := h
      have := (h1 _ _ _ hx).1 _ hs henv
      cases r <;> cases h
      · exact ⟨this.1, .oncePass this.2.1, this.2.2⟩
      · exact ⟨fun _ => .dead, this.2⟩
      · trivial
    case singleUntil hs =>
      simp only [bind, Option.bind_eq_some_iff] at h
      obtain ⟨⟨r, s₁, env₁⟩, hx, h⟩ := h
      have := (h1 _ _ _ hx).1 _ hs henv
      cases r <;> cases h
      · refine ⟨this.1, ?_, this.2.2⟩
        simp only [singleUntilStep]
        repeat' split
        all_goals first
          | exact .singleUntil this.2.1
          | exact .dead
      · exact ⟨fun _ => .dead, this.2⟩
      · trivial
    case repEmit hes hb hs =>
      simp only [bind, Option.bind_eq_some_iff] at h
      obtain ⟨⟨r, s₁, env₁⟩, hx, h⟩ := h
      have := (h1 _ _ _ hx).1 _ hs henv
      cases r <;> cases h
      · exact ⟨this.1, .repEmit hes hb this.2.1, this.2.2⟩
      · exact ⟨.inl rfl, .repNext hes hb, this.2⟩
      · trivial
    case selActive hs hb hst =>
      simp only [bind, Option.bind_eq_some_iff] at h
      obtain ⟨⟨r, s₁, cells⟩, hx, h⟩ := h
      have := (h1 _ _ _ hx).1 _ hst (List.forall_mem_cons.2 ⟨hs, henv⟩)
      cases cells with
      | nil => cases h
      | cons src' env' =>
        cases r <;> cases h
        · have hs' := this.2.2 src' (by simp)
          exact ⟨this.1, .selActive hs' hb this.2.1, fun c hc => this.2.2 c (by simp [hc])⟩
        · have hs' := this.2 src' (by simp)
          exact ⟨.inl rfl, .selScan hs' hb, fun c hc => this.2 c (by simp [hc])⟩
        · trivial
    case onceActive hs hst =>
      simp only [bind, Option.bind_eq_some_iff] at h
      obtain ⟨⟨r, s₁, cells⟩, hx, h⟩ := h
      have := (h1 _ _ _ hx).1 _ hst (List.forall_mem_cons.2 ⟨hs, henv⟩)
      cases cells with
      | nil => cases h
      | cons src' env' =>
        cases r <;> cases h
        · have hs' := this.2.2 src' (by simp)
          exact ⟨this.1, .onceActive hs' this.2.1, fun c hc => this.2.2 c (by simp [hc])⟩
        · have hs' := this.2 src' (by simp)
          exact ⟨.inl rfl, .oncePass hs', fun c hc => this.2 c (by simp [hc])⟩
        · trivial
    case contContent hs hst =>
      simp only [bind, Option.bind_eq_some_iff] at h
      obtain ⟨⟨r, s₁, cells⟩, hx, h⟩ := h
      have := (h1 _ _ _ hx).1 _ hst (List.forall_mem_cons.2 ⟨hs, henv⟩)
      cases cells with
      | nil => cases h
      | cons src' env' =>
        cases r <;> cases h
        · have hs' := this.2.2 src' (by simp)
          exact ⟨this.1, .contContent hs' this.2.1, fun c hc => this.2.2 c (by simp [hc])⟩
        · have hs' := this.2 src' (by simp)
          exact ⟨.inl rfl, .contClose hs', fun c hc => this.2 c (by simp [hc])⟩
        · trivial
    case combFirst hs ht =>
      simp only [bind, Option.bind_eq_some_iff] at h
      obtain ⟨⟨r, s₁, env₁⟩, hx, h⟩ := h
      have := (h3 _ _ _ hx).1 _ hs henv
      cases r <;> cases h
      · exact ⟨this.1, .combFirst this.2.1 ht, this.2.2⟩
      · exact ⟨.inl rfl, .combSecond ht, this.2⟩
      · trivial
    case combSecond hs =>
      simp only [bind, Option.bind_eq_some_iff] at h
      obtain ⟨⟨r, s₁, env₁⟩, hx, h⟩ := h
      have := (h3 _ _ _ hx).1 _ hs henv
      cases r <;> cases h
      · exact ⟨this.1, .combSecond this.2.1, this.2.2⟩
      · exact ⟨fun _ => .dead, this.2⟩
      · trivial
    case expandStart hs =>
      simp only [bind, Option.bind_eq_some_iff] at h
      obtain ⟨⟨r, s₁, env₁⟩, hx, h⟩ := h
      have := (h3 _ _ _ hx).1 _ hs henv
      rcases r with e | _ | _
      · cases e <;> cases h <;> first
          | exact ⟨this.1, .expandEmit this.2.1, this.2.2⟩
          | exact ⟨.inr (hopen _ _ (this.1.resolve_left nofun)).1,
              .expandClose (hopen _ _ (this.1.resolve_left nofun)).2, this.2.2⟩
          | exact ⟨this.1, .dead, this.2.2⟩
          | trivial
      all_goals cases h; trivial
    case attrStart ha hs =>
      simp only [bind, Option.bind_eq_some_iff] at h
      obtain ⟨⟨r, s₁, env₁⟩, hx, h⟩ := h
      have := (h3 _ _ _ hx).1 _ hs henv
      rcases r with e | _ | _
      · cases e <;> cases h <;> first
          | exact ⟨.inr ((ha _ _).1 (this.1.resolve_left nofun)), .attrEmit this.2.1, this.2.2⟩
          | exact ⟨.inr ((ha _ _).2.1 (this.1.resolve_left nofun)), .dead, this.2.2⟩
          | exact ⟨.inr ((ha _ _).2.2 (this.1.resolve_left nofun)), .dead, this.2.2⟩
          | trivial
      all_goals cases h; trivial
    case contOpen hs hb =>
      simp only [bind, Option.bind_eq_some_iff] at h
      obtain ⟨⟨r, s₁, env₁⟩, hx, h⟩ := h
      have := (h3 _ _ _ hx).1 _ hs henv
      rcases r with e | _ | _
      · cases e <;> cases h <;> first
          | exact ⟨this.1, .contContent (.peek this.2.1 nofun) (.build _ hb .curContent), this.2.2⟩
          | exact ⟨this.1, .dead, this.2.2⟩
          | trivial
      all_goals cases h; trivial
    case contClose hs =>
      simp only [bind, Option.bind_eq_some_iff] at h
      obtain ⟨⟨r, s₁, env₁⟩, hx, h⟩ := h
      have := (h3 _ _ _ hx).1 _ hs henv
      rcases r with e | _ | _
      · cases e
        case closingTag t =>
          simp only at h
          split at h <;> cases h <;> first
            | exact ⟨this.1, .dead, this.2.2⟩
            | trivial
        all_goals
          cases h
          trivial
      all_goals cases h; trivial
    case remove hs =>
      simp only [bind, Option.bind_eq_some_iff] at h
      obtain ⟨⟨r, s₁, env₁⟩, hx, h⟩ := h
      have := h4 _ _ _ hx _ hs henv
      cases h
      cases r with
      | ev e => exact ⟨this.1, .remove this.2.1, this.2.2⟩
      | done => exact ⟨fun _ => .remove (this.1 rfl), this.2⟩
      | err e => trivial
    case repCollect hs hb =>
      simp only [bind, Option.bind_eq_some_iff] at h
      obtain ⟨⟨r, env₁⟩, hx, h⟩ := h
      have := h2 _ _ _ hx _ hs henv
      cases r <;> cases h
      · trivial
      · exact ⟨.inl rfl, .repNext (this _ rfl).1 hb, (this _ rfl).2⟩
    case applyCollect s g hg hs =>
      simp only [bind, Option.bind_eq_some_iff] at h
      obtain ⟨⟨r, env₁⟩, hx, h⟩ := h
      have := h2 _ _ _ hx _ hs henv
      cases r with
      | error e => cases h; trivial
      | ok es =>
        cases hgt : g ⟨es⟩ <;> simp only [hgt] at h <;> cases h
        · trivial
        · exact ⟨.inl rfl, .applyEmit (.tmpl (hg _ _ (this _ rfl).1 hgt)), (this _ rfl).2⟩
    case repNext hes hb =>
      simp only at h
      split at h <;> cases h
      · exact ⟨.inl rfl, .repEmit hes hb (.build _ (hb _) (.tmpl hes)), henv⟩
      · exact ⟨fun _ => .dead, henv⟩
    case orElseStart hr hs =>
      simp only at h
      split at h <;> cases h
      · exact ⟨.inl rfl, .orElseRun hr, henv⟩
      · exact ⟨.inl rfl, .orElseRun hs, henv⟩
    case selScan src s direct k bld count level hs hb =>
      simp only [bind, Option.bind_eq_some_iff] at h
      obtain ⟨⟨r, s₁, env₁⟩, hx, h⟩ := h
      obtain ⟨hc, hne⟩ := h3 _ _ _ hx
      have := hc _ hs henv
      cases r with
      | ev e =>
        have he := this.1.resolve_left fun he => hne (by rw [he])
        simp only at h
        split at h
        · cases h
          exact ⟨.inl rfl, .selActive this.2.1 hb (.build _ (hb _) (.singleStart he .shared)), this.2.2⟩
        · cases hl : levelAdjust level e <;> simp only [hl] at h <;> cases h
          · trivial
          · exact ⟨.inr he, .selScan this.2.1 hb, this.2.2⟩
      | done => cases h; exact ⟨fun _ => .dead, this.2⟩
      | err e => cases h; trivial
    case onceScan src s direct k bld level hs hb =>
      simp only [bind, Option.bind_eq_some_iff] at h
      obtain ⟨⟨r, s₁, env₁⟩, hx, h⟩ := h
      obtain ⟨hc, hne⟩ := h3 _ _ _ hx
      have := hc _ hs henv
      cases r with
      | ev e =>
        have he := this.1.resolve_left fun he => hne (by rw [he])
        simp only at h
        split at h
        · cases h
          exact ⟨.inl rfl, .onceActive this.2.1 (.build _ hb (.singleStart he .shared)), this.2.2⟩
        · cases hl : levelAdjust level e <;> simp only [hl] at h <;> cases h
          · trivial
          · exact ⟨.inr he, .onceScan this.2.1 hb, this.2.2⟩
      | done => cases h; exact ⟨fun _ => .dead, this.2⟩
      | err e => cases h; trivial
    case curContent tag level =>
      rcases env with _ | ⟨cell, env⟩
      · cases h
      cases cell
      case peek s buffered =>
        have hcell := henv _ (List.mem_cons_self ..)
        have htail : ∀ c ∈ env, Has P true c := fun c hc => henv c (by simp [hc])
        cases hcell with
        | peek hs hb =>
          simp only [bind] at h
          rw [Option.bind_eq_some_iff] at h
          obtain ⟨⟨r, s₁, b₁, env₁⟩, hx, h⟩ := h
          have phase : (∃ e, r = .err e) ∨ (Has P true s₁ ∧ (∀ e, b₁ = some e → P e) ∧
              ∀ c ∈ env₁, Has P true c) := by
            by_cases hl : level = 0
            · rw [if_pos hl] at hx
              cases buffered with
              | some e => cases hx; exact .inr ⟨hs, hb, htail⟩
              | none =>
                simp only [Option.bind_eq_some_iff] at hx
                obtain ⟨⟨r', s₂, env₂⟩, hy, hx⟩ := hx
                obtain ⟨hc, hne⟩ := h3 _ _ _ hy
                have := hc _ hs htail
                cases r' with
                | ev e =>
                  cases hx
                  refine .inr ⟨this.2.1, ?_, this.2.2⟩
                  rintro _ ⟨⟩
                  exact this.1.resolve_left fun he => hne (by rw [he])
                | done => cases hx; exact .inr ⟨this.1 rfl, nofun, this.2⟩
                | err e => cases hx; exact .inl ⟨_, rfl⟩
            · rw [if_neg hl] at hx
              cases hx
              exact .inr ⟨hs, hb, htail⟩
          rcases phase with ⟨e, rfl⟩ | ⟨hs₁, hb₁, henv₁⟩
          · cases h; trivial
          cases r with
          | done => cases h; trivial
          | err e => cases h; trivial
          | ev peeked =>
            simp only at h
            split at h
            · cases h
              exact ⟨fun _ => .dead, List.forall_mem_cons.2 ⟨.peek hs₁ hb₁, henv₁⟩⟩
            · rw [Option.bind_eq_some_iff] at h
              obtain ⟨⟨r, cell, env₂⟩, hy, h⟩ := h
              have := (h1 _ _ _ hy).2 _ _ rfl hs₁ hb₁ henv₁
              cases r with
              | done => cases h; trivial
              | err e => cases h; trivial
              | ev e =>
                cases hl : levelAdjust level e <;> simp only [hl] at h <;> cases h
                · trivial
                · exact ⟨.inr this.1, .curContent, List.forall_mem_cons.2 this.2⟩
      all_goals cases h
  · intro collect' skip h2 h3 env n p h f hn henv
    simp only [bind, Option.bind_eq_some_iff] at h
    obtain ⟨⟨r, s₁, env₁⟩, hx, h⟩ := h
    obtain ⟨hc, hne⟩ := h3 _ _ _ hx
    have := hc _ hn henv
    cases r with
    | done =>
      cases h
      rintro es ⟨⟩
      exact ⟨by simp, this.2⟩
    | err e => cases h; rintro es ⟨⟩
    | ev e =>
      simp only [Option.bind_eq_some_iff] at h
      obtain ⟨⟨r, env₂⟩, hy, h⟩ := h
      have h5 := h2 _ _ _ hy _ this.2.1 this.2.2
      cases r <;> cases h
      · rintro es ⟨⟩
      · rintro es ⟨⟩
        exact ⟨List.forall_mem_cons.2 ⟨this.1.resolve_left fun he => hne (by rw [he]),
          (h5 _ rfl).1⟩, (h5 _ rfl).2⟩
  · intro next' skip h1 h3 env n p h
    simp only [bind, Option.bind_eq_some_iff] at h
    obtain ⟨⟨r, s₁, env₁⟩, hx, h⟩ := h
    by_cases hr : r = .ev .noop
    · subst hr
      simp only at h
      refine ⟨?_, (h3 _ _ _ h).2⟩
      intro f hn henv
      have := (h1 _ _ _ hx).1 _ hn henv
      exact (h3 _ _ _ h).1 _ this.2.1 this.2.2
    · have hp : p = (r, s₁, env₁) := by
        rcases r with e | _ | _
        · cases e <;> first
            | exact absurd rfl hr
            | (cases h; rfl)
        all_goals cases h; rfl
      subst hp
      exact ⟨(h1 _ _ _ hx).1, hr⟩
  · intro next' drain' h1 h4 env n p h f hn henv
    simp only [bind, Option.bind_eq_some_iff] at h
    obtain ⟨⟨r, s₁, env₁⟩, hx, h⟩ := h
    have := (h1 _ _ _ hx).1 _ hn henv
    cases r with
    | done => cases h; exact this
    | err e => cases h; trivial
    | ev e => exact h4 _ _ _ h _ this.2.1 this.2.2

/-- Properties of events that the calls keep hold in the result. -/
theorem keeps_run {P : Event → Prop}
    (hopen : ∀ t as, P (.selfClosedTag t as) → P (.openingTag t as) ∧ P (.closingTag t))
    {a k : Kind} (p : Prog a k) (hk : Keeps P p) {es m : List Event} (hes : ∀ e ∈ es, P e)
    (h : run p es = some (.ok m)) : ∀ e ∈ m, P e := by
  simp only [run, Option.map_eq_some_iff] at h
  obtain ⟨⟨r, env⟩, hc, rfl⟩ := h
  exact ((machine_carries hopen).2.1 _ _ _ hc _ (Has.build p hk (.tmpl hes)) (by simp) _ rfl).1

theorem keeps_transform {Q : Event → Prop}
    (hopen : ∀ t as, Q (.selfClosedTag t as) → Q (.openingTag t as) ∧ Q (.closingTag t))
    {k : Kind} {p : Prog .gen k} (hk : Keeps Q p) {t t' : Template}
    (hq : ∀ e ∈ t.events, Q e) (h : t.transform p = some (.ok t')) : ∀ e ∈ t'.events, Q e := by
  rw [transform_run, Option.map_eq_some_iff] at h
  obtain ⟨r, hr, h⟩ := h
  cases r with
  | error e => cases h
  | ok m =>
    cases h
    exact keeps_run hopen p hk hq hr

end Fuser
