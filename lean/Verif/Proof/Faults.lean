import Verif.Spec.Faults
import Verif.Proof.Transform

/-!
# Which faults of streams are reported

An invariant of the machine: streams of elements begin with the start of an element, and the stream
inside an element ends only when the closing tag of the element is next.
-/

namespace Fuser

open Spec

/-- How a stream is used: to its first end only; without condition; only ending when the element around
it is at its closing tag; beginning with an element; or giving nothing but an error. -/
inductive Use
  | once
  | any
  | drain
  | start
  | never
  deriving DecidableEq

/-- After the first event. -/
def Use.after : Use → Use
  | .start => .any
  | m => m

/-- A shared stream: used as told, or the inside of an element, with whether the closing tag is
next. -/
inductive SharedCell
  | plain (m : Use)
  | content (tag : Identifier) (closed : Bool)

/-- More elements have come to their closing tag. -/
inductive Later : List SharedCell → List SharedCell → Prop
  | nil : Later [] []
  | plain {m Γ Γ'} : Later Γ Γ' → Later (.plain m :: Γ) (.plain m :: Γ')
  | content {t c c' Γ Γ'} : (c = true → c' = true) → Later Γ Γ' →
      Later (.content t c :: Γ) (.content t c' :: Γ')

theorem Later.refl : ∀ Γ : List SharedCell, Later Γ Γ
  | [] => .nil
  | .plain _ :: Γ => .plain (refl Γ)
  | .content _ _ :: Γ => .content id (refl Γ)

theorem Later.trans {Γ Γ' : List SharedCell} (h : Later Γ Γ') : ∀ {Γ'' : List SharedCell}, Later Γ' Γ'' →
    Later Γ Γ'' := by
  induction h with
  | nil => exact id
  | plain _ ih => intro _ h; cases h with | plain h => exact .plain (ih h)
  | content hc _ ih => intro _ h; cases h with | content hc' h => exact .content (hc' ∘ hc) (ih h)

/-- The innermost element is at its closing tag. -/
def AtEnd (Γ : List SharedCell) : Prop := ∃ t Γ', Γ = .content t true :: Γ'

theorem AtEnd.later {Γ Γ' : List SharedCell} (h : AtEnd Γ) (hl : Later Γ Γ') : AtEnd Γ' := by
  obtain ⟨t, Γ₀, rfl⟩ := h
  cases hl with
  | content hc h => rw [hc rfl]; exact ⟨_, _, rfl⟩

/-- The stream may end after its first event. -/
def Lax (Γ : List SharedCell) (m : Use) : Prop := m ≠ .never ∧ (m = .drain → AtEnd Γ)

/-- The stream may end at once. -/
def Free (Γ : List SharedCell) (m : Use) : Prop := m ≠ .start ∧ Lax Γ m

theorem Lax.later {Γ Γ' : List SharedCell} {m : Use} (h : Lax Γ m) (hl : Later Γ Γ') : Lax Γ' m :=
  ⟨h.1, fun hm => (h.2 hm).later hl⟩

theorem Free.later {Γ Γ' : List SharedCell} {m : Use} (h : Free Γ m) (hl : Later Γ Γ') : Free Γ' m :=
  ⟨h.1, h.2.later hl⟩

theorem Free.any {Γ : List SharedCell} : Free Γ .any := ⟨nofun, nofun, nofun⟩

theorem Free.once {Γ : List SharedCell} : Free Γ .once := ⟨nofun, nofun, nofun⟩

theorem Lax.after {Γ : List SharedCell} {m : Use} (h : Lax Γ m) : Free Γ m.after := by
  cases m <;> simp_all [Free, Lax, Use.after]

theorem Free.after {Γ : List SharedCell} {m : Use} (h : Free Γ m) : m.after = m := by
  cases m <;> simp_all [Free, Use.after]

/-- The modes of ordinary streams. -/
def Common (m : Use) : Prop := m = .any ∨ m = .drain

section

variable (P : Event → Prop) (E : StreamError → Prop)

/-- A matched event starts an element, or the error for it is accepted. -/
def Startable (e : Event) : Prop := isStart e = true ∨ E (.expectedOpen (some e))

/-- What is assumed of calls. -/
def Suited {a k : Kind} (p : Prog a k) : Prop :=
  Keeps P p ∧ (∀ e, Raises p e → E e) ∧ ∀ e, P e → Matched p e → Startable E e

/-- The stream, with such shared streams around it, can be used in this mode. -/
inductive Good : List SharedCell → Use → Node → Prop
  | dead {Γ m} : Free Γ m → Good Γ m .dead
  | shared {Γ m m'} : Free (.plain m' :: Γ) m → Good (.plain m' :: Γ) m .shared
  | tmpl {Γ m es i} : (∀ e ∈ es, P e) → Free Γ m → Good Γ m (.tmpl es i)
  | tmplStart {Γ es i e} : (∀ e ∈ es, P e) → es[i]? = some e → isStart e = true →
      Good Γ .start (.tmpl es i)
  | once {Γ m x} : (∀ d, x = some d → P (.data d)) → Free Γ m → Good Γ m (.once x)
  | script {Γ rs} : (∀ e, .ok e ∈ untilEnd rs → P e) → (∀ e, .error e ∈ untilEnd rs → E e) →
      Good Γ .once (.script rs)
  | fallStart {Γ m s} : Good Γ m s → Good Γ m (.fallStart s)
  | fallError {Γ m e} : E e → Good Γ m (.fallError e)
  | fallEmit {Γ m s} : Good Γ m s → Good Γ m (.fallEmit s)
  | expandStart {Γ m s} : Good Γ .start s → Lax Γ m → Good Γ m (.expandStart s)
  | expandNever {Γ m s} : Good Γ .never s → Good Γ m (.expandStart s)
  | expandEmit {Γ m s} : Good Γ .any s → Free Γ m → Good Γ m (.expandEmit s)
  | expandClose {Γ m t} : P (.closingTag t) → Free Γ m → Good Γ m (.expandClose t)
  | combFirst {Γ m m' s t} : Good Γ m' s → m' ≠ .start → m' ≠ .never → m ≠ .start → m ≠ .never →
      (∀ Γ', Later Γ Γ' → (m' = .drain → AtEnd Γ') → Good Γ' m (.combSecond t)) →
      Good Γ m (.combFirst s t)
  | combSecond {Γ m m' s} : Good Γ m' s → m' ≠ .start → m' ≠ .never → m ≠ .start → m ≠ .never →
      (m = .drain → m' = .drain ∨ AtEnd Γ) → Good Γ m (.combSecond s)
  | singleStart {Γ m e s} : P e → Startable E e → Good Γ .any s → Lax Γ m →
      Good Γ m (.singleStart e s)
  | singleUntil {Γ m t s l} : Good Γ .any s → Free Γ m → Good Γ m (.singleUntil t s l)
  | selScan {Γ m src s dir k b n l} : Common m → Good Γ m src → (∀ i, Suited P E (b i)) →
      (∀ e, P e → s.matches e = true → Startable E e) → Good Γ m (.selScan src s dir k b n l)
  | selActive {Γ m src s dir k b n l st} : Common m → Good Γ m src → (∀ i, Suited P E (b i)) →
      (∀ e, P e → s.matches e = true → Startable E e) → Good (.plain m :: Γ) .any st →
      Good Γ m (.selActive src s dir k b n l st)
  | onceScan {Γ m src s dir k b l} : Common m → Good Γ m src → Suited P E b →
      (∀ e, P e → s.matches e = true → Startable E e) → Good Γ m (.onceScan src s dir k b l)
  | onceActive {Γ m src st} : Common m → Good Γ m src → Good (.plain m :: Γ) .any st →
      Good Γ m (.onceActive src st)
  | oncePass {Γ m src} : Common m → Good Γ m src → Good Γ m (.oncePass src)
  | contOpen {Γ m s k b} : Good Γ .start (.expandStart s) → Suited P E b → Lax Γ m →
      Good Γ m (.contOpen (.expandStart s) k b)
  | contNever {Γ m s k b} : Good Γ .never s → Good Γ m (.contOpen s k b)
  | contContent {Γ m s x st t c} : Good Γ .any s → (∀ e, x = some e → P e) →
      (c = true → ∃ e, x = some e ∧ e.isClosingTagFor t = true) →
      Good (.content t c :: Γ) .drain st → Free Γ m → Good Γ m (.contContent (.peek s x) st t)
  | contClose {Γ m s e t} : P e → e.isClosingTagFor t = true → Free Γ m →
      Good Γ m (.contClose (.peek s (some e)) t)
  | curContent {Γ m t as l c} : P (.openingTag t as) → (c = true → l = 0) → Common m →
      Good (.content t c :: Γ) m (.curContent t l)
  | attrStart {Γ m op s} : (∀ t as, (P (.openingTag t as) → P (.openingTag t (op.apply as))) ∧
      (P (.selfClosedTag t as) → P (.selfClosedTag t (op.apply as))) ∧
      (P (.voidTag t as) → P (.voidTag t (op.apply as)))) → Good Γ .start s → Lax Γ m →
      Good Γ m (.attrStart op s)
  | attrNever {Γ m op s} : Good Γ .never s → Good Γ m (.attrStart op s)
  | attrEmit {Γ m s} : Good Γ .any s → Free Γ m → Good Γ m (.attrEmit s)
  | remove {Γ m s} : Common m → Good Γ m s → Good Γ m (.remove s)
  | repCollect {Γ m m' s n k k' b} : Common m → Good Γ m' s → m' ≠ .once →
      (k = .elem → m' = .start ∨ m' = .never) → (m = .drain → m' = .drain ∨ m' = .never) →
      (∀ i, Suited P E (b i)) → Good Γ m (.repCollect s n k k' b)
  | repNext {Γ m es i n k k' b} : (∀ e ∈ es, P e) →
      (k = .elem → ∃ e, es[0]? = some e ∧ isStart e = true) → (∀ i, Suited P E (b i)) → Free Γ m →
      Good Γ m (.repNext es i n k k' b)
  | repEmit {Γ m es i n k k' b s} : (∀ e ∈ es, P e) →
      (k = .elem → ∃ e, es[0]? = some e ∧ isStart e = true) → (∀ i, Suited P E (b i)) →
      Good Γ .any s → Free Γ m → Good Γ m (.repEmit es i n k k' b s)
  | orElseStart {Γ m n r s} : Common m → Good Γ m r → Good Γ m s → Good Γ m (.orElseStart n r s)
  | orElseRun {Γ m s} : Common m → Good Γ m s → Good Γ m (.orElseRun s)
  | applyCollect {Γ m s g} : Common m → Good Γ m s →
      (∀ t t', (∀ e ∈ t.events, P e) → g t = .ok t' → ∀ e ∈ t'.events, P e) →
      (∀ t e, g t = .error e → E e) → Good Γ m (.applyCollect s g)
  | applyEmit {Γ m s} : Good Γ .any s → Free Γ m → Good Γ m (.applyEmit s)

/-- The shared streams can be used as told. -/
inductive GoodAll : List SharedCell → Env → Prop
  | nil : GoodAll [] []
  | plain {m Γ n env} : Common m → Good P E Γ m n → GoodAll Γ env → GoodAll (.plain m :: Γ) (n :: env)
  | content {t c Γ s x env} : Good P E Γ .any s → (∀ e, x = some e → P e) →
      (c = true → ∃ e, x = some e ∧ e.isClosingTagFor t = true) → GoodAll Γ env →
      GoodAll (.content t c :: Γ) (.peek s x :: env)

end

variable {P : Event → Prop} {E : StreamError → Prop}

theorem Common.free {Γ : List SharedCell} {m : Use} (h : Common m) (hd : m = .drain → AtEnd Γ) :
    Free Γ m := by
  rcases h with rfl | rfl
  · exact .any
  · exact ⟨nofun, nofun, hd⟩

theorem Common.after {m : Use} (h : Common m) : m.after = m := by
  rcases h with rfl | rfl <;> rfl

theorem Common.ne {m : Use} (h : Common m) : m ≠ .once ∧ m ≠ .start ∧ m ≠ .never := by
  rcases h with rfl | rfl <;> exact ⟨nofun, nofun, nofun⟩

theorem Good.never {Γ : List SharedCell} {m m' : Use} {n : Node} (h : Good P E Γ m n) (hm : m = .never) :
    Good P E Γ m' n := by
  induction h with
  | fallStart _ ih => exact .fallStart (ih hm)
  | fallEmit _ ih => exact .fallEmit (ih hm)
  | fallError h => exact .fallError h
  | expandNever h => exact .expandNever h
  | contNever h => exact .contNever h
  | attrNever h => exact .attrNever h
  | script => cases hm
  | tmplStart => cases hm
  | _ =>
    subst hm
    simp_all [Free, Lax, Common]

theorem Good.start {Γ : List SharedCell} {m : Use} {n : Node} (h : Good P E Γ m n) (hm : m = .start) :
    Good P E Γ .any n := by
  have hl : ∀ Γ, Lax Γ .any := fun _ => ⟨nofun, nofun⟩
  induction h with
  | fallStart _ ih => exact .fallStart (ih hm)
  | fallEmit _ ih => exact .fallEmit (ih hm)
  | fallError h => exact .fallError h
  | expandNever h => exact .expandNever h
  | contNever h => exact .contNever h
  | attrNever h => exact .attrNever h
  | tmplStart h => exact .tmpl h .any
  | expandStart h => exact .expandStart h (hl _)
  | contOpen h hb => exact .contOpen h hb (hl _)
  | attrStart ho h => exact .attrStart ho h (hl _)
  | singleStart he hs h => exact .singleStart he hs h (hl _)
  | script => cases hm
  | _ =>
    subst hm
    simp_all [Free, Lax, Common]

theorem good_content {Γ : List SharedCell} (c : Content) (h : ∀ e, .ok e ∈ results c → P e)
    (hE : ∀ e, .error e ∈ results c → E e) : Good P E Γ .once c.intoStream := by
  induction c with
  | data x => exact .once (fun d hd => h _ (by cases hd; simp [results])) .once
  | template t => exact .tmpl (fun e he => h e (by simpa [results] using he)) .once
  | script rs => exact .script h hE
  | resultOk c ih => exact .fallStart (ih h hE)
  | resultErr e => exact .fallError (hE e (by simp [results]))

/-- Streams that calls can be applied to. -/
def Lev (P : Event → Prop) (E : StreamError → Prop) (Γ : List SharedCell) (m : Use) : Kind → Node → Prop
  | .gen, n => Good P E Γ m n
  | .elem, n => (m = .any ∧ Good P E Γ .start n) ∨ Good P E Γ .never n

theorem Lev.good {Γ : List SharedCell} {m : Use} {k : Kind} {n : Node} (h : Lev P E Γ m k n) :
    Good P E Γ m n := by
  cases k with
  | gen => exact h
  | elem =>
    rcases h with ⟨rfl, h⟩ | h
    · exact h.start rfl
    · exact h.never rfl

theorem Lev.build {a k : Kind} (p : Prog a k) : Suited P E p → ∀ {Γ : List SharedCell} {m : Use} {n : Node},
    Common m → (∀ Γ', Later Γ Γ' → Lev P E Γ' m a n) →
    ∀ Γ', Later Γ Γ' → Lev P E Γ' m k (p.build n) := by
  induction p with
  | src => exact fun _ _ _ _ _ => id
  | forget p ih => exact fun hf Γ m n hm h Γ' hl => (ih hf hm h Γ' hl).good
  | apply p q ih ih' =>
    rintro ⟨hk, hr, hs⟩ Γ m n hm h
    exact ih' ⟨hk.2, fun e he => hr e (.inr he), fun e hp he => hs e hp (.inr he)⟩ hm
      (ih ⟨hk.1, fun e he => hr e (.inl he), fun e hp he => hs e hp (.inl he)⟩ hm h)
  | @fallOk a k p ih =>
    intro hf Γ m n hm h Γ' hl
    have := ih hf hm h Γ' hl
    cases k with
    | gen => exact Good.fallStart this
    | elem => exact this.imp (fun h => ⟨h.1, h.2.fallStart⟩) .fallStart
  | @fallErr a k e =>
    rintro ⟨hk, hr, hs⟩ Γ m n hm h Γ' hl
    cases k with
    | gen => exact Good.fallError (hr e rfl)
    | elem => exact .inr (.fallError (hr e rfl))
  | selectRaw p s dir b ih _ =>
    rintro ⟨hk, hr, hs⟩ Γ m n hm h Γ' hl
    exact Good.selScan hm (ih ⟨hk.1, fun e he => hr e (.inl he), fun e hp he => hs e hp (.inl he)⟩
      hm h Γ' hl).good (fun i => ⟨hk.2 i, fun e he => hr e (.inr ⟨i, he⟩),
        fun e hp he => hs e hp (.inr (.inr ⟨i, he⟩))⟩) fun e hp he => hs e hp (.inr (.inl he))
  | selectOnceRaw p s dir b ih _ =>
    rintro ⟨hk, hr, hs⟩ Γ m n hm h Γ' hl
    exact Good.onceScan hm (ih ⟨hk.1, fun e he => hr e (.inl he), fun e hp he => hs e hp (.inl he)⟩
      hm h Γ' hl).good ⟨hk.2, fun e he => hr e (.inr he),
        fun e hp he => hs e hp (.inr (.inr he))⟩ fun e hp he => hs e hp (.inr (.inl he))
  | remove p ih => exact fun hf Γ m n hm h Γ' hl => Good.remove hm (ih hf hm h Γ' hl).good
  | prepend p c ih =>
    rintro ⟨hk, hr, hs⟩ Γ m n hm h Γ' hl
    refine Good.combFirst (m' := .once) (good_content c hk.2 fun e he => hr e (.inr he)) nofun nofun
      hm.ne.2.1 hm.ne.2.2 fun Γ'' hl' _ => ?_
    exact .combSecond (ih ⟨hk.1, fun e he => hr e (.inl he), hs⟩ hm h Γ'' (hl.trans hl')).good
      hm.ne.2.1 hm.ne.2.2 hm.ne.2.1 hm.ne.2.2 .inl
  | append p c ih =>
    rintro ⟨hk, hr, hs⟩ Γ m n hm h Γ' hl
    refine Good.combFirst (ih ⟨hk.1, fun e he => hr e (.inl he), hs⟩ hm h Γ' hl).good
      hm.ne.2.1 hm.ne.2.2 hm.ne.2.1 hm.ne.2.2 fun Γ'' hl' hd => ?_
    exact .combSecond (m' := .once) (good_content c hk.2 fun e he => hr e (.inr he)) nofun nofun
      hm.ne.2.1 hm.ne.2.2 fun hm => .inr (hd hm)
  | @«repeat» a k k' p n b ih _ =>
    rintro ⟨hk, hr, hs⟩ Γ m x hm h Γ' hl
    have hp := ih ⟨hk.1, fun e he => hr e (.inl he), fun e hp he => hs e hp (.inl he)⟩ hm h Γ' hl
    have hb : ∀ i, Suited P E (b i) := fun i => ⟨hk.2 i, fun e he => hr e (.inr ⟨i, he⟩),
        fun e hp he => hs e hp (.inr ⟨i, he⟩)⟩
    cases k with
    | gen => exact Good.repCollect hm hp hm.ne.1 nofun .inl hb
    | elem =>
      rcases hp with ⟨rfl, hp⟩ | hp
      · exact Good.repCollect hm hp nofun (fun _ => .inl rfl) nofun hb
      · exact Good.repCollect hm hp nofun (fun _ => .inr rfl) (fun _ => .inr rfl) hb
  | orElse p n r q ih ih' ih'' =>
    rintro ⟨hk, hr, hs⟩ Γ m x hm h Γ' hl
    have hp := ih ⟨hk.1, fun e he => hr e (.inl he), fun e hp he => hs e hp (.inl he)⟩ hm h
    exact Good.orElseStart hm
      (ih' ⟨hk.2.1, fun e he => hr e (.inr (.inl he)), fun e hp he => hs e hp (.inr (.inl he))⟩ hm hp
        Γ' hl).good
      (ih'' ⟨hk.2.2, fun e he => hr e (.inr (.inr he)), fun e hp he => hs e hp (.inr (.inr he))⟩ hm hp
        Γ' hl).good
  | applyTemplate p g ih =>
    rintro ⟨hk, hr, hs⟩ Γ m x hm h Γ' hl
    exact Good.applyCollect hm (ih ⟨hk.1, fun e he => hr e (.inl he), hs⟩ hm h Γ' hl).good hk.2
      fun t e he => hr e (.inr ⟨t, he⟩)
  | contents p b ih _ =>
    rintro ⟨hk, hr, hs⟩ Γ m x hm h Γ' hl
    have hp := ih ⟨hk.1, fun e he => hr e (.inl he), fun e hp he => hs e hp (.inl he)⟩ hm h Γ' hl
    refine hp.imp (fun h => ⟨h.1, .contOpen (.expandStart h.2 ⟨nofun, nofun⟩) ?_ ⟨nofun, nofun⟩⟩)
      fun h => .contNever (.expandNever h)
    exact ⟨hk.2, fun e he => hr e (.inr he), fun e hp he => hs e hp (.inr he)⟩
  | attr p op ih =>
    rintro ⟨hk, hr, hs⟩ Γ m x hm h Γ' hl
    have hp := ih ⟨hk.1, hr, hs⟩ hm h Γ' hl
    exact hp.imp (fun h => ⟨h.1, .attrStart hk.2 h.2 ⟨nofun, nofun⟩⟩) .attrNever

/-- What holds after a pull. -/
def GoodRest (P : Event → Prop) (E : StreamError → Prop) (Γ : List SharedCell) (m : Use) (p : Pull) :
    Prop :=
  match p.1 with
  | .ev e => ∃ Γ', Later Γ Γ' ∧ GoodAll P E Γ' p.2.2 ∧ ((e = .noop ∧ Good P E Γ' m p.2.1) ∨
      (e ≠ .noop ∧ P e ∧ m ≠ .never ∧ (m = .start → isStart e = true) ∧ Good P E Γ' m.after p.2.1))
  | .done => m ≠ .start ∧ m ≠ .never ∧ ∃ Γ', Later Γ Γ' ∧ GoodAll P E Γ' p.2.2 ∧
      (m = .drain → AtEnd Γ') ∧ (m ≠ .once → Good P E Γ' m p.2.1)
  | .err e => E e

theorem rest_ev {Γ Γ' : List SharedCell} {m : Use} {e : Event} {n : Node} {env : Env}
    (h1 : m ≠ .start) (h2 : m ≠ .never) (hl : Later Γ Γ') (henv : GoodAll P E Γ' env)
    (he : e = .noop ∨ P e) (hn : Good P E Γ' m n) : GoodRest P E Γ m (.ev e, n, env) := by
  refine ⟨Γ', hl, henv, ?_⟩
  by_cases h : e = .noop
  · exact .inl ⟨h, hn⟩
  · refine .inr ⟨h, he.resolve_left h, h2, fun h => absurd h h1, ?_⟩
    cases m <;> first | exact hn | exact absurd rfl h1

theorem rest_start {Γ Γ' : List SharedCell} {m : Use} {e : Event} {n : Node} {env : Env}
    (h : Lax Γ m) (hl : Later Γ Γ') (henv : GoodAll P E Γ' env)
    (he : P e) (hs : isStart e = true) (hn : ∀ {m}, Free Γ' m → Good P E Γ' m n) :
    GoodRest P E Γ m (.ev e, n, env) :=
  ⟨Γ', hl, henv, .inr ⟨(by rintro rfl; cases hs), he, h.1, fun _ => hs, hn (h.later hl).after⟩⟩

theorem rest_done {Γ Γ' : List SharedCell} {m : Use} {env : Env}
    (h : Free Γ' m) (hl : Later Γ Γ') (henv : GoodAll P E Γ' env) :
    GoodRest P E Γ m (.done, .dead, env) :=
  ⟨h.1, h.2.1, Γ', hl, henv, h.2.2, fun _ => .dead h⟩

theorem GoodRest.ev {Γ : List SharedCell} {m : Use} {e : Event} {n : Node} {env : Env}
    (h : GoodRest P E Γ m (.ev e, n, env)) (h1 : m ≠ .start) :
    ∃ Γ', Later Γ Γ' ∧ GoodAll P E Γ' env ∧ (e = .noop ∨ P e) ∧ Good P E Γ' m n := by
  obtain ⟨Γ', hl, henv, ⟨he, hn⟩ | ⟨-, he, -, -, hn⟩⟩ := h
  · exact ⟨Γ', hl, henv, .inl he, hn⟩
  · refine ⟨Γ', hl, henv, .inr he, ?_⟩
    cases m <;> first | exact hn | exact absurd rfl h1

theorem GoodRest.later {Γ Γ' : List SharedCell} {m : Use} {p : Pull} (h : GoodRest P E Γ' m p)
    (hl : Later Γ Γ') : GoodRest P E Γ m p := by
  obtain ⟨r, n, env⟩ := p
  cases r with
  | ev e =>
    obtain ⟨Γ'', hl', h⟩ := h
    exact ⟨Γ'', hl.trans hl', h⟩
  | done =>
    obtain ⟨ha, hb, Γ'', hl', h⟩ := h
    exact ⟨ha, hb, Γ'', hl.trans hl', h⟩
  | err e => exact h

theorem adjust_error (hclose : ∀ t, P (.closingTag t) → E (.unexpectedClose t)) {l : Nat} {e : Event}
    {x : StreamError} (he : P e) (h : levelAdjust l e = .error x) : E x := by
  cases e <;> simp only [levelAdjust, Event.openingTagName, Event.closingTagName] at h <;> try cases h
  split at h <;> cases h
  exact hclose _ he

/-- A pull keeps the invariant. -/
def Upholds (P : Event → Prop) (E : StreamError → Prop) (env : Env) (n : Node) (p : Pull) : Prop :=
  ∀ Γ m, Good P E Γ m n → GoodAll P E Γ env → GoodRest P E Γ m p

/-- The same for a peekable stream. -/
def UpholdsPeek (P : Event → Prop) (E : StreamError → Prop) (env : Env) (n : Node) (p : Pull) : Prop :=
  ∀ Γ s x, n = .peek s x → Good P E Γ .any s → (∀ e, x = some e → P e) → GoodAll P E Γ env →
    match p.1 with
    | .ev e => P e ∧ ∃ Γ' s', Later Γ Γ' ∧ GoodAll P E Γ' p.2.2 ∧ p.2.1 = .peek s' none ∧
        Good P E Γ' .any s'
    | .done => True
    | .err e => E e

/-- What was peeked is given. -/
def Peeked (env : Env) (n : Node) (p : Pull) : Prop :=
  ∀ s e, n = .peek s (some e) → e ≠ .noop → p = (.ev e, .peek s none, env)

/-- No self-closed tag is left. -/
def Expanded (n : Node) (p : Pull) : Prop :=
  ∀ s, n = .expandStart s → (∃ t as, p.1 = .ev (.openingTag t as) ∨ p.1 = .ev (.voidTag t as)) ∨
    ∃ e, p.1 = .err e

/-- The same for collecting. -/
def UpholdsCollect (P : Event → Prop) (E : StreamError → Prop) (env : Env) (n : Node)
    (p : Except StreamError (List Event) × Env) : Prop :=
  ∀ Γ m, m ≠ .once → Good P E Γ m n → GoodAll P E Γ env →
    match p.1 with
    | .ok es => (∀ e ∈ es, P e) ∧ m ≠ .never ∧
        (m = .start → ∃ e, es[0]? = some e ∧ isStart e = true) ∧
        ∃ Γ', Later Γ Γ' ∧ GoodAll P E Γ' p.2 ∧ (m = .drain → AtEnd Γ')
    | .error e => E e

set_option maxHeartbeats 4000000 in
theorem machine_good
    (hopen : ∀ t as, P (.selfClosedTag t as) → P (.openingTag t as) ∧ P (.closingTag t))
    (hclose : ∀ t, P (.closingTag t) → E (.unexpectedClose t))
    (hmiss : ∀ t as, P (.openingTag t as) → E (.missingClose t)) :
    (∀ env n p, next env n = some p → Upholds P E env n p ∧ UpholdsPeek P E env n p ∧
      Peeked env n p ∧ Expanded n p) ∧
    (∀ env n p, collect env n = some p → UpholdsCollect P E env n p) ∧
    (∀ env n p, nextSkipNoop env n = some p → Upholds P E env n p ∧ p.1 ≠ .ev .noop ∧
      Peeked env n p ∧ Expanded n p) ∧
    (∀ env n p, drain env n = some p → ∀ Γ m, Common m → Good P E Γ m n → GoodAll P E Γ env →
      GoodRest P E Γ m p ∧ ∀ e, p.1 ≠ .ev e) := by
  refine next.mutual_partial_correctness
    (fun env n p => Upholds P E env n p ∧ UpholdsPeek P E env n p ∧ Peeked env n p ∧ Expanded n p)
    (UpholdsCollect P E)
    (fun env n p => Upholds P E env n p ∧ p.1 ≠ .ev .noop ∧ Peeked env n p ∧ Expanded n p)
    (fun env n p => ∀ Γ m, Common m → Good P E Γ m n → GoodAll P E Γ env →
      GoodRest P E Γ m p ∧ ∀ e, p.1 ≠ .ev e) ?_ ?_ ?_ ?_
  · intro next' collect skip drain h1 h2 h3 h4 env n p h
    refine ⟨?_, ?_, ?_, ?_⟩
    rotate_left
    · rintro Γ s x rfl hs hx henv
      cases x with
      | some e => cases h; exact ⟨hx _ rfl, Γ, s, .refl _, henv, rfl, hs⟩
      | none =>
        simp only [bind, Option.bind_eq_some_iff] at h
        obtain ⟨⟨r, s₁, env₁⟩, hx, h⟩ := h
        cases h
        obtain ⟨hc, hne, -⟩ := h3 _ _ _ hx
        have := hc _ _ hs henv
        cases r with
        | ev e =>
          obtain ⟨Γ', hl, henv', he, hn⟩ := this.ev nofun
          exact ⟨he.resolve_left fun he => hne (by rw [he]), Γ', s₁, hl, henv', rfl, hn⟩
        | done => trivial
        | err e => exact this
    · rintro s e rfl -
      cases h
      rfl
    · rintro s rfl
      simp only [bind, Option.bind_eq_some_iff] at h
      obtain ⟨⟨r, s₁, env₁⟩, hx, h⟩ := h
      rcases r with e | _ | _
      · cases e <;> cases h <;> first
          | exact .inl ⟨_, _, .inl rfl⟩
          | exact .inl ⟨_, _, .inr rfl⟩
          | exact .inr ⟨_, rfl⟩
      all_goals cases h; exact .inr ⟨_, rfl⟩
    intro Γ m hn henv
    have hrefl := Later.refl Γ
    cases hn
    case dead hf => cases h; exact rest_done hf hrefl henv
    case shared Γ m' hf =>
      cases henv with
      | plain hm' hc henv =>
        simp only [bind, Option.bind_eq_some_iff] at h
        obtain ⟨⟨r, s₁, env₁⟩, hx, h⟩ := h
        cases h
        have := (h1 _ _ _ hx).1 _ _ hc henv
        cases r with
        | ev e =>
          obtain ⟨Γ', hl, henv', he, hn⟩ := this.ev hm'.ne.2.1
          exact rest_ev hf.1 hf.2.1 (.plain hl) (.plain hm' hn henv') he (.shared (hf.later (.plain hl)))
        | done =>
          obtain ⟨-, -, Γ', hl, henv', -, hn⟩ := this
          have hf' := hf.later (Later.plain (m := m') hl)
          exact ⟨hf.1, hf.2.1, _, .plain hl, .plain hm' (hn hm'.ne.1) henv', hf'.2.2, fun _ => .shared hf'⟩
        | err e => exact this
    case tmpl es i hes hf =>
      cases hi : es[i]? with
      | none =>
        simp only [hi] at h
        cases h
        exact ⟨hf.1, hf.2.1, Γ, hrefl, henv, hf.2.2, fun _ => .tmpl hes hf⟩
      | some e =>
        simp only [hi] at h
        cases h
        exact rest_ev hf.1 hf.2.1 hrefl henv (.inr (hes _ (List.mem_of_getElem? hi))) (.tmpl hes hf)
    case tmplStart es i e hes hi hs =>
      simp only [hi] at h
      cases h
      exact rest_start ⟨nofun, nofun⟩ hrefl henv (hes _ (List.mem_of_getElem? hi)) hs (.tmpl hes)
    case once x hd hf =>
      cases x with
      | none =>
        cases h
        exact ⟨hf.1, hf.2.1, Γ, hrefl, henv, hf.2.2, fun _ => .once nofun hf⟩
      | some d =>
        cases h
        exact rest_ev hf.1 hf.2.1 hrefl henv (.inr (hd _ rfl)) (.once nofun hf)
    case script rs hrs hE =>
      rcases rs with _ | ⟨_ | _ | _, _⟩ <;> cases h
      · exact ⟨nofun, nofun, Γ, hrefl, henv, nofun, fun h => absurd rfl h⟩
      · exact hE _ (by simp [untilEnd])
      · exact ⟨nofun, nofun, Γ, hrefl, henv, nofun, fun h => absurd rfl h⟩
      · exact rest_ev nofun nofun hrefl henv (.inr (hrs _ (by simp [untilEnd])))
          (.script (fun e he => hrs _ (by simp [untilEnd, he])) fun e he => hE _ (by simp [untilEnd, he]))
    case fallStart hs => cases h; exact ⟨Γ, hrefl, henv, .inl ⟨rfl, .fallEmit hs⟩⟩
    case fallError he => cases h; exact he
    case expandClose hc hf => cases h; exact rest_ev hf.1 hf.2.1 hrefl henv (.inr hc) (.dead hf)
    case singleStart e s he hst hs hf =>
      cases e <;> cases h <;> first
        | exact rest_start hf hrefl henv he rfl (.singleUntil hs)
        | exact rest_start hf hrefl henv he rfl .dead
        | exact hst.resolve_left nofun
    case fallEmit hs =>
      simp only [bind, Option.bind_eq_some_iff] at h
      obtain ⟨⟨r, s₁, env₁⟩, hx, h⟩ := h
      have := (h1 _ _ _ hx).1 _ _ hs henv
      cases r <;> cases h
      · obtain ⟨Γ', hl, henv', hc⟩ := this
        exact ⟨Γ', hl, henv', hc.imp (fun h => ⟨h.1, .fallEmit h.2⟩)
          fun h => ⟨h.1, h.2.1, h.2.2.1, h.2.2.2.1, .fallEmit h.2.2.2.2⟩⟩
      · obtain ⟨ha, hb, Γ', hl, henv', hd, -⟩ := this
        exact rest_done ⟨ha, hb, hd⟩ hl henv'
      · exact this
    case expandEmit hs hf | attrEmit hs hf | applyEmit hs hf =>
      simp only [bind, Option.bind_eq_some_iff] at h
      obtain ⟨⟨r, s₁, env₁⟩, hx, h⟩ := h
      have := (h1 _ _ _ hx).1 _ _ hs henv
      cases r <;> cases h
      · obtain ⟨Γ', hl, henv', he, hn⟩ := this.ev nofun
        first
          | exact rest_ev hf.1 hf.2.1 hl henv' he (.expandEmit hn (hf.later hl))
          | exact rest_ev hf.1 hf.2.1 hl henv' he (.attrEmit hn (hf.later hl))
          | exact rest_ev hf.1 hf.2.1 hl henv' he (.applyEmit hn (hf.later hl))
      · obtain ⟨-, -, Γ', hl, henv', -, -⟩ := this
        exact rest_done (hf.later hl) hl henv'
      · exact this
    case orElseRun hm hs | oncePass hm hs =>
      simp only [bind, Option.bind_eq_some_iff] at h
      obtain ⟨⟨r, s₁, env₁⟩, hx, h⟩ := h
      have := (h1 _ _ _ hx).1 _ _ hs henv
      cases r <;> cases h
      · obtain ⟨Γ', hl, henv', he, hn⟩ := this.ev hm.ne.2.1
        first
          | exact rest_ev hm.ne.2.1 hm.ne.2.2 hl henv' he (.orElseRun hm hn)
          | exact rest_ev hm.ne.2.1 hm.ne.2.2 hl henv' he (.oncePass hm hn)
      · obtain ⟨-, -, Γ', hl, henv', hd, -⟩ := this
        exact rest_done (hm.free hd) hl henv'
      · exact this
    case singleUntil hs hf =>
      simp only [bind, Option.bind_eq_some_iff] at h
      obtain ⟨⟨r, s₁, env₁⟩, hx, h⟩ := h
      have := (h1 _ _ _ hx).1 _ _ hs henv
      cases r <;> cases h
      · obtain ⟨Γ', hl, henv', he, hn⟩ := this.ev nofun
        refine rest_ev hf.1 hf.2.1 hl henv' he ?_
        simp only [singleUntilStep]
        repeat' split
        all_goals first
          | exact .singleUntil hn (hf.later hl)
          | exact .dead (hf.later hl)
      · obtain ⟨-, -, Γ', hl, henv', -, -⟩ := this
        exact rest_done (hf.later hl) hl henv'
      · exact this
    case repEmit hes hk hb hs hf =>
      simp only [bind, Option.bind_eq_some_iff] at h
      obtain ⟨⟨r, s₁, env₁⟩, hx, h⟩ := h
      have := (h1 _ _ _ hx).1 _ _ hs henv
      cases r <;> cases h
      · obtain ⟨Γ', hl, henv', he, hn⟩ := this.ev nofun
        exact rest_ev hf.1 hf.2.1 hl henv' he (.repEmit hes hk hb hn (hf.later hl))
      · obtain ⟨-, -, Γ', hl, henv', -, -⟩ := this
        exact rest_ev hf.1 hf.2.1 hl henv' (.inl rfl) (.repNext hes hk hb (hf.later hl))
      · exact this
    case selActive hb hsel hm hs hst =>
      simp only [bind, Option.bind_eq_some_iff] at h
      obtain ⟨⟨r, s₁, cells⟩, hx, h⟩ := h
      have := (h1 _ _ _ hx).1 _ _ hst (.plain hm hs henv)
      cases cells with
      | nil => cases h
      | cons src' env' =>
        cases r <;> cases h
        · obtain ⟨Γ', hl, henv', he, hn⟩ := this.ev nofun
          cases henv' with
          | plain hm hs' henv' =>
            cases hl with
            | plain hl =>
              exact rest_ev hm.ne.2.1 hm.ne.2.2 hl henv' he (.selActive hm hs' hb hsel hn)
          | content => cases hl
        · obtain ⟨-, -, Γ', hl, henv', -, -⟩ := this
          cases henv' with
          | plain hm hs' henv' =>
            cases hl with
            | plain hl =>
              exact rest_ev hm.ne.2.1 hm.ne.2.2 hl henv' (.inl rfl) (.selScan hm hs' hb hsel)
          | content => cases hl
        · exact this
    case onceActive hm hs hst =>
      simp only [bind, Option.bind_eq_some_iff] at h
      obtain ⟨⟨r, s₁, cells⟩, hx, h⟩ := h
      have := (h1 _ _ _ hx).1 _ _ hst (.plain hm hs henv)
      cases cells with
      | nil => cases h
      | cons src' env' =>
        cases r <;> cases h
        · obtain ⟨Γ', hl, henv', he, hn⟩ := this.ev nofun
          cases henv' with
          | plain hm hs' henv' =>
            cases hl with
            | plain hl =>
              exact rest_ev hm.ne.2.1 hm.ne.2.2 hl henv' he (.onceActive hm hs' hn)
          | content => cases hl
        · obtain ⟨-, -, Γ', hl, henv', -, -⟩ := this
          cases henv' with
          | plain hm hs' henv' =>
            cases hl with
            | plain hl =>
              exact rest_ev hm.ne.2.1 hm.ne.2.2 hl henv' (.inl rfl) (.oncePass hm hs')
          | content => cases hl
        · exact this
    case contContent s x st t c hx hc hs hst hf =>
      simp only [bind, Option.bind_eq_some_iff] at h
      obtain ⟨⟨r, s₁, cells⟩, hy, h⟩ := h
      have := (h1 _ _ _ hy).1 _ _ hst (.content hs hx hc henv)
      cases cells with
      | nil => cases h
      | cons src' env' =>
        cases r <;> cases h
        · obtain ⟨Γ', hl, henv', he, hn⟩ := this.ev nofun
          cases henv' with
          | plain => cases hl
          | content hs' hx' hc' henv' =>
            cases hl with
            | content hcc hl =>
              exact rest_ev hf.1 hf.2.1 hl henv' he (.contContent hs' hx' hc' hn (hf.later hl))
        · obtain ⟨-, -, Γ', hl, henv', hd, -⟩ := this
          obtain ⟨t', Γ'', rfl⟩ := hd rfl
          cases hl with
          | content hcc hl =>
            cases henv' with
            | content hs' hx' hc' henv' =>
              obtain ⟨e, rfl, he⟩ := hc' rfl
              exact rest_ev hf.1 hf.2.1 hl henv' (.inl rfl) (.contClose (hx' _ rfl) he (hf.later hl))
        · exact this
    case combFirst m' s t ha hb hs hc hd ht =>
      simp only [bind, Option.bind_eq_some_iff] at h
      obtain ⟨⟨r, s₁, env₁⟩, hx, h⟩ := h
      have := (h3 _ _ _ hx).1 _ _ hs henv
      cases r <;> cases h
      · obtain ⟨Γ', hl, henv', he, hn⟩ := this.ev ha
        exact rest_ev hc hd hl henv' he (.combFirst hn ha hb hc hd fun Γ'' hl' => ht Γ'' (hl.trans hl'))
      · obtain ⟨-, -, Γ', hl, henv', hdr, -⟩ := this
        exact rest_ev hc hd hl henv' (.inl rfl) (ht _ hl hdr)
      · exact this
    case combSecond m' s ha hb hs hc hd hdr =>
      simp only [bind, Option.bind_eq_some_iff] at h
      obtain ⟨⟨r, s₁, env₁⟩, hx, h⟩ := h
      have := (h3 _ _ _ hx).1 _ _ hs henv
      cases r <;> cases h
      · obtain ⟨Γ', hl, henv', he, hn⟩ := this.ev ha
        exact rest_ev hc hd hl henv' he
          (.combSecond hn ha hb hc hd fun h => (hdr h).imp_right fun h => h.later hl)
      · obtain ⟨-, -, Γ', hl, henv', hdn, -⟩ := this
        exact rest_done ⟨hc, hd, fun h => (hdr h).elim hdn fun h => h.later hl⟩ hl henv'
      · exact this
    case expandStart hs hf =>
      simp only [bind, Option.bind_eq_some_iff] at h
      obtain ⟨⟨r, s₁, env₁⟩, hx, h⟩ := h
      obtain ⟨hc, hne, -⟩ := h3 _ _ _ hx
      have := hc _ _ hs henv
      rcases r with e | _ | _
      · obtain ⟨Γ', hl, henv', ⟨rfl, -⟩ | ⟨-, he, -, hst, hn⟩⟩ := this
        · exact absurd rfl hne
        cases e <;> first
          | cases hst rfl; done
          | (cases h
             first
              | exact rest_start hf hl henv' he rfl (.expandEmit hn)
              | exact rest_start hf hl henv' (hopen _ _ he).1 rfl (.expandClose (hopen _ _ he).2)
              | exact rest_start hf hl henv' he rfl .dead)
      · exact absurd rfl this.1
      · cases h; exact this
    case attrStart op s ha hs hf =>
      simp only [bind, Option.bind_eq_some_iff] at h
      obtain ⟨⟨r, s₁, env₁⟩, hx, h⟩ := h
      obtain ⟨hc, hne, -⟩ := h3 _ _ _ hx
      have := hc _ _ hs henv
      rcases r with e | _ | _
      · obtain ⟨Γ', hl, henv', ⟨rfl, -⟩ | ⟨-, he, -, hst, hn⟩⟩ := this
        · exact absurd rfl hne
        cases e <;> first
          | cases hst rfl; done
          | (cases h
             first
              | exact rest_start hf hl henv' ((ha _ _).1 he) rfl (.attrEmit hn)
              | exact rest_start hf hl henv' ((ha _ _).2.1 he) rfl .dead
              | exact rest_start hf hl henv' ((ha _ _).2.2 he) rfl .dead)
      · exact absurd rfl this.1
      · cases h; exact this
    case contOpen s k b hb hs hf =>
      simp only [bind, Option.bind_eq_some_iff] at h
      obtain ⟨⟨r, s₁, env₁⟩, hx, h⟩ := h
      obtain ⟨hc, hne, -, hex⟩ := h3 _ _ _ hx
      have := hc _ _ hs henv
      rcases r with e | _ | _
      · obtain ⟨Γ', hl, henv', ⟨rfl, -⟩ | ⟨-, he, -, hst, hn⟩⟩ := this
        · exact absurd rfl hne
        cases e
        case openingTag t as =>
          cases h
          refine rest_start hf hl henv' he rfl (.contContent (c := false) hn nofun nofun ?_)
          refine (Lev.build (a := .gen) b hb (.inr rfl) ?_ _ (.refl _)).good
          intro Γ'' hl''
          cases hl'' with
          | content => exact Good.curContent he (fun _ => rfl) (.inr rfl)
        case voidTag => cases h; exact rest_start hf hl henv' he rfl .dead
        case selfClosedTag => rcases hex _ rfl with ⟨_, _, h | h⟩ | ⟨_, h⟩ <;> cases h
        all_goals cases hst rfl
      · exact absurd rfl this.1
      · cases h; exact this
    case expandNever hs | attrNever hs | contNever hs =>
      simp only [bind, Option.bind_eq_some_iff] at h
      obtain ⟨⟨r, s₁, env₁⟩, hx, h⟩ := h
      obtain ⟨hc, hne, -⟩ := h3 _ _ _ hx
      have := hc _ _ hs henv
      rcases r with e | _ | _
      · obtain ⟨Γ', hl, henv', ⟨rfl, -⟩ | ⟨-, he, hn, -⟩⟩ := this
        · exact absurd rfl hne
        · exact absurd rfl hn
      · exact absurd rfl this.2.1
      · cases h; exact this
    case contClose s e t he hcl hf =>
      simp only [bind, Option.bind_eq_some_iff] at h
      obtain ⟨⟨r, s₁, env₁⟩, hx, h⟩ := h
      have := (h3 _ _ _ hx).2.2.1 _ _ rfl (by rintro rfl; cases hcl)
      cases this
      cases e
      case closingTag t' =>
        simp only at h
        rw [if_pos (by simpa [Event.isClosingTagFor] using hcl)] at h
        cases h
        exact rest_ev hf.1 hf.2.1 hrefl henv (.inr he) (.dead hf)
      all_goals cases hcl
    case remove hm hs =>
      simp only [bind, Option.bind_eq_some_iff] at h
      obtain ⟨⟨r, s₁, env₁⟩, hx, h⟩ := h
      obtain ⟨this, hne⟩ := h4 _ _ _ hx _ _ hm hs henv
      cases h
      cases r with
      | ev e => exact absurd rfl (hne e)
      | done =>
        obtain ⟨ha, hb, Γ', hl, henv', hd, hn⟩ := this
        exact ⟨ha, hb, Γ', hl, henv', hd, fun h => .remove hm (hn h)⟩
      | err e => exact this
    case repCollect m' s n k k' b ho hk hb hs hm hd =>
      simp only [bind, Option.bind_eq_some_iff] at h
      obtain ⟨⟨r, env₁⟩, hx, h⟩ := h
      have := h2 _ _ _ hx _ _ ho hs henv
      cases r <;> cases h
      · exact this
      · obtain ⟨hes, hne, hst, Γ', hl, henv', hdr⟩ := this
        exact rest_ev hm.ne.2.1 hm.ne.2.2 hl henv' (.inl rfl) (.repNext hes
          (fun h => hst ((hk h).resolve_right hne)) hb
          (hm.free fun h => hdr ((hd h).resolve_right hne)))
    case applyCollect s g hg hE hm hs =>
      simp only [bind, Option.bind_eq_some_iff] at h
      obtain ⟨⟨r, env₁⟩, hx, h⟩ := h
      have := h2 _ _ _ hx _ _ hm.ne.1 hs henv
      cases r with
      | error e => cases h; exact this
      | ok es =>
        obtain ⟨hes, hne, hst, Γ', hl, henv', hdr⟩ := this
        cases hgt : g ⟨es⟩ <;> simp only [hgt] at h <;> cases h
        · exact hE _ _ hgt
        · exact rest_ev hm.ne.2.1 hm.ne.2.2 hl henv' (.inl rfl)
            (.applyEmit (.tmpl (hg _ _ hes hgt) .any) (hm.free hdr))
    case repNext es i n k k' b hes hk hb hf =>
      simp only at h
      split at h <;> cases h
      · refine rest_ev hf.1 hf.2.1 hrefl henv (.inl rfl) (.repEmit hes hk hb ?_ hf)
        refine (Lev.build (b i) (hb i) (.inl rfl) ?_ _ hrefl).good
        intro Γ' _
        cases k with
        | gen => exact Good.tmpl hes .any
        | elem =>
          obtain ⟨e, he, hs⟩ := hk rfl
          exact .inl ⟨rfl, .tmplStart hes he hs⟩
      · exact rest_done hf hrefl henv
    case orElseStart hm hr hs =>
      simp only at h
      split at h <;> cases h
      · exact rest_ev hm.ne.2.1 hm.ne.2.2 hrefl henv (.inl rfl) (.orElseRun hm hr)
      · exact rest_ev hm.ne.2.1 hm.ne.2.2 hrefl henv (.inl rfl) (.orElseRun hm hs)
    case selScan src s direct k bld count level hb hsel hm hs =>
      simp only [bind, Option.bind_eq_some_iff] at h
      obtain ⟨⟨r, s₁, env₁⟩, hx, h⟩ := h
      obtain ⟨hc, hne, -⟩ := h3 _ _ _ hx
      have := hc _ _ hs henv
      cases r with
      | ev e =>
        obtain ⟨Γ', hl, henv', he, hn⟩ := this.ev hm.ne.2.1
        replace he := he.resolve_left fun he => hne (by rw [he])
        simp only at h
        split at h
        next hsm =>
          cases h
          refine rest_ev hm.ne.2.1 hm.ne.2.2 hl henv' (.inl rfl) (.selActive hm hn hb hsel ?_)
          refine (Lev.build (bld _) (hb _) (.inl rfl) ?_ _ (.refl _)).good
          intro Γ'' hl''
          cases hl'' with
          | plain =>
            exact .inl ⟨rfl, .singleStart he (hsel _ he (by simp_all)) (.shared .any) ⟨nofun, nofun⟩⟩
        next =>
          cases hlv : levelAdjust level e <;> simp only [hlv] at h <;> cases h
          · exact adjust_error hclose he hlv
          · exact rest_ev hm.ne.2.1 hm.ne.2.2 hl henv' (.inr he) (.selScan hm hn hb hsel)
      | done =>
        cases h
        obtain ⟨-, -, Γ', hl, henv', hd, -⟩ := this
        exact rest_done (hm.free hd) hl henv'
      | err e => cases h; exact this
    case onceScan src s direct k bld level hb hsel hm hs =>
      simp only [bind, Option.bind_eq_some_iff] at h
      obtain ⟨⟨r, s₁, env₁⟩, hx, h⟩ := h
      obtain ⟨hc, hne, -⟩ := h3 _ _ _ hx
      have := hc _ _ hs henv
      cases r with
      | ev e =>
        obtain ⟨Γ', hl, henv', he, hn⟩ := this.ev hm.ne.2.1
        replace he := he.resolve_left fun he => hne (by rw [he])
        simp only at h
        split at h
        next hsm =>
          cases h
          refine rest_ev hm.ne.2.1 hm.ne.2.2 hl henv' (.inl rfl) (.onceActive hm hn ?_)
          refine (Lev.build bld hb (.inl rfl) ?_ _ (.refl _)).good
          intro Γ'' hl''
          cases hl'' with
          | plain =>
            exact .inl ⟨rfl, .singleStart he (hsel _ he (by simp_all)) (.shared .any) ⟨nofun, nofun⟩⟩
        next =>
          cases hlv : levelAdjust level e <;> simp only [hlv] at h <;> cases h
          · exact adjust_error hclose he hlv
          · exact rest_ev hm.ne.2.1 hm.ne.2.2 hl henv' (.inr he) (.onceScan hm hn hb hsel)
      | done =>
        cases h
        obtain ⟨-, -, Γ', hl, henv', hd, -⟩ := this
        exact rest_done (hm.free hd) hl henv'
      | err e => cases h; exact this
    case curContent Γ tag as level c hP hcl hm =>
      cases henv with
      | @content _ _ _ s buffered env hs hb hc henv =>
        simp only [bind] at h
        rw [Option.bind_eq_some_iff] at h
        obtain ⟨⟨r, s₁, b₁, env₁⟩, hx, h⟩ := h
        have phase : (∃ e, r = .err e ∧ E e) ∨ ∃ Γ', Later Γ Γ' ∧ Good P E Γ' .any s₁ ∧
            (∀ e, b₁ = some e → P e) ∧ GoodAll P E Γ' env₁ ∧
            (∀ e, r ≠ .err e) ∧ (level = 0 → ∀ e, r = .ev e → b₁ = some e) ∧
            (c = true → ∃ e, r = .ev e ∧ e.isClosingTagFor tag = true) := by
          by_cases hl : level = 0
          · rw [if_pos hl] at hx
            cases buffered with
            | some e =>
              cases hx
              refine .inr ⟨Γ, .refl _, hs, hb, henv, nofun, ?_, ?_⟩
              · rintro - _ ⟨⟩; rfl
              · intro h
                obtain ⟨e, he, hcl⟩ := hc h
                cases he
                exact ⟨_, rfl, hcl⟩
            | none =>
              have hcf : c ≠ true := fun h => by obtain ⟨e, he, -⟩ := hc h; cases he
              simp only [Option.bind_eq_some_iff] at hx
              obtain ⟨⟨r', s₂, env₂⟩, hy, hx⟩ := hx
              obtain ⟨hcc, hne, -⟩ := h3 _ _ _ hy
              have := hcc _ _ hs henv
              cases r' with
              | ev e =>
                cases hx
                obtain ⟨Γ', hl, henv', he, hn⟩ := this.ev nofun
                refine .inr ⟨Γ', hl, hn, ?_, henv', nofun, ?_, fun h => absurd h hcf⟩
                · rintro _ ⟨⟩
                  exact he.resolve_left fun he => hne (by rw [he])
                · rintro - _ ⟨⟩; rfl
              | done =>
                cases hx
                obtain ⟨-, -, Γ', hl, henv', -, hn⟩ := this
                exact .inr ⟨Γ', hl, hn nofun, nofun, henv', nofun, nofun, fun h => absurd h hcf⟩
              | err e => cases hx; exact .inl ⟨_, rfl, this⟩
          · rw [if_neg hl] at hx
            cases hx
            exact .inr ⟨Γ, .refl _, hs, hb, henv, nofun, fun h => absurd h hl, fun h => absurd (hcl h) hl⟩
        rcases phase with ⟨e, rfl, he⟩ | ⟨Γ', hlt, hs₁, hb₁, henv₁, hne, hr, hcc⟩
        · cases h; exact he
        cases r with
        | done => cases h; exact hmiss _ _ hP
        | err e => exact absurd rfl (hne e)
        | ev peeked =>
          simp only at h
          split at h
          next hcond =>
            cases h
            simp only [Bool.and_eq_true, decide_eq_true_eq] at hcond
            have hbe := hr hcond.1 _ rfl
            subst hbe
            have hl' : Later (.content tag c :: Γ) (.content tag true :: Γ') := .content (fun _ => rfl) hlt
            exact rest_done (hm.free fun _ => ⟨_, _, rfl⟩) hl'
              (.content hs₁ hb₁ (fun _ => ⟨_, rfl, hcond.2⟩) henv₁)
          next hcond =>
            have hcf : c ≠ true := by
              intro h
              obtain ⟨e, he, hcl'⟩ := hcc h
              cases he
              exact hcond (by simp [hcl h, hcl'])
            rw [Option.bind_eq_some_iff] at h
            obtain ⟨⟨r, cell, env₂⟩, hy, h⟩ := h
            have := (h1 _ _ _ hy).2.1 _ _ _ rfl hs₁ hb₁ henv₁
            cases r with
            | done => cases h; exact hmiss _ _ hP
            | err e => cases h; exact this
            | ev e =>
              cases hl : levelAdjust level e <;> simp only [hl] at h <;> cases h
              · exact hmiss _ _ hP
              · obtain ⟨he, Γ'', s', hl'', henv'', rfl, hn⟩ := this
                exact rest_ev hm.ne.2.1 hm.ne.2.2 (.content (c' := c) id (hlt.trans hl''))
                  (.content hn nofun (fun h => absurd h hcf) henv'') (.inr he)
                  (.curContent hP (fun h => absurd h hcf) hm)
  · intro collect' skip h2 h3 env n p h Γ m ho hn henv
    simp only [bind, Option.bind_eq_some_iff] at h
    obtain ⟨⟨r, s₁, env₁⟩, hx, h⟩ := h
    obtain ⟨hc, hne, -⟩ := h3 _ _ _ hx
    have := hc _ _ hn henv
    cases r with
    | done =>
      cases h
      obtain ⟨ha, hb, Γ', hl, henv', hd, -⟩ := this
      exact ⟨by simp, hb, fun h => absurd h ha, Γ', hl, henv', hd⟩
    | err e => cases h; exact this
    | ev e =>
      obtain ⟨Γ', hl, henv', ⟨rfl, -⟩ | ⟨-, he, hnv, hst, hn⟩⟩ := this
      · exact absurd rfl hne
      simp only [Option.bind_eq_some_iff] at h
      obtain ⟨⟨r, env₂⟩, hy, h⟩ := h
      have h5 := h2 _ _ _ hy _ _ (by cases m <;> simp_all [Use.after]) hn henv'
      cases r <;> cases h
      · exact h5
      · obtain ⟨hes, -, -, Γ'', hl', henv'', hd⟩ := h5
        refine ⟨List.forall_mem_cons.2 ⟨he, hes⟩, hnv, fun h => ⟨e, rfl, hst h⟩, Γ'', hl.trans hl',
          henv'', ?_⟩
        rintro rfl
        exact hd rfl
  · intro next' skip h1 h3 env n p h
    simp only [bind, Option.bind_eq_some_iff] at h
    obtain ⟨⟨r, s₁, env₁⟩, hx, h⟩ := h
    by_cases hr : r = .ev .noop
    · subst hr
      simp only at h
      refine ⟨?_, (h3 _ _ _ h).2.1, ?_, ?_⟩
      · intro Γ m hn henv
        obtain ⟨Γ', hl, henv', ⟨-, hn⟩ | ⟨hne, -⟩⟩ := (h1 _ _ _ hx).1 _ _ hn henv
        · exact ((h3 _ _ _ h).1 _ _ hn henv').later hl
        · exact absurd rfl hne
      · intro s e hn hne
        have := (h1 _ _ _ hx).2.2.1 _ _ hn hne
        cases this
        exact absurd rfl hne
      · intro s hn
        rcases (h1 _ _ _ hx).2.2.2 _ hn with ⟨_, _, h | h⟩ | ⟨_, h⟩ <;> cases h
    · have : p = (r, s₁, env₁) := by
        revert h
        split
        · exact fun h => absurd (by assumption) hr
        · rintro ⟨⟩; rfl
      subst this
      exact ⟨(h1 _ _ _ hx).1, hr, (h1 _ _ _ hx).2.2⟩
  · intro next' drain h1 h4 env n p h Γ m hm hn henv
    simp only [bind, Option.bind_eq_some_iff] at h
    obtain ⟨⟨r, s₁, env₁⟩, hx, h⟩ := h
    have := (h1 _ _ _ hx).1 _ _ hn henv
    cases r with
    | ev e =>
      obtain ⟨Γ', hl, henv', he, hn⟩ := this.ev hm.ne.2.1
      have := h4 _ _ _ h _ _ hm hn henv'
      exact ⟨this.1.later hl, this.2⟩
    | done => cases h; exact ⟨this, nofun⟩
    | err e => cases h; exact ⟨this, nofun⟩

theorem fault_of_transform {k : Kind} {P : Event → Prop}
    (hopen : ∀ t as, P (.selfClosedTag t as) → P (.openingTag t as) ∧ P (.closingTag t))
    {t : Template} {p : Prog .gen k} (hk : Keeps P p) (hP : ∀ e ∈ t.events, P e) {e : StreamError}
    (h : t.transform p = some (.error e)) :
    Raises p e ∨ ∃ x, e = .assertion x ∧ Fault P (Matched p) x := by
  simp only [Template.transform, bind, Option.bind_eq_some_iff] at h
  obtain ⟨⟨r, env⟩, hc, h⟩ := h
  cases r with
  | ok es => cases h
  | error e' =>
    cases h
    let E : StreamError → Prop := fun e => Raises p e ∨ ∃ x, e = .assertion x ∧ Fault P (Matched p) x
    have hf : Suited P E p := by
      refine ⟨hk, fun e he => .inl he, fun e hp hm => ?_⟩
      cases hs : isStart e with
      | true => exact .inl hs
      | false => exact .inr (.inr ⟨_, rfl, .notElement hp hm hs⟩)
    have hg := (Lev.build (P := P) (E := E) (Γ := []) (n := t.toStream) p hf (.inl rfl)
      (fun Γ _ => Good.tmpl hP .any) [] .nil).good
    exact (machine_good (P := P) (E := E) hopen (fun t ht => .inr ⟨_, rfl, .unexpected ht⟩)
      (fun t as ht => .inr ⟨_, rfl, .unclosed ht⟩)).2.1 _ _ _ hc [] .any nofun hg .nil

theorem keeps_true {a k : Kind} (p : Prog a k) : Keeps (fun _ => True) p := by
  induction p <;> simp_all [Keeps, Each]

theorem matched_start {a k : Kind} {p : Prog a k} (h : StartSelectors p) {e : Event}
    (hm : Matched p e) : isStart e = true := by
  induction p with
  | src | fallErr => exact hm.elim
  | forget p ih | fallOk p ih | remove p ih | prepend p _ ih | append p _ ih | applyTemplate p _ ih
    | attr p _ ih => exact ih h hm
  | apply p q ih ih' => exact hm.elim (ih h.1) (ih' h.2)
  | selectRaw p s d b ih ih' =>
    rcases hm with hm | hm | ⟨i, hm⟩
    · exact ih h.1 hm
    · exact h.2.1 e hm
    · exact ih' i (h.2.2 i) hm
  | selectOnceRaw p s d b ih ih' =>
    rcases hm with hm | hm | hm
    · exact ih h.1 hm
    · exact h.2.1 e hm
    · exact ih' h.2.2 hm
  | «repeat» p n b ih ih' =>
    rcases hm with hm | ⟨i, hm⟩
    · exact ih h.1 hm
    · exact ih' i (h.2 i) hm
  | orElse p n r q ih ih' ih'' =>
    rcases hm with hm | hm | hm
    · exact ih h.1 hm
    · exact ih' h.2.1 hm
    · exact ih'' h.2.2 hm
  | contents p b ih ih' => exact hm.elim (ih h.1) (ih' h.2)

/-- Runs the machine on a given stream. -/
macro "run_machine" : tactic => `(tactic|
  repeat (first
    | rfl
    | dsimp only [bind, Option.bind_some, Prog.build, Prog.fallible, Except.map, Template.toStream,
        passthrough, singleUntilStep, levelAdjust, Event.openingTagName, Event.closingTagName,
        Event.isOpeningTagFor, Event.isClosingTagFor,
        List.getElem?_cons_zero, List.getElem?_nil, List.getElem?_cons_succ]
    | rw [if_pos (by rfl)] | rw [if_neg (by decide)]
    | rw [next.eq_def] | rw [nextSkipNoop.eq_def] | rw [collect.eq_def] | rw [drain.eq_def]))

end Fuser
