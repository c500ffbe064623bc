import Verif.Spec.Resolve
import Verif.Proof.Machine

/-!
# Every run of user code with state in common is a run without

The proof goes backwards through a run: from what is left of the streams after a step, and what the
step used, it makes what was left of the streams before the step.
-/

namespace Fuser

open Spec

variable {σ : Type}

/-- `Resolves` for the states of streams. -/
inductive ResolvesNode : UNode σ → Node → Prop
  | dead : ResolvesNode .dead .dead
  | shared : ResolvesNode .shared .shared
  | tmpl {es i} : ResolvesNode (.tmpl es i) (.tmpl es i)
  | once {d} : ResolvesNode (.once d) (.once d)
  | stream {j pull after rs} : (∀ i r, rs[i]? = some r → ∃ u, pull (j + i) u = r) →
      ResolvesNode (.stream j pull after) (.script rs)
  | fallStart {s s'} : ResolvesNode s s' → ResolvesNode (.fallStart s) (.fallStart s')
  | fallError {e} : ResolvesNode (.fallError e) (.fallError e)
  | fallEmit {s s'} : ResolvesNode s s' → ResolvesNode (.fallEmit s) (.fallEmit s')
  | expandStart {s s'} : ResolvesNode s s' → ResolvesNode (.expandStart s) (.expandStart s')
  | expandEmit {s s'} : ResolvesNode s s' → ResolvesNode (.expandEmit s) (.expandEmit s')
  | expandClose {t} : ResolvesNode (.expandClose t) (.expandClose t)
  | peek {s s' b} : ResolvesNode s s' → ResolvesNode (.peek s b) (.peek s' b)
  | combFirst {s s' t t'} : ResolvesNode s s' → ResolvesNode t t' →
      ResolvesNode (.combFirst s t) (.combFirst s' t')
  | combSecond {s s'} : ResolvesNode s s' → ResolvesNode (.combSecond s) (.combSecond s')
  | singleStart {e s s'} : ResolvesNode s s' → ResolvesNode (.singleStart e s) (.singleStart e s')
  | singleUntil {t s s' l} :
      ResolvesNode s s' → ResolvesNode (.singleUntil t s l) (.singleUntil t s' l)
  | selScan {src src' s d k b g j c l} (at_ : Nat → σ) : ResolvesNode src src' →
      (∀ i, Resolves (b (j + i) (at_ i)) (c i)) →
      ResolvesNode (.selScan src s d k b g j l) (.selScan src' s d k c 0 l)
  | selActive {src src' s d k b g j c l st st'} (at_ : Nat → σ) : ResolvesNode src src' →
      (∀ i, Resolves (b (j + i) (at_ i)) (c i)) → ResolvesNode st st' →
      ResolvesNode (.selActive src s d k b g j l st) (.selActive src' s d k c 0 l st')
  | onceScan {src src' s d k b g c l} (u : σ) : ResolvesNode src src' → Resolves (b u) c →
      ResolvesNode (.onceScan src s d k b g l) (.onceScan src' s d k c l)
  | onceActive {src src' st st'} : ResolvesNode src src' → ResolvesNode st st' →
      ResolvesNode (.onceActive src st) (.onceActive src' st')
  | oncePass {s s'} : ResolvesNode s s' → ResolvesNode (.oncePass s) (.oncePass s')
  | contOpen {s s' k b g c} (u : σ) : ResolvesNode s s' → Resolves (b u) c →
      ResolvesNode (.contOpen s k b g) (.contOpen s' k c)
  | contContent {src src' st st' t} : ResolvesNode src src' → ResolvesNode st st' →
      ResolvesNode (.contContent src st t) (.contContent src' st' t)
  | contClose {s s' t} : ResolvesNode s s' → ResolvesNode (.contClose s t) (.contClose s' t)
  | curContent {t l} : ResolvesNode (.curContent t l) (.curContent t l)
  | attrStart {op s s'} : ResolvesNode s s' → ResolvesNode (.attrStart op s) (.attrStart op s')
  | attrEmit {s s'} : ResolvesNode s s' → ResolvesNode (.attrEmit s) (.attrEmit s')
  | remove {s s'} : ResolvesNode s s' → ResolvesNode (.remove s) (.remove s')
  | repCollect {s s' n k k' m b g c} (at_ : Nat → σ) : ResolvesNode s s' →
      (∀ i < n, m i (at_ i) = true) → (∀ i, Resolves (b i (at_ i)) (c i)) →
      ResolvesNode (.repCollect s k k' m b g) (.repCollect s' n k k' c)
  | repNext {es j n k k' m b g c} (at_ : Nat → σ) :
      (∀ i < n, m (j + i) (at_ i) = true) → (∀ i, Resolves (b (j + i) (at_ i)) (c i)) →
      ResolvesNode (.repNext es j k k' m b g) (.repNext es 0 n k k' c)
  | repEmit {es j n k k' m b g c s s'} (at_ : Nat → σ) :
      (∀ i < n, m (j + i) (at_ i) = true) → (∀ i, Resolves (b (j + i) (at_ i)) (c i)) →
      ResolvesNode s s' →
      ResolvesNode (.repEmit es j k k' m b g s) (.repEmit es 0 n k k' c s')
  | orElseStart {s s' n k k₁ k₂ m r f g r' f'} (u : σ) : ResolvesNode s s' →
      (0 < n ↔ m u = true) → Resolves (r u) r' → Resolves (f u) f' →
      ResolvesNode (.orElseStart s k k₁ k₂ m r f g) (.orElseStart n (r'.build s') (f'.build s'))
  | orElseRun {s s'} : ResolvesNode s s' → ResolvesNode (.orElseRun s) (.orElseRun s')
  | applyCollect {s s' f g} (u : σ) : ResolvesNode s s' →
      ResolvesNode (.applyCollect s f g) (.applyCollect s' (f u))
  | applyEmit {s s'} : ResolvesNode s s' → ResolvesNode (.applyEmit s) (.applyEmit s')

/-- States that differ only in the closures for calls already made. -/
inductive Shifted : Node → Node → Prop
  | dead : Shifted .dead .dead
  | shared : Shifted .shared .shared
  | tmpl {es i} : Shifted (.tmpl es i) (.tmpl es i)
  | once {d} : Shifted (.once d) (.once d)
  | script {rs} : Shifted (.script rs) (.script rs)
  | fallStart {s s'} : Shifted s s' → Shifted (.fallStart s) (.fallStart s')
  | fallError {e} : Shifted (.fallError e) (.fallError e)
  | fallEmit {s s'} : Shifted s s' → Shifted (.fallEmit s) (.fallEmit s')
  | expandStart {s s'} : Shifted s s' → Shifted (.expandStart s) (.expandStart s')
  | expandEmit {s s'} : Shifted s s' → Shifted (.expandEmit s) (.expandEmit s')
  | expandClose {t} : Shifted (.expandClose t) (.expandClose t)
  | peek {s s' b} : Shifted s s' → Shifted (.peek s b) (.peek s' b)
  | combFirst {s s' t t'} : Shifted s s' → Shifted t t' →
      Shifted (.combFirst s t) (.combFirst s' t')
  | combSecond {s s'} : Shifted s s' → Shifted (.combSecond s) (.combSecond s')
  | singleStart {e s s'} : Shifted s s' → Shifted (.singleStart e s) (.singleStart e s')
  | singleUntil {t s s' l} : Shifted s s' → Shifted (.singleUntil t s l) (.singleUntil t s' l)
  | selScan {src src' s d k b c n n' l} : Shifted src src' → (∀ x, b (n + x) = c (n' + x)) →
      Shifted (.selScan src s d k b n l) (.selScan src' s d k c n' l)
  | selActive {src src' s d k b c n n' l st st'} : Shifted src src' →
      (∀ x, b (n + x) = c (n' + x)) → Shifted st st' →
      Shifted (.selActive src s d k b n l st) (.selActive src' s d k c n' l st')
  | onceScan {src src' s d k b l} : Shifted src src' →
      Shifted (.onceScan src s d k b l) (.onceScan src' s d k b l)
  | onceActive {src src' st st'} : Shifted src src' → Shifted st st' →
      Shifted (.onceActive src st) (.onceActive src' st')
  | oncePass {s s'} : Shifted s s' → Shifted (.oncePass s) (.oncePass s')
  | contOpen {s s' k b} : Shifted s s' → Shifted (.contOpen s k b) (.contOpen s' k b)
  | contContent {src src' st st' t} : Shifted src src' → Shifted st st' →
      Shifted (.contContent src st t) (.contContent src' st' t)
  | contClose {s s' t} : Shifted s s' → Shifted (.contClose s t) (.contClose s' t)
  | curContent {t l} : Shifted (.curContent t l) (.curContent t l)
  | attrStart {op s s'} : Shifted s s' → Shifted (.attrStart op s) (.attrStart op s')
  | attrEmit {s s'} : Shifted s s' → Shifted (.attrEmit s) (.attrEmit s')
  | remove {s s'} : Shifted s s' → Shifted (.remove s) (.remove s')
  | repCollect {s s' n k k' b} : Shifted s s' →
      Shifted (.repCollect s n k k' b) (.repCollect s' n k k' b)
  | repNext {es i i' n n' k k' b c} : n - i = n' - i' → (∀ x < n - i, b (i + x) = c (i' + x)) →
      Shifted (.repNext es i n k k' b) (.repNext es i' n' k k' c)
  | repEmit {es i i' n n' k k' b c s s'} : n - i = n' - i' →
      (∀ x < n - i, b (i + x) = c (i' + x)) → Shifted s s' →
      Shifted (.repEmit es i n k k' b s) (.repEmit es i' n' k k' c s')
  | orElseStart {n r r' f f'} : Shifted r r' → Shifted f f' →
      Shifted (.orElseStart n r f) (.orElseStart n r' f')
  | orElseRun {s s'} : Shifted s s' → Shifted (.orElseRun s) (.orElseRun s')
  | applyCollect {s s' f} : Shifted s s' → Shifted (.applyCollect s f) (.applyCollect s' f)
  | applyEmit {s s'} : Shifted s s' → Shifted (.applyEmit s) (.applyEmit s')

theorem Shifted.refl (n : Node) : Shifted n n := by
  induction n with
  | selScan _ _ _ _ _ _ _ ih => exact .selScan ih fun _ => rfl
  | selActive _ _ _ _ _ _ _ _ ih₁ ih₂ => exact .selActive ih₁ (fun _ => rfl) ih₂
  | repNext => exact .repNext rfl fun _ _ => rfl
  | repEmit _ _ _ _ _ _ _ ih => exact .repEmit rfl (fun _ _ => rfl) ih
  | _ => constructor <;> assumption

theorem Shifted.refl_env (env : Env) : List.Forall₂ Shifted env env := by
  induction env with
  | nil => exact .nil
  | cons n _ ih => exact .cons (.refl n) ih

theorem exists_content (c : UContent σ) : ∃ d, ResolvesContent c d := by
  induction c with
  | data d => exact ⟨_, .data⟩
  | template t => exact ⟨_, .template⟩
  | stream pull after => exact ⟨.script [], .stream (by intro i r h; simp at h)⟩
  | resultOk c ih => exact ⟨_, .resultOk ih.choose_spec⟩
  | resultErr e => exact ⟨_, .resultErr⟩

theorem exists_calls (u : σ) {a k : Kind} (p : UProg σ a k) : ∃ q, Resolves p q := by
  induction p with
  | src => exact ⟨_, .src⟩
  | forget _ ih => exact ⟨_, .forget ih.choose_spec⟩
  | apply _ _ ih₁ ih₂ => exact ⟨_, .apply ih₁.choose_spec ih₂.choose_spec⟩
  | fallOk _ ih => exact ⟨_, .fallOk ih.choose_spec⟩
  | fallErr e => exact ⟨_, .fallErr⟩
  | selectRaw _ _ _ _ _ ih ihb =>
    exact ⟨_, .selectRaw (fun _ => u) ih.choose_spec fun i => (ihb i u).choose_spec⟩
  | selectOnceRaw _ _ _ _ _ ih ihb =>
    exact ⟨_, .selectOnceRaw u ih.choose_spec (ihb u).choose_spec⟩
  | remove _ ih => exact ⟨_, .remove ih.choose_spec⟩
  | prepend _ c ih => exact ⟨_, .prepend ih.choose_spec (exists_content c).choose_spec⟩
  | append _ c ih => exact ⟨_, .append ih.choose_spec (exists_content c).choose_spec⟩
  | «repeat» _ _ _ _ ih ihb =>
    exact ⟨_, .repeat (n := 0) (fun _ => u) ih.choose_spec (by intro i h; omega)
      fun i => (ihb i u).choose_spec⟩
  | orElse _ more _ _ _ ih ih₁ ih₂ =>
    exact ⟨_, .orElse (n := if more u then 1 else 0) u ih.choose_spec
      (by cases more u <;> simp) (ih₁ u).choose_spec (ih₂ u).choose_spec⟩
  | applyTemplate _ _ _ ih => exact ⟨_, .applyTemplate u ih.choose_spec⟩
  | contents _ _ _ ih ihb => exact ⟨_, .contents u ih.choose_spec (ihb u).choose_spec⟩
  | attr _ _ ih => exact ⟨_, .attr ih.choose_spec⟩

theorem exists_node (u : σ) (n : UNode σ) : ∃ m, ResolvesNode n m := by
  induction n with
  | stream pull after => exact ⟨.script [], .stream (by intro i r h; simp at h)⟩
  | combFirst _ _ ih₁ ih₂ => exact ⟨_, .combFirst ih₁.choose_spec ih₂.choose_spec⟩
  | selScan _ _ _ _ b _ j _ ih =>
    exact ⟨_, .selScan (fun _ => u) ih.choose_spec
      fun i => (exists_calls u (b (j + i) u)).choose_spec⟩
  | selActive _ _ _ _ b _ j _ _ ih₁ ih₂ =>
    exact ⟨_, .selActive (fun _ => u) ih₁.choose_spec
      (fun i => (exists_calls u (b (j + i) u)).choose_spec) ih₂.choose_spec⟩
  | onceScan _ _ _ _ b _ _ ih =>
    exact ⟨_, .onceScan u ih.choose_spec (exists_calls u (b u)).choose_spec⟩
  | onceActive _ _ ih₁ ih₂ => exact ⟨_, .onceActive ih₁.choose_spec ih₂.choose_spec⟩
  | contOpen _ _ b _ ih => exact ⟨_, .contOpen u ih.choose_spec (exists_calls u (b u)).choose_spec⟩
  | contContent _ _ _ ih₁ ih₂ => exact ⟨_, .contContent ih₁.choose_spec ih₂.choose_spec⟩
  | repCollect _ _ _ _ b _ ih =>
    exact ⟨_, .repCollect (n := 0) (fun _ => u) ih.choose_spec (by intro i h; omega)
      fun i => (exists_calls u (b i u)).choose_spec⟩
  | repNext _ j _ _ _ b _ =>
    exact ⟨_, .repNext (n := 0) (fun _ => u) (by intro i h; omega)
      fun i => (exists_calls u (b (j + i) u)).choose_spec⟩
  | repEmit _ j _ _ _ b _ _ ih =>
    exact ⟨_, .repEmit (n := 0) (fun _ => u) (by intro i h; omega)
      (fun i => (exists_calls u (b (j + i) u)).choose_spec) ih.choose_spec⟩
  | orElseStart _ _ _ _ m r f _ ih =>
    exact ⟨_, .orElseStart (n := if m u then 1 else 0) u ih.choose_spec
      (by cases m u <;> simp) (exists_calls u (r u)).choose_spec (exists_calls u (f u)).choose_spec⟩
  | applyCollect _ _ _ ih => exact ⟨_, .applyCollect u ih.choose_spec⟩
  | dead | shared | tmpl | once | fallError | expandClose | curContent => exact ⟨_, by constructor⟩
  | _ =>
    rename_i ih
    exact ⟨_, by constructor; exact ih.choose_spec⟩

theorem resolves_intoStream {c : UContent σ} {m : Node} (h : ResolvesNode c.intoStream m) :
    ∃ d, ResolvesContent c d ∧ m = d.intoStream := by
  induction c generalizing m with
  | data d => cases h; exact ⟨_, .data, rfl⟩
  | template t => cases h; exact ⟨_, .template, rfl⟩
  | stream pull after =>
    cases h with
    | stream h => exact ⟨_, .stream (by simpa using h), rfl⟩
  | resultOk c ih =>
    cases h with
    | fallStart h =>
      obtain ⟨d, hd, rfl⟩ := ih h
      exact ⟨_, .resultOk hd, rfl⟩
  | resultErr e => cases h; exact ⟨_, .resultErr, rfl⟩

theorem resolves_build (u : σ) {a k : Kind} {p : UProg σ a k} {n : UNode σ} {m : Node}
    (h : ResolvesNode (p.build n) m) : ∃ q n',
      Resolves p q ∧ ResolvesNode n n' ∧ m = q.build n' := by
  induction p generalizing n m with
  | src => exact ⟨_, _, .src, h, rfl⟩
  | forget _ ih =>
    obtain ⟨q, n', hq, hn, rfl⟩ := ih h
    exact ⟨_, _, .forget hq, hn, rfl⟩
  | apply _ _ ih₁ ih₂ =>
    obtain ⟨q₂, m', hq₂, hm, rfl⟩ := ih₂ h
    obtain ⟨q₁, n', hq₁, hn, rfl⟩ := ih₁ hm
    exact ⟨_, _, .apply hq₁ hq₂, hn, rfl⟩
  | fallOk _ ih =>
    cases h with
    | fallStart h =>
      obtain ⟨q, n', hq, hn, rfl⟩ := ih h
      exact ⟨_, _, .fallOk hq, hn, rfl⟩
  | fallErr e => cases h; exact ⟨_, _, .fallErr, (exists_node u n).choose_spec, rfl⟩
  | selectRaw _ _ _ _ _ ih _ =>
    cases h with
    | selScan at_ h hb =>
      obtain ⟨q, n', hq, hn, rfl⟩ := ih h
      exact ⟨_, _, .selectRaw at_ hq (by simpa using hb), hn, rfl⟩
  | selectOnceRaw _ _ _ _ _ ih _ =>
    cases h with
    | onceScan u h hb =>
      obtain ⟨q, n', hq, hn, rfl⟩ := ih h
      exact ⟨_, _, .selectOnceRaw u hq hb, hn, rfl⟩
  | remove _ ih =>
    cases h with
    | remove h =>
      obtain ⟨q, n', hq, hn, rfl⟩ := ih h
      exact ⟨_, _, .remove hq, hn, rfl⟩
  | prepend _ c ih =>
    cases h with
    | combFirst hc h =>
      obtain ⟨q, n', hq, hn, rfl⟩ := ih h
      obtain ⟨d, hd, rfl⟩ := resolves_intoStream hc
      exact ⟨_, _, .prepend hq hd, hn, rfl⟩
  | append _ c ih =>
    cases h with
    | combFirst h hc =>
      obtain ⟨q, n', hq, hn, rfl⟩ := ih h
      obtain ⟨d, hd, rfl⟩ := resolves_intoStream hc
      exact ⟨_, _, .append hq hd, hn, rfl⟩
  | «repeat» _ _ _ _ ih _ =>
    cases h with
    | repCollect at_ h hm hb =>
      obtain ⟨q, n', hq, hn, rfl⟩ := ih h
      exact ⟨_, _, .repeat at_ hq hm hb, hn, rfl⟩
  | orElse _ _ _ _ _ ih _ _ =>
    cases h with
    | orElseStart u h hm hr hf =>
      obtain ⟨q, n', hq, hn, rfl⟩ := ih h
      exact ⟨_, _, .orElse u hq hm hr hf, hn, rfl⟩
  | applyTemplate _ _ _ ih =>
    cases h with
    | applyCollect u h =>
      obtain ⟨q, n', hq, hn, rfl⟩ := ih h
      exact ⟨_, _, .applyTemplate u hq, hn, rfl⟩
  | contents _ _ _ ih _ =>
    cases h with
    | contOpen u h hb =>
      cases h with
      | expandStart h =>
        obtain ⟨q, n', hq, hn, rfl⟩ := ih h
        exact ⟨_, _, .contents u hq hb, hn, rfl⟩
  | attr _ _ ih =>
    cases h with
    | attrStart h =>
      obtain ⟨q, n', hq, hn, rfl⟩ := ih h
      exact ⟨_, _, .attr hq, hn, rfl⟩

/-- What a run used, seen from its end: whatever is left of the stream and the cells after it, they
are left by a run of `run` from something the stream and the cells before it stand for. -/
def Back (run : Env → Node → Option Pull) (env : UEnv σ) (n : UNode σ) (r : Res) (n₁ : UNode σ)
    (env₁ : UEnv σ) : Prop :=
  ∀ n' env', ResolvesNode n₁ n' → List.Forall₂ ResolvesNode env₁ env' →
    ∃ n₀ env₀, ResolvesNode n n₀ ∧ List.Forall₂ ResolvesNode env env₀ ∧
      ∀ m cells, Shifted m n₀ → List.Forall₂ Shifted cells env₀ →
        ∃ m' cells', run cells m = some (r, m', cells') ∧ Shifted m' n' ∧
          List.Forall₂ Shifted cells' env'

/-- The same for collecting. -/
def BackCollect (env : UEnv σ) (n : UNode σ) (r : Except StreamError (List Event))
    (env₁ : UEnv σ) : Prop :=
  ∀ env', List.Forall₂ ResolvesNode env₁ env' →
    ∃ n₀ env₀, ResolvesNode n n₀ ∧ List.Forall₂ ResolvesNode env env₀ ∧
      ∀ m cells, Shifted m n₀ → List.Forall₂ Shifted cells env₀ →
        ∃ cells', collect cells m = some (r, cells') ∧ List.Forall₂ Shifted cells' env'

/-- A list of closures with one in front. -/
def inFront {α : Type} (a : α) (f : Nat → α) : Nat → α
  | 0 => a
  | i + 1 => f i

theorem some_node (u : σ) (n : UNode σ) : ResolvesNode n (exists_node u n).choose :=
  (exists_node u n).choose_spec

theorem some_calls (u : σ) {a k : Kind} (p : UProg σ a k) : Resolves p (exists_calls u p).choose :=
  (exists_calls u p).choose_spec

set_option maxHeartbeats 4000000 in
theorem machine_back :
    (∀ u env n p, nextUser (σ := σ) u env n = some p → Back next env n p.1 p.2.1 p.2.2.1) ∧
    (∀ u env n p, collectUser (σ := σ) u env n = some p → BackCollect env n p.1 p.2.1) ∧
    (∀ u env n p, nextSkipNoopUser (σ := σ) u env n = some p →
      Back nextSkipNoop env n p.1 p.2.1 p.2.2.1) ∧
    (∀ u env n p, drainUser (σ := σ) u env n = some p → Back drain env n p.1 p.2.1 p.2.2.1) := by
  refine nextUser.mutual_partial_correctness
    (fun _ env n p => Back next env n p.1 p.2.1 p.2.2.1)
    (fun _ env n p => BackCollect env n p.1 p.2.1)
    (fun _ env n p => Back nextSkipNoop env n p.1 p.2.1 p.2.2.1)
    (fun _ env n p => Back drain env n p.1 p.2.1 p.2.2.1) ?_ ?_ ?_ ?_
  · intro next' collect' skip' drain' h1 h2 h3 h4 u env n p h
    cases n
    case dead =>
      cases h
      dsimp only [Back]
      intro n' env' hn he
      cases hn
      refine ⟨_, _, .dead, he, ?_⟩
      intro m cells hm hc
      cases hm
      exact ⟨_, _, by rw [next.eq_def], .dead, hc⟩
    case shared =>
      cases env with
      | nil => cases h
      | cons cell rest =>
        simp only [bind, Option.bind_eq_some_iff] at h
        obtain ⟨⟨r, s₁, env₁, u₁⟩, hx, h⟩ := h
        cases h
        dsimp only [Back]
        intro n' env' hn he
        cases hn
        cases he with
        | cons hcell he =>
          obtain ⟨t₀, e₀, ht, he₀, hrun⟩ := h1 _ _ _ _ hx _ _ hcell he
          refine ⟨_, _, .shared, .cons ht he₀, ?_⟩
          intro m cells hm hc
          cases hm
          cases hc with
          | cons hm hc =>
            obtain ⟨m', c', hr, hm', hc'⟩ := hrun _ _ hm hc
            refine ⟨_, _, ?_, .shared, .cons hm' hc'⟩
            rw [next.eq_def]
            simp only [bind, hr, Option.bind_some]
    case tmpl es i =>
      cases hi : es[i]? <;> simp only [hi] at h <;> cases h <;> dsimp only [Back] <;>
        intro n' env' hn he <;> cases hn <;> refine ⟨_, _, .tmpl, he, ?_⟩ <;>
        intro m cells hm hc <;> cases hm <;> refine ⟨_, _, ?_, .tmpl, hc⟩ <;>
        rw [next.eq_def] <;> simp only [hi]
    case once d =>
      cases d <;> cases h <;> dsimp only [Back] <;>
        intro n' env' hn he <;> cases hn <;> refine ⟨_, _, .once, he, ?_⟩ <;>
        intro m cells hm hc <;> cases hm <;> refine ⟨_, _, ?_, .once, hc⟩ <;>
        rw [next.eq_def]
    case stream j pull after =>
      have key : ∀ r, pull j u = r → ∀ rs : List (Except StreamError (Option Event)),
          (∀ i r, rs[i]? = some r → ∃ u, pull (j + 1 + i) u = r) →
          ∀ i r', (r :: rs)[i]? = some r' → ∃ u, pull (j + i) u = r' := by
        intro r hr rs hrs i r' hr'
        cases i with
        | zero => cases hr'; exact ⟨u, hr⟩
        | succ i => rw [show j + (i + 1) = j + 1 + i by omega]; exact hrs _ _ hr'
      rcases hp : pull j u with e | _ | e <;> simp only [hp] at h <;> cases h <;>
        dsimp only [Back] <;> intro n' env' hn he <;> cases hn with
        | stream hrs =>
          refine ⟨_, _, .stream (key _ hp _ hrs), he, ?_⟩
          intro m cells hm hc
          cases hm
          refine ⟨_, _, ?_, .script, hc⟩
          rw [next.eq_def]
    case fallStart s =>
      cases h
      dsimp only [Back]
      intro n' env' hn he
      cases hn with
      | fallEmit hs =>
        refine ⟨_, _, .fallStart hs, he, ?_⟩
        intro m cells hm hc
        cases hm with
        | fallStart hm => exact ⟨_, _, by rw [next.eq_def], .fallEmit hm, hc⟩
    case fallError e =>
      cases h
      dsimp only [Back]
      intro n' env' hn he
      cases hn
      refine ⟨_, _, .fallError, he, ?_⟩
      intro m cells hm hc
      cases hm
      exact ⟨_, _, by rw [next.eq_def], .dead, hc⟩
    case expandClose t =>
      cases h
      dsimp only [Back]
      intro n' env' hn he
      cases hn
      refine ⟨_, _, .expandClose, he, ?_⟩
      intro m cells hm hc
      cases hm
      exact ⟨_, _, by rw [next.eq_def], .dead, hc⟩
    case singleStart e s =>
      cases e <;> cases h <;> dsimp only [Back] <;> intro n' env' hn he <;> first
        | (cases hn with
          | singleUntil hs =>
            refine ⟨_, _, .singleStart hs, he, ?_⟩
            intro m cells hm hc
            cases hm with
            | singleStart hm => exact ⟨_, _, by rw [next.eq_def], .singleUntil hm, hc⟩)
        | (cases hn
           refine ⟨_, _, .singleStart (some_node u s), he, ?_⟩
           intro m cells hm hc
           cases hm with
           | singleStart hm => exact ⟨_, _, by rw [next.eq_def], .dead, hc⟩)
    case fallEmit s =>
      simp only [bind, Option.bind_eq_some_iff] at h
      obtain ⟨⟨r, s₁, env₁, u₁⟩, hx, h⟩ := h
      try dsimp only at h
      rcases r with e | _ | e <;> cases h
      · dsimp only [Back]
        intro n' env' hn he
        cases hn with
        | fallEmit hs =>
          obtain ⟨t₀, e₀, ht, he₀, hrun⟩ := h1 _ _ _ _ hx _ _ hs he
          refine ⟨_, _, .fallEmit ht, he₀, ?_⟩
          intro m cells hm hc
          cases hm with
          | fallEmit hm =>
            obtain ⟨m', c', hr, hm', hc'⟩ := hrun _ _ hm hc
            refine ⟨_, _, ?_, .fallEmit hm', hc'⟩
            rw [next.eq_def]
            simp only [bind, hr, Option.bind_some]
            try rfl
      all_goals
        dsimp only [Back]
        intro n' env' hn he
        cases hn
        obtain ⟨t₀, e₀, ht, he₀, hrun⟩ := h1 _ _ _ _ hx _ _ (some_node u s₁) he
        refine ⟨_, _, .fallEmit ht, he₀, ?_⟩
        intro m cells hm hc
        cases hm with
        | fallEmit hm =>
          obtain ⟨m', c', hr, hm', hc'⟩ := hrun _ _ hm hc
          refine ⟨_, _, ?_, .dead, hc'⟩
          rw [next.eq_def]
          simp only [bind, hr, Option.bind_some]
          try rfl
    case expandEmit s =>
      simp only [bind, Option.bind_eq_some_iff] at h
      obtain ⟨⟨r, s₁, env₁, u₁⟩, hx, h⟩ := h
      try dsimp only at h
      rcases r with e | _ | e <;> cases h
      · dsimp only [Back]
        intro n' env' hn he
        cases hn with
        | expandEmit hs =>
          obtain ⟨t₀, e₀, ht, he₀, hrun⟩ := h1 _ _ _ _ hx _ _ hs he
          refine ⟨_, _, .expandEmit ht, he₀, ?_⟩
          intro m cells hm hc
          cases hm with
          | expandEmit hm =>
            obtain ⟨m', c', hr, hm', hc'⟩ := hrun _ _ hm hc
            refine ⟨_, _, ?_, .expandEmit hm', hc'⟩
            rw [next.eq_def]
            simp only [bind, hr, Option.bind_some]
            try rfl
      all_goals
        dsimp only [Back]
        intro n' env' hn he
        cases hn
        obtain ⟨t₀, e₀, ht, he₀, hrun⟩ := h1 _ _ _ _ hx _ _ (some_node u s₁) he
        refine ⟨_, _, .expandEmit ht, he₀, ?_⟩
        intro m cells hm hc
        cases hm with
        | expandEmit hm =>
          obtain ⟨m', c', hr, hm', hc'⟩ := hrun _ _ hm hc
          refine ⟨_, _, ?_, .dead, hc'⟩
          rw [next.eq_def]
          simp only [bind, hr, Option.bind_some]
          try rfl
    case attrEmit s =>
      simp only [bind, Option.bind_eq_some_iff] at h
      obtain ⟨⟨r, s₁, env₁, u₁⟩, hx, h⟩ := h
      try dsimp only at h
      rcases r with e | _ | e <;> cases h
      · dsimp only [Back]
        intro n' env' hn he
        cases hn with
        | attrEmit hs =>
          obtain ⟨t₀, e₀, ht, he₀, hrun⟩ := h1 _ _ _ _ hx _ _ hs he
          refine ⟨_, _, .attrEmit ht, he₀, ?_⟩
          intro m cells hm hc
          cases hm with
          | attrEmit hm =>
            obtain ⟨m', c', hr, hm', hc'⟩ := hrun _ _ hm hc
            refine ⟨_, _, ?_, .attrEmit hm', hc'⟩
            rw [next.eq_def]
            simp only [bind, hr, Option.bind_some]
            try rfl
      all_goals
        dsimp only [Back]
        intro n' env' hn he
        cases hn
        obtain ⟨t₀, e₀, ht, he₀, hrun⟩ := h1 _ _ _ _ hx _ _ (some_node u s₁) he
        refine ⟨_, _, .attrEmit ht, he₀, ?_⟩
        intro m cells hm hc
        cases hm with
        | attrEmit hm =>
          obtain ⟨m', c', hr, hm', hc'⟩ := hrun _ _ hm hc
          refine ⟨_, _, ?_, .dead, hc'⟩
          rw [next.eq_def]
          simp only [bind, hr, Option.bind_some]
          try rfl
    case orElseRun s =>
      simp only [bind, Option.bind_eq_some_iff] at h
      obtain ⟨⟨r, s₁, env₁, u₁⟩, hx, h⟩ := h
      try dsimp only at h
      rcases r with e | _ | e <;> cases h
      · dsimp only [Back]
        intro n' env' hn he
        cases hn with
        | orElseRun hs =>
          obtain ⟨t₀, e₀, ht, he₀, hrun⟩ := h1 _ _ _ _ hx _ _ hs he
          refine ⟨_, _, .orElseRun ht, he₀, ?_⟩
          intro m cells hm hc
          cases hm with
          | orElseRun hm =>
            obtain ⟨m', c', hr, hm', hc'⟩ := hrun _ _ hm hc
            refine ⟨_, _, ?_, .orElseRun hm', hc'⟩
            rw [next.eq_def]
            simp only [bind, hr, Option.bind_some]
            try rfl
      all_goals
        dsimp only [Back]
        intro n' env' hn he
        cases hn
        obtain ⟨t₀, e₀, ht, he₀, hrun⟩ := h1 _ _ _ _ hx _ _ (some_node u s₁) he
        refine ⟨_, _, .orElseRun ht, he₀, ?_⟩
        intro m cells hm hc
        cases hm with
        | orElseRun hm =>
          obtain ⟨m', c', hr, hm', hc'⟩ := hrun _ _ hm hc
          refine ⟨_, _, ?_, .dead, hc'⟩
          rw [next.eq_def]
          simp only [bind, hr, Option.bind_some]
          try rfl
    case applyEmit s =>
      simp only [bind, Option.bind_eq_some_iff] at h
      obtain ⟨⟨r, s₁, env₁, u₁⟩, hx, h⟩ := h
      try dsimp only at h
      rcases r with e | _ | e <;> cases h
      · dsimp only [Back]
        intro n' env' hn he
        cases hn with
        | applyEmit hs =>
          obtain ⟨t₀, e₀, ht, he₀, hrun⟩ := h1 _ _ _ _ hx _ _ hs he
          refine ⟨_, _, .applyEmit ht, he₀, ?_⟩
          intro m cells hm hc
          cases hm with
          | applyEmit hm =>
            obtain ⟨m', c', hr, hm', hc'⟩ := hrun _ _ hm hc
            refine ⟨_, _, ?_, .applyEmit hm', hc'⟩
            rw [next.eq_def]
            simp only [bind, hr, Option.bind_some]
            try rfl
      all_goals
        dsimp only [Back]
        intro n' env' hn he
        cases hn
        obtain ⟨t₀, e₀, ht, he₀, hrun⟩ := h1 _ _ _ _ hx _ _ (some_node u s₁) he
        refine ⟨_, _, .applyEmit ht, he₀, ?_⟩
        intro m cells hm hc
        cases hm with
        | applyEmit hm =>
          obtain ⟨m', c', hr, hm', hc'⟩ := hrun _ _ hm hc
          refine ⟨_, _, ?_, .dead, hc'⟩
          rw [next.eq_def]
          simp only [bind, hr, Option.bind_some]
          try rfl
    case oncePass s =>
      simp only [bind, Option.bind_eq_some_iff] at h
      obtain ⟨⟨r, s₁, env₁, u₁⟩, hx, h⟩ := h
      try dsimp only at h
      rcases r with e | _ | e <;> cases h
      · dsimp only [Back]
        intro n' env' hn he
        cases hn with
        | oncePass hs =>
          obtain ⟨t₀, e₀, ht, he₀, hrun⟩ := h1 _ _ _ _ hx _ _ hs he
          refine ⟨_, _, .oncePass ht, he₀, ?_⟩
          intro m cells hm hc
          cases hm with
          | oncePass hm =>
            obtain ⟨m', c', hr, hm', hc'⟩ := hrun _ _ hm hc
            refine ⟨_, _, ?_, .oncePass hm', hc'⟩
            rw [next.eq_def]
            simp only [bind, hr, Option.bind_some]
            try rfl
      all_goals
        dsimp only [Back]
        intro n' env' hn he
        cases hn
        obtain ⟨t₀, e₀, ht, he₀, hrun⟩ := h1 _ _ _ _ hx _ _ (some_node u s₁) he
        refine ⟨_, _, .oncePass ht, he₀, ?_⟩
        intro m cells hm hc
        cases hm with
        | oncePass hm =>
          obtain ⟨m', c', hr, hm', hc'⟩ := hrun _ _ hm hc
          refine ⟨_, _, ?_, .dead, hc'⟩
          rw [next.eq_def]
          simp only [bind, hr, Option.bind_some]
          try rfl
    case combSecond s =>
      simp only [bind, Option.bind_eq_some_iff] at h
      obtain ⟨⟨r, s₁, env₁, u₁⟩, hx, h⟩ := h
      try dsimp only at h
      rcases r with e | _ | e <;> cases h
      · dsimp only [Back]
        intro n' env' hn he
        cases hn with
        | combSecond hs =>
          obtain ⟨t₀, e₀, ht, he₀, hrun⟩ := h3 _ _ _ _ hx _ _ hs he
          refine ⟨_, _, .combSecond ht, he₀, ?_⟩
          intro m cells hm hc
          cases hm with
          | combSecond hm =>
            obtain ⟨m', c', hr, hm', hc'⟩ := hrun _ _ hm hc
            refine ⟨_, _, ?_, .combSecond hm', hc'⟩
            rw [next.eq_def]
            simp only [bind, hr, Option.bind_some]
            try rfl
      all_goals
        dsimp only [Back]
        intro n' env' hn he
        cases hn
        obtain ⟨t₀, e₀, ht, he₀, hrun⟩ := h3 _ _ _ _ hx _ _ (some_node u s₁) he
        refine ⟨_, _, .combSecond ht, he₀, ?_⟩
        intro m cells hm hc
        cases hm with
        | combSecond hm =>
          obtain ⟨m', c', hr, hm', hc'⟩ := hrun _ _ hm hc
          refine ⟨_, _, ?_, .dead, hc'⟩
          rw [next.eq_def]
          simp only [bind, hr, Option.bind_some]
          try rfl
    case singleUntil tag s level =>
      simp only [bind, Option.bind_eq_some_iff] at h
      obtain ⟨⟨r, s₁, env₁, u₁⟩, hx, h⟩ := h
      try dsimp only at h
      rcases r with e | _ | e <;> cases h
      · dsimp only [Back, singleUntilStepUser]
        intro n' env' hn he
        by_cases ho : e.isOpeningTagFor tag = true
        · rw [if_pos ho] at hn
          cases hn with
          | singleUntil hs =>
            obtain ⟨t₀, e₀, ht, he₀, hrun⟩ := h1 _ _ _ _ hx _ _ hs he
            refine ⟨_, _, .singleUntil ht, he₀, ?_⟩
            intro m cells hm hc
            cases hm with
            | singleUntil hm =>
              obtain ⟨m', c', hr, hm', hc'⟩ := hrun _ _ hm hc
              refine ⟨_, _, ?_, .singleUntil hm', hc'⟩
              rw [next.eq_def]
              simp only [bind, hr, Option.bind_some, singleUntilStep, ho, if_true]
        · rw [if_neg ho] at hn
          by_cases hcl : e.isClosingTagFor tag = true
          · rw [if_pos hcl] at hn
            by_cases hl : level = 0
            · rw [if_pos hl] at hn
              cases hn
              obtain ⟨t₀, e₀, ht, he₀, hrun⟩ := h1 _ _ _ _ hx _ _ (some_node u s₁) he
              refine ⟨_, _, .singleUntil ht, he₀, ?_⟩
              intro m cells hm hc
              cases hm with
              | singleUntil hm =>
                obtain ⟨m', c', hr, hm', hc'⟩ := hrun _ _ hm hc
                refine ⟨_, _, ?_, .dead, hc'⟩
                rw [next.eq_def]
                simp only [bind, hr, Option.bind_some, singleUntilStep, if_neg ho, if_pos hcl,
                  if_pos hl]
            · rw [if_neg hl] at hn
              cases hn with
              | singleUntil hs =>
                obtain ⟨t₀, e₀, ht, he₀, hrun⟩ := h1 _ _ _ _ hx _ _ hs he
                refine ⟨_, _, .singleUntil ht, he₀, ?_⟩
                intro m cells hm hc
                cases hm with
                | singleUntil hm =>
                  obtain ⟨m', c', hr, hm', hc'⟩ := hrun _ _ hm hc
                  refine ⟨_, _, ?_, .singleUntil hm', hc'⟩
                  rw [next.eq_def]
                  simp only [bind, hr, Option.bind_some, singleUntilStep, if_neg ho, if_pos hcl,
                    if_neg hl]
          · rw [if_neg hcl] at hn
            cases hn with
            | singleUntil hs =>
              obtain ⟨t₀, e₀, ht, he₀, hrun⟩ := h1 _ _ _ _ hx _ _ hs he
              refine ⟨_, _, .singleUntil ht, he₀, ?_⟩
              intro m cells hm hc
              cases hm with
              | singleUntil hm =>
                obtain ⟨m', c', hr, hm', hc'⟩ := hrun _ _ hm hc
                refine ⟨_, _, ?_, .singleUntil hm', hc'⟩
                rw [next.eq_def]
                simp only [bind, hr, Option.bind_some, singleUntilStep, if_neg ho, if_neg hcl]
      all_goals
        dsimp only [Back]
        intro n' env' hn he
        cases hn
        obtain ⟨t₀, e₀, ht, he₀, hrun⟩ := h1 _ _ _ _ hx _ _ (some_node u s₁) he
        refine ⟨_, _, .singleUntil ht, he₀, ?_⟩
        intro m cells hm hc
        cases hm with
        | singleUntil hm =>
          obtain ⟨m', c', hr, hm', hc'⟩ := hrun _ _ hm hc
          refine ⟨_, _, ?_, .dead, hc'⟩
          rw [next.eq_def]
          simp only [bind, hr, Option.bind_some]
          try rfl
    case expandStart s =>
      simp only [bind, Option.bind_eq_some_iff] at h
      obtain ⟨⟨r, s₁, env₁, u₁⟩, hx, h⟩ := h
      try dsimp only at h
      rcases r with e | _ | e
      · cases e <;> cases h <;> first
          | (dsimp only [Back]
             intro n' env' hn he
             cases hn with
             | expandEmit hs =>
               obtain ⟨t₀, e₀, ht, he₀, hrun⟩ := h3 _ _ _ _ hx _ _ hs he
               refine ⟨_, _, .expandStart ht, he₀, ?_⟩
               intro m cells hm hc
               cases hm with
               | expandStart hm =>
                 obtain ⟨m', c', hr, hm', hc'⟩ := hrun _ _ hm hc
                 refine ⟨_, _, ?_, .expandEmit hm', hc'⟩
                 rw [next.eq_def]
                 simp only [bind, hr, Option.bind_some]
                 try rfl)
          | (dsimp only [Back]
             intro n' env' hn he
             cases hn
             obtain ⟨t₀, e₀, ht, he₀, hrun⟩ := h3 _ _ _ _ hx _ _ (some_node u s₁) he
             refine ⟨_, _, .expandStart ht, he₀, ?_⟩
             intro m cells hm hc
             cases hm with
             | expandStart hm =>
               obtain ⟨m', c', hr, hm', hc'⟩ := hrun _ _ hm hc
               refine ⟨_, _, ?_, .expandClose, hc'⟩
               rw [next.eq_def]
               simp only [bind, hr, Option.bind_some]
               try rfl)
          | (dsimp only [Back]
             intro n' env' hn he
             cases hn
             obtain ⟨t₀, e₀, ht, he₀, hrun⟩ := h3 _ _ _ _ hx _ _ (some_node u s₁) he
             refine ⟨_, _, .expandStart ht, he₀, ?_⟩
             intro m cells hm hc
             cases hm with
             | expandStart hm =>
               obtain ⟨m', c', hr, hm', hc'⟩ := hrun _ _ hm hc
               refine ⟨_, _, ?_, .dead, hc'⟩
               rw [next.eq_def]
               simp only [bind, hr, Option.bind_some]
               try rfl)
      all_goals
        cases h
        dsimp only [Back]
        intro n' env' hn he
        cases hn
        obtain ⟨t₀, e₀, ht, he₀, hrun⟩ := h3 _ _ _ _ hx _ _ (some_node u s₁) he
        refine ⟨_, _, .expandStart ht, he₀, ?_⟩
        intro m cells hm hc
        cases hm with
        | expandStart hm =>
          obtain ⟨m', c', hr, hm', hc'⟩ := hrun _ _ hm hc
          refine ⟨_, _, ?_, .dead, hc'⟩
          rw [next.eq_def]
          simp only [bind, hr, Option.bind_some]
          try rfl
    case attrStart op s =>
      simp only [bind, Option.bind_eq_some_iff] at h
      obtain ⟨⟨r, s₁, env₁, u₁⟩, hx, h⟩ := h
      try dsimp only at h
      rcases r with e | _ | e
      · cases e <;> cases h <;> first
          | (dsimp only [Back]
             intro n' env' hn he
             cases hn with
             | attrEmit hs =>
               obtain ⟨t₀, e₀, ht, he₀, hrun⟩ := h3 _ _ _ _ hx _ _ hs he
               refine ⟨_, _, .attrStart ht, he₀, ?_⟩
               intro m cells hm hc
               cases hm with
               | attrStart hm =>
                 obtain ⟨m', c', hr, hm', hc'⟩ := hrun _ _ hm hc
                 refine ⟨_, _, ?_, .attrEmit hm', hc'⟩
                 rw [next.eq_def]
                 simp only [bind, hr, Option.bind_some]
                 try rfl)
          | (dsimp only [Back]
             intro n' env' hn he
             cases hn
             obtain ⟨t₀, e₀, ht, he₀, hrun⟩ := h3 _ _ _ _ hx _ _ (some_node u s₁) he
             refine ⟨_, _, .attrStart ht, he₀, ?_⟩
             intro m cells hm hc
             cases hm with
             | attrStart hm =>
               obtain ⟨m', c', hr, hm', hc'⟩ := hrun _ _ hm hc
               refine ⟨_, _, ?_, .dead, hc'⟩
               rw [next.eq_def]
               simp only [bind, hr, Option.bind_some]
               try rfl)
      all_goals
        cases h
        dsimp only [Back]
        intro n' env' hn he
        cases hn
        obtain ⟨t₀, e₀, ht, he₀, hrun⟩ := h3 _ _ _ _ hx _ _ (some_node u s₁) he
        refine ⟨_, _, .attrStart ht, he₀, ?_⟩
        intro m cells hm hc
        cases hm with
        | attrStart hm =>
          obtain ⟨m', c', hr, hm', hc'⟩ := hrun _ _ hm hc
          refine ⟨_, _, ?_, .dead, hc'⟩
          rw [next.eq_def]
          simp only [bind, hr, Option.bind_some]
          try rfl
    case peek s buffered =>
      cases buffered with
      | some e =>
        cases h
        dsimp only [Back]
        intro n' env' hn he
        cases hn with
        | peek hs =>
          refine ⟨_, _, .peek hs, he, ?_⟩
          intro m cells hm hc
          cases hm with
          | peek hm => exact ⟨_, _, by rw [next.eq_def], .peek hm, hc⟩
      | none =>
        simp only [bind, Option.bind_eq_some_iff] at h
        obtain ⟨⟨r, s₁, env₁, u₁⟩, hx, h⟩ := h
        try dsimp only at h
        cases h
        dsimp only [Back]
        intro n' env' hn he
        cases hn with
        | peek hs =>
          obtain ⟨t₀, e₀, ht, he₀, hrun⟩ := h3 _ _ _ _ hx _ _ hs he
          refine ⟨_, _, .peek ht, he₀, ?_⟩
          intro m cells hm hc
          cases hm with
          | peek hm =>
            obtain ⟨m', c', hr, hm', hc'⟩ := hrun _ _ hm hc
            refine ⟨_, _, ?_, .peek hm', hc'⟩
            rw [next.eq_def]
            simp only [bind, hr, Option.bind_some]
            try rfl
    case contClose s tag =>
      simp only [bind, Option.bind_eq_some_iff] at h
      obtain ⟨⟨r, s₁, env₁, u₁⟩, hx, h⟩ := h
      try dsimp only at h
      rcases r with e | _ | e
      · cases e
        case closingTag closedTag =>
          dsimp only at h
          by_cases hq : closedTag.eq tag = true
          · rw [if_pos hq] at h
            cases h
            dsimp only [Back]
            intro n' env' hn he
            cases hn
            obtain ⟨t₀, e₀, ht, he₀, hrun⟩ := h3 _ _ _ _ hx _ _ (some_node u s₁) he
            refine ⟨_, _, .contClose ht, he₀, ?_⟩
            intro m cells hm hc
            cases hm with
            | contClose hm =>
              obtain ⟨m', c', hr, hm', hc'⟩ := hrun _ _ hm hc
              refine ⟨_, _, ?_, .dead, hc'⟩
              rw [next.eq_def]
              simp only [bind, hr, Option.bind_some]
              simp only [hq, if_true]
          · rw [if_neg hq] at h
            cases h
            dsimp only [Back]
            intro n' env' hn he
            cases hn
            obtain ⟨t₀, e₀, ht, he₀, hrun⟩ := h3 _ _ _ _ hx _ _ (some_node u s₁) he
            refine ⟨_, _, .contClose ht, he₀, ?_⟩
            intro m cells hm hc
            cases hm with
            | contClose hm =>
              obtain ⟨m', c', hr, hm', hc'⟩ := hrun _ _ hm hc
              refine ⟨_, _, ?_, .dead, hc'⟩
              rw [next.eq_def]
              simp only [bind, hr, Option.bind_some]
              rw [if_neg hq]
        all_goals
          cases h
          dsimp only [Back]
          intro n' env' hn he
          cases hn
          obtain ⟨t₀, e₀, ht, he₀, hrun⟩ := h3 _ _ _ _ hx _ _ (some_node u s₁) he
          refine ⟨_, _, .contClose ht, he₀, ?_⟩
          intro m cells hm hc
          cases hm with
          | contClose hm =>
            obtain ⟨m', c', hr, hm', hc'⟩ := hrun _ _ hm hc
            refine ⟨_, _, ?_, .dead, hc'⟩
            rw [next.eq_def]
            simp only [bind, hr, Option.bind_some]
            try rfl
      all_goals
        cases h
        dsimp only [Back]
        intro n' env' hn he
        cases hn
        obtain ⟨t₀, e₀, ht, he₀, hrun⟩ := h3 _ _ _ _ hx _ _ (some_node u s₁) he
        refine ⟨_, _, .contClose ht, he₀, ?_⟩
        intro m cells hm hc
        cases hm with
        | contClose hm =>
          obtain ⟨m', c', hr, hm', hc'⟩ := hrun _ _ hm hc
          refine ⟨_, _, ?_, .dead, hc'⟩
          rw [next.eq_def]
          simp only [bind, hr, Option.bind_some]
          try rfl
    case remove s =>
      simp only [bind, Option.bind_eq_some_iff] at h
      obtain ⟨⟨r, s₁, env₁, u₁⟩, hx, h⟩ := h
      try dsimp only at h
      cases h
      dsimp only [Back]
      intro n' env' hn he
      cases hn with
      | remove hs =>
        obtain ⟨t₀, e₀, ht, he₀, hrun⟩ := h4 _ _ _ _ hx _ _ hs he
        refine ⟨_, _, .remove ht, he₀, ?_⟩
        intro m cells hm hc
        cases hm with
        | remove hm =>
          obtain ⟨m', c', hr, hm', hc'⟩ := hrun _ _ hm hc
          refine ⟨_, _, ?_, .remove hm', hc'⟩
          rw [next.eq_def]
          simp only [bind, hr, Option.bind_some]
          try rfl
    case combFirst s other =>
      simp only [bind, Option.bind_eq_some_iff] at h
      obtain ⟨⟨r, s₁, env₁, u₁⟩, hx, h⟩ := h
      try dsimp only at h
      rcases r with e | _ | e <;> cases h
      · dsimp only [Back]
        intro n' env' hn he
        cases hn with
        | combFirst hs hother =>
          obtain ⟨t₀, e₀, ht, he₀, hrun⟩ := h3 _ _ _ _ hx _ _ hs he
          refine ⟨_, _, .combFirst ht hother, he₀, ?_⟩
          intro m cells hm hc
          cases hm with
          | combFirst hm ho =>
            obtain ⟨m', c', hr, hm', hc'⟩ := hrun _ _ hm hc
            refine ⟨_, _, ?_, .combFirst hm' ho, hc'⟩
            rw [next.eq_def]
            simp only [bind, hr, Option.bind_some]
      · dsimp only [Back]
        intro n' env' hn he
        cases hn with
        | combSecond hother =>
          obtain ⟨t₀, e₀, ht, he₀, hrun⟩ := h3 _ _ _ _ hx _ _ (some_node u s₁) he
          refine ⟨_, _, .combFirst ht hother, he₀, ?_⟩
          intro m cells hm hc
          cases hm with
          | combFirst hm ho =>
            obtain ⟨m', c', hr, hm', hc'⟩ := hrun _ _ hm hc
            refine ⟨_, _, ?_, .combSecond ho, hc'⟩
            rw [next.eq_def]
            simp only [bind, hr, Option.bind_some]
      · dsimp only [Back]
        intro n' env' hn he
        cases hn
        obtain ⟨t₀, e₀, ht, he₀, hrun⟩ := h3 _ _ _ _ hx _ _ (some_node u s₁) he
        refine ⟨_, _, .combFirst ht (some_node u other), he₀, ?_⟩
        intro m cells hm hc
        cases hm with
        | combFirst hm ho =>
          obtain ⟨m', c', hr, hm', hc'⟩ := hrun _ _ hm hc
          refine ⟨_, _, ?_, .dead, hc'⟩
          rw [next.eq_def]
          simp only [bind, hr, Option.bind_some]
    case repEmit es j k k' more b g s =>
      simp only [bind, Option.bind_eq_some_iff] at h
      obtain ⟨⟨r, s₁, env₁, u₁⟩, hx, h⟩ := h
      try dsimp only at h
      rcases r with e | _ | e <;> cases h
      · dsimp only [Back]
        intro n' env' hn he
        cases hn with
        | repEmit at_ hmore hb hs =>
          obtain ⟨t₀, e₀, ht, he₀, hrun⟩ := h1 _ _ _ _ hx _ _ hs he
          refine ⟨_, _, .repEmit at_ hmore hb ht, he₀, ?_⟩
          intro m cells hm hc
          cases hm with
          | repEmit hi hb' hm =>
            obtain ⟨m', c', hr, hm', hc'⟩ := hrun _ _ hm hc
            refine ⟨_, _, ?_, .repEmit hi hb' hm', hc'⟩
            rw [next.eq_def]
            simp only [bind, hr, Option.bind_some]
      · dsimp only [Back]
        intro n' env' hn he
        cases hn with
        | repNext at_ hmore hb =>
          obtain ⟨t₀, e₀, ht, he₀, hrun⟩ := h1 _ _ _ _ hx _ _ (some_node u s₁) he
          refine ⟨_, _, .repEmit at_ hmore hb ht, he₀, ?_⟩
          intro m cells hm hc
          cases hm with
          | repEmit hi hb' hm =>
            obtain ⟨m', c', hr, hm', hc'⟩ := hrun _ _ hm hc
            refine ⟨_, _, ?_, .repNext hi hb', hc'⟩
            rw [next.eq_def]
            simp only [bind, hr, Option.bind_some]
      · dsimp only [Back]
        intro n' env' hn he
        cases hn
        obtain ⟨t₀, e₀, ht, he₀, hrun⟩ := h1 _ _ _ _ hx _ _ (some_node u s₁) he
        refine ⟨_, _, .repEmit (n := 0) (fun _ => u) (by intro i h; omega)
            (fun i => some_calls u (b (j + i) u)) ht, he₀, ?_⟩
        intro m cells hm hc
        cases hm with
        | repEmit hi hb' hm =>
          obtain ⟨m', c', hr, hm', hc'⟩ := hrun _ _ hm hc
          refine ⟨_, _, ?_, .dead, hc'⟩
          rw [next.eq_def]
          simp only [bind, hr, Option.bind_some]
    case repCollect s k k' more b g =>
      simp only [bind, Option.bind_eq_some_iff] at h
      obtain ⟨⟨r, env₁, u₁⟩, hx, h⟩ := h
      dsimp only at h
      cases r <;> cases h
      · dsimp only [Back]
        intro n' env' hn he
        cases hn
        obtain ⟨t₀, e₀, ht, he₀, hrun⟩ := h2 _ _ _ _ hx _ he
        refine ⟨_, _, .repCollect (n := 0) (fun _ => u) ht (by intro i h; omega)
          (fun i => some_calls u (b i u)), he₀, ?_⟩
        intro m cells hm hc
        cases hm with
        | repCollect hm =>
          obtain ⟨c', hr, hc'⟩ := hrun _ _ hm hc
          refine ⟨_, _, ?_, .dead, hc'⟩
          rw [next.eq_def]
          simp only [bind, hr, Option.bind_some]
      · dsimp only [Back]
        intro n' env' hn he
        cases hn with
        | repNext at_ hmore hb =>
          obtain ⟨t₀, e₀, ht, he₀, hrun⟩ := h2 _ _ _ _ hx _ he
          refine ⟨_, _, .repCollect at_ ht (by simpa using hmore) (by simpa using hb), he₀, ?_⟩
          intro m cells hm hc
          cases hm with
          | repCollect hm =>
            obtain ⟨c', hr, hc'⟩ := hrun _ _ hm hc
            refine ⟨_, _, ?_, .refl _, hc'⟩
            rw [next.eq_def]
            simp only [bind, hr, Option.bind_some]
    case applyCollect s f g =>
      simp only [bind, Option.bind_eq_some_iff] at h
      obtain ⟨⟨r, env₁, u₁⟩, hx, h⟩ := h
      dsimp only at h
      cases r with
      | error e =>
        cases h
        dsimp only [Back]
        intro n' env' hn he
        cases hn
        obtain ⟨t₀, e₀, ht, he₀, hrun⟩ := h2 _ _ _ _ hx _ he
        refine ⟨_, _, .applyCollect u ht, he₀, ?_⟩
        intro m cells hm hc
        cases hm with
        | applyCollect hm =>
          obtain ⟨c', hr, hc'⟩ := hrun _ _ hm hc
          refine ⟨_, _, ?_, .dead, hc'⟩
          rw [next.eq_def]
          simp only [bind, hr, Option.bind_some]
      | ok es =>
        cases hf : f u₁ ⟨es⟩ <;> simp only [hf] at h <;> cases h
        · dsimp only [Back]
          intro n' env' hn he
          cases hn
          obtain ⟨t₀, e₀, ht, he₀, hrun⟩ := h2 _ _ _ _ hx _ he
          refine ⟨_, _, .applyCollect u₁ ht, he₀, ?_⟩
          intro m cells hm hc
          cases hm with
          | applyCollect hm =>
            obtain ⟨c', hr, hc'⟩ := hrun _ _ hm hc
            refine ⟨_, _, ?_, .dead, hc'⟩
            rw [next.eq_def]
            simp only [bind, hr, Option.bind_some, hf]
        · dsimp only [Back]
          intro n' env' hn he
          cases hn with
          | applyEmit hn =>
            cases hn
            obtain ⟨t₀, e₀, ht, he₀, hrun⟩ := h2 _ _ _ _ hx _ he
            refine ⟨_, _, .applyCollect u₁ ht, he₀, ?_⟩
            intro m cells hm hc
            cases hm with
            | applyCollect hm =>
              obtain ⟨c', hr, hc'⟩ := hrun _ _ hm hc
              refine ⟨_, _, ?_, .applyEmit .tmpl, hc'⟩
              rw [next.eq_def]
              simp only [bind, hr, Option.bind_some, hf]
              rfl
    case repNext es j k k' more b g =>
      dsimp only at h
      by_cases hmu : more j u = true
      · rw [if_pos hmu] at h
        cases h
        dsimp only [Back]
        intro n' env' hn he
        cases hn with
        | @repEmit _ _ N _ _ _ _ _ c _ _ at_ hmore hb hs =>
          obtain ⟨q, n₂, hq, hn₂, rfl⟩ := resolves_build u hs
          cases hn₂
          refine ⟨_, _, .repNext (n := N + 1) (c := inFront q c) (inFront u at_) ?_ ?_, he, ?_⟩
          · intro i hi
            cases i with
            | zero => exact hmu
            | succ i =>
              have := hmore i (by omega)
              rw [show j + 1 + i = j + (i + 1) by omega] at this
              exact this
          · intro i
            cases i with
            | zero => exact hq
            | succ i =>
              have := hb i
              rw [show j + 1 + i = j + (i + 1) by omega] at this
              exact this
          · intro m cells hm hc
            cases hm with
            | @repNext _ i _ n _ _ _ b' _ hi hb' =>
              have h0 : b' i = q := hb' 0 (by omega)
              refine ⟨_, _, ?_, .repEmit (b := b') (i := i + 1) (n := n) (by omega) ?_ (.refl _),
                hc⟩
              · rw [next.eq_def]
                simp only
                rw [if_pos (by omega), h0]
              · intro x hx
                have := hb' (x + 1) (by omega)
                rw [Nat.zero_add] at this ⊢
                rw [show i + 1 + x = i + (x + 1) by omega, this]
                rfl
      · rw [if_neg hmu] at h
        cases h
        dsimp only [Back]
        intro n' env' hn he
        cases hn
        refine ⟨_, _, .repNext (n := 0) (fun _ => u) (by intro i h; omega)
          (fun i => some_calls u (b (j + i) u)), he, ?_⟩
        intro m cells hm hc
        cases hm with
        | repNext hi hb' =>
          refine ⟨_, _, ?_, .dead, hc⟩
          rw [next.eq_def]
          simp only
          rw [if_neg (by omega)]
    case orElseStart s k k₁ k₂ more rep fb g =>
      dsimp only at h
      by_cases hmu : more u = true
      · rw [if_pos hmu] at h
        cases h
        dsimp only [Back]
        intro n' env' hn he
        cases hn with
        | orElseRun hs =>
          obtain ⟨q, n₂, hq, hn₂, rfl⟩ := resolves_build u hs
          refine ⟨_, _, .orElseStart (n := 1) u hn₂ (by simp [hmu]) hq
            (some_calls u (fb u)), he, ?_⟩
          intro m cells hm hc
          cases hm with
          | orElseStart hr hf =>
            refine ⟨_, _, ?_, .orElseRun hr, hc⟩
            rw [next.eq_def]
            simp only
            rw [if_pos (by omega)]
      · rw [if_neg hmu] at h
        cases h
        dsimp only [Back]
        intro n' env' hn he
        cases hn with
        | orElseRun hs =>
          obtain ⟨q, n₂, hq, hn₂, rfl⟩ := resolves_build u hs
          refine ⟨_, _, .orElseStart (n := 0) u hn₂ (by simp [hmu])
            (some_calls u (rep u)) hq, he, ?_⟩
          intro m cells hm hc
          cases hm with
          | orElseStart hr hf =>
            refine ⟨_, _, ?_, .orElseRun hf, hc⟩
            rw [next.eq_def]
            simp only
            rw [if_neg (by omega)]
    case selScan src s direct k b g j level =>
      simp only [bind, Option.bind_eq_some_iff] at h
      obtain ⟨⟨r, s₁, env₁, u₁⟩, hx, h⟩ := h
      dsimp only at h
      rcases r with e | _ | e
      · dsimp only at h
        by_cases hi : (restrictInclude direct level && s.matches e) = true
        · rw [if_pos hi] at h
          cases h
          dsimp only [Back]
          intro n' env' hn he
          cases hn with
          | @selActive _ _ _ _ _ _ _ _ c _ _ _ at_ hsrc hb hs =>
            obtain ⟨q, n₂, hq, hn₂, rfl⟩ := resolves_build u hs
            cases hn₂ with
            | singleStart hn₂ =>
              cases hn₂
              obtain ⟨t₀, e₀, ht, he₀, hrun⟩ := h3 _ _ _ _ hx _ _ hsrc he
              refine ⟨_, _, .selScan (c := inFront q c) (inFront u₁ at_) ht ?_, he₀, ?_⟩
              · intro i
                cases i with
                | zero => exact hq
                | succ i =>
                  have := hb i
                  rw [show j + 1 + i = j + (i + 1) by omega] at this
                  exact this
              · intro m cells hm hc
                cases hm with
                | @selScan _ _ _ _ _ b' _ n _ _ hm hb' =>
                  have h0 : b' n = q := hb' 0
                  obtain ⟨m', c', hr, hm', hc'⟩ := hrun _ _ hm hc
                  refine ⟨_, _, ?_, .selActive (b := b') (n := n + 1) hm' ?_ (.refl _), hc'⟩
                  · rw [next.eq_def]
                    simp only [bind, hr, Option.bind_some]
                    rw [if_pos hi, h0]
                  · intro x
                    have := hb' (x + 1)
                    rw [Nat.zero_add] at this ⊢
                    rw [show n + 1 + x = n + (x + 1) by omega, this]
                    rfl
        · rw [if_neg hi] at h
          cases hl : levelAdjust level e <;> simp only [hl] at h <;> cases h
          · dsimp only [Back]
            intro n' env' hn he
            cases hn
            obtain ⟨t₀, e₀, ht, he₀, hrun⟩ := h3 _ _ _ _ hx _ _ (some_node u s₁) he
            refine ⟨_, _, .selScan (fun _ => u) ht fun i => some_calls u (b (j + i) u), he₀, ?_⟩
            intro m cells hm hc
            cases hm with
            | selScan hm hb' =>
              obtain ⟨m', c', hr, hm', hc'⟩ := hrun _ _ hm hc
              refine ⟨_, _, ?_, .dead, hc'⟩
              rw [next.eq_def]
              simp only [bind, hr, Option.bind_some]
              rw [if_neg hi, hl]
          · dsimp only [Back]
            intro n' env' hn he
            cases hn with
            | selScan at_ hsrc hb =>
              obtain ⟨t₀, e₀, ht, he₀, hrun⟩ := h3 _ _ _ _ hx _ _ hsrc he
              refine ⟨_, _, .selScan at_ ht hb, he₀, ?_⟩
              intro m cells hm hc
              cases hm with
              | selScan hm hb' =>
                obtain ⟨m', c', hr, hm', hc'⟩ := hrun _ _ hm hc
                refine ⟨_, _, ?_, .selScan hm' hb', hc'⟩
                rw [next.eq_def]
                simp only [bind, hr, Option.bind_some]
                rw [if_neg hi, hl]
      · cases h
        dsimp only [Back]
        intro n' env' hn he
        cases hn
        obtain ⟨t₀, e₀, ht, he₀, hrun⟩ := h3 _ _ _ _ hx _ _ (some_node u s₁) he
        refine ⟨_, _, .selScan (fun _ => u) ht fun i => some_calls u (b (j + i) u), he₀, ?_⟩
        intro m cells hm hc
        cases hm with
        | selScan hm hb' =>
          obtain ⟨m', c', hr, hm', hc'⟩ := hrun _ _ hm hc
          refine ⟨_, _, ?_, .dead, hc'⟩
          rw [next.eq_def]
          simp only [bind, hr, Option.bind_some]
      · cases h
        dsimp only [Back]
        intro n' env' hn he
        cases hn
        obtain ⟨t₀, e₀, ht, he₀, hrun⟩ := h3 _ _ _ _ hx _ _ (some_node u s₁) he
        refine ⟨_, _, .selScan (fun _ => u) ht fun i => some_calls u (b (j + i) u), he₀, ?_⟩
        intro m cells hm hc
        cases hm with
        | selScan hm hb' =>
          obtain ⟨m', c', hr, hm', hc'⟩ := hrun _ _ hm hc
          refine ⟨_, _, ?_, .dead, hc'⟩
          rw [next.eq_def]
          simp only [bind, hr, Option.bind_some]
    case onceScan src s direct k b g level =>
      simp only [bind, Option.bind_eq_some_iff] at h
      obtain ⟨⟨r, s₁, env₁, u₁⟩, hx, h⟩ := h
      dsimp only at h
      rcases r with e | _ | e
      · dsimp only at h
        by_cases hi : (restrictInclude direct level && s.matches e) = true
        · rw [if_pos hi] at h
          cases h
          dsimp only [Back]
          intro n' env' hn he
          cases hn with
          | onceActive hsrc hs =>
            obtain ⟨q, n₂, hq, hn₂, rfl⟩ := resolves_build u hs
            cases hn₂ with
            | singleStart hn₂ =>
              cases hn₂
              obtain ⟨t₀, e₀, ht, he₀, hrun⟩ := h3 _ _ _ _ hx _ _ hsrc he
              refine ⟨_, _, .onceScan u₁ ht hq, he₀, ?_⟩
              intro m cells hm hc
              cases hm with
              | onceScan hm =>
                obtain ⟨m', c', hr, hm', hc'⟩ := hrun _ _ hm hc
                refine ⟨_, _, ?_, .onceActive hm' (.refl _), hc'⟩
                rw [next.eq_def]
                simp only [bind, hr, Option.bind_some]
                rw [if_pos hi]
        · rw [if_neg hi] at h
          cases hl : levelAdjust level e <;> simp only [hl] at h <;> cases h
          · dsimp only [Back]
            intro n' env' hn he
            cases hn
            obtain ⟨t₀, e₀, ht, he₀, hrun⟩ := h3 _ _ _ _ hx _ _ (some_node u s₁) he
            refine ⟨_, _, .onceScan u ht (some_calls u (b u)), he₀, ?_⟩
            intro m cells hm hc
            cases hm with
            | onceScan hm =>
              obtain ⟨m', c', hr, hm', hc'⟩ := hrun _ _ hm hc
              refine ⟨_, _, ?_, .dead, hc'⟩
              rw [next.eq_def]
              simp only [bind, hr, Option.bind_some]
              rw [if_neg hi, hl]
          · dsimp only [Back]
            intro n' env' hn he
            cases hn with
            | onceScan v hsrc hb =>
              obtain ⟨t₀, e₀, ht, he₀, hrun⟩ := h3 _ _ _ _ hx _ _ hsrc he
              refine ⟨_, _, .onceScan v ht hb, he₀, ?_⟩
              intro m cells hm hc
              cases hm with
              | onceScan hm =>
                obtain ⟨m', c', hr, hm', hc'⟩ := hrun _ _ hm hc
                refine ⟨_, _, ?_, .onceScan hm', hc'⟩
                rw [next.eq_def]
                simp only [bind, hr, Option.bind_some]
                rw [if_neg hi, hl]
      · cases h
        dsimp only [Back]
        intro n' env' hn he
        cases hn
        obtain ⟨t₀, e₀, ht, he₀, hrun⟩ := h3 _ _ _ _ hx _ _ (some_node u s₁) he
        refine ⟨_, _, .onceScan u ht (some_calls u (b u)), he₀, ?_⟩
        intro m cells hm hc
        cases hm with
        | onceScan hm =>
          obtain ⟨m', c', hr, hm', hc'⟩ := hrun _ _ hm hc
          refine ⟨_, _, ?_, .dead, hc'⟩
          rw [next.eq_def]
          simp only [bind, hr, Option.bind_some]
      · cases h
        dsimp only [Back]
        intro n' env' hn he
        cases hn
        obtain ⟨t₀, e₀, ht, he₀, hrun⟩ := h3 _ _ _ _ hx _ _ (some_node u s₁) he
        refine ⟨_, _, .onceScan u ht (some_calls u (b u)), he₀, ?_⟩
        intro m cells hm hc
        cases hm with
        | onceScan hm =>
          obtain ⟨m', c', hr, hm', hc'⟩ := hrun _ _ hm hc
          refine ⟨_, _, ?_, .dead, hc'⟩
          rw [next.eq_def]
          simp only [bind, hr, Option.bind_some]
    case contOpen src k b g =>
      simp only [bind, Option.bind_eq_some_iff] at h
      obtain ⟨⟨r, s₁, env₁, u₁⟩, hx, h⟩ := h
      dsimp only at h
      rcases r with e | _ | e
      · cases e
        case openingTag tag as =>
          cases h
          dsimp only [Back]
          intro n' env' hn he
          cases hn with
          | contContent hsrc hs =>
            obtain ⟨q, n₂, hq, hn₂, rfl⟩ := resolves_build u hs
            cases hn₂
            cases hsrc with
            | peek hsrc =>
              obtain ⟨t₀, e₀, ht, he₀, hrun⟩ := h3 _ _ _ _ hx _ _ hsrc he
              refine ⟨_, _, .contOpen u₁ ht hq, he₀, ?_⟩
              intro m cells hm hc
              cases hm with
              | contOpen hm =>
                obtain ⟨m', c', hr, hm', hc'⟩ := hrun _ _ hm hc
                refine ⟨_, _, ?_, .contContent (.peek hm') (.refl _), hc'⟩
                rw [next.eq_def]
                simp only [bind, hr, Option.bind_some]
        all_goals
          cases h
          dsimp only [Back]
          intro n' env' hn he
          cases hn
          obtain ⟨t₀, e₀, ht, he₀, hrun⟩ := h3 _ _ _ _ hx _ _ (some_node u s₁) he
          refine ⟨_, _, .contOpen u ht (some_calls u (b u)), he₀, ?_⟩
          intro m cells hm hc
          cases hm with
          | contOpen hm =>
            obtain ⟨m', c', hr, hm', hc'⟩ := hrun _ _ hm hc
            refine ⟨_, _, ?_, .dead, hc'⟩
            rw [next.eq_def]
            simp only [bind, hr, Option.bind_some]
      · cases h
        dsimp only [Back]
        intro n' env' hn he
        cases hn
        obtain ⟨t₀, e₀, ht, he₀, hrun⟩ := h3 _ _ _ _ hx _ _ (some_node u s₁) he
        refine ⟨_, _, .contOpen u ht (some_calls u (b u)), he₀, ?_⟩
        intro m cells hm hc
        cases hm with
        | contOpen hm =>
          obtain ⟨m', c', hr, hm', hc'⟩ := hrun _ _ hm hc
          refine ⟨_, _, ?_, .dead, hc'⟩
          rw [next.eq_def]
          simp only [bind, hr, Option.bind_some]
      · cases h
        dsimp only [Back]
        intro n' env' hn he
        cases hn
        obtain ⟨t₀, e₀, ht, he₀, hrun⟩ := h3 _ _ _ _ hx _ _ (some_node u s₁) he
        refine ⟨_, _, .contOpen u ht (some_calls u (b u)), he₀, ?_⟩
        intro m cells hm hc
        cases hm with
        | contOpen hm =>
          obtain ⟨m', c', hr, hm', hc'⟩ := hrun _ _ hm hc
          refine ⟨_, _, ?_, .dead, hc'⟩
          rw [next.eq_def]
          simp only [bind, hr, Option.bind_some]
    case selActive src s direct k b g j level st =>
      simp only [bind, Option.bind_eq_some_iff] at h
      obtain ⟨⟨r, s₁, env₁, u₁⟩, hx, h⟩ := h
      dsimp only at h
      cases env₁ with
      | nil => cases h
      | cons src₁ env₁ =>
        rcases r with e | _ | e <;> cases h
        · dsimp only [Back]
          intro n' env' hn he
          cases hn with
          | selActive at_ hsrc hb hs =>
            obtain ⟨t₀, e₀, ht, he₀, hrun⟩ := h1 _ _ _ _ hx _ _ hs (.cons hsrc he)
            cases he₀ with
            | cons hsrc₀ he₀ =>
              refine ⟨_, _, .selActive at_ hsrc₀ hb ht, he₀, ?_⟩
              intro m cells hm hc
              cases hm with
              | selActive hsm hb' hm =>
                obtain ⟨m', c', hr, hm', hc'⟩ := hrun _ _ hm (.cons hsm hc)
                cases hc' with
                | cons hsm' hc' =>
                  refine ⟨_, _, ?_, .selActive hsm' hb' hm', hc'⟩
                  rw [next.eq_def]
                  simp only [bind, hr, Option.bind_some]
        · dsimp only [Back]
          intro n' env' hn he
          cases hn with
          | selScan at_ hsrc hb =>
            obtain ⟨t₀, e₀, ht, he₀, hrun⟩ := h1 _ _ _ _ hx _ _ (some_node u s₁) (.cons hsrc he)
            cases he₀ with
            | cons hsrc₀ he₀ =>
              refine ⟨_, _, .selActive at_ hsrc₀ hb ht, he₀, ?_⟩
              intro m cells hm hc
              cases hm with
              | selActive hsm hb' hm =>
                obtain ⟨m', c', hr, hm', hc'⟩ := hrun _ _ hm (.cons hsm hc)
                cases hc' with
                | cons hsm' hc' =>
                  refine ⟨_, _, ?_, .selScan hsm' hb', hc'⟩
                  rw [next.eq_def]
                  simp only [bind, hr, Option.bind_some]
        · dsimp only [Back]
          intro n' env' hn he
          cases hn
          obtain ⟨t₀, e₀, ht, he₀, hrun⟩ :=
            h1 _ _ _ _ hx _ _ (some_node u s₁) (.cons (some_node u src₁) he)
          cases he₀ with
          | cons hsrc₀ he₀ =>
            refine ⟨_, _, .selActive (fun _ => u) hsrc₀
              (fun i => some_calls u (b (j + i) u)) ht, he₀, ?_⟩
            intro m cells hm hc
            cases hm with
            | selActive hsm hb' hm =>
              obtain ⟨m', c', hr, hm', hc'⟩ := hrun _ _ hm (.cons hsm hc)
              cases hc' with
              | cons hsm' hc' =>
                refine ⟨_, _, ?_, .dead, hc'⟩
                rw [next.eq_def]
                simp only [bind, hr, Option.bind_some]
    case onceActive src st =>
      simp only [bind, Option.bind_eq_some_iff] at h
      obtain ⟨⟨r, s₁, env₁, u₁⟩, hx, h⟩ := h
      dsimp only at h
      cases env₁ with
      | nil => cases h
      | cons src₁ env₁ =>
        rcases r with e | _ | e <;> cases h
        · dsimp only [Back]
          intro n' env' hn he
          cases hn with
          | onceActive hsrc hs =>
            obtain ⟨t₀, e₀, ht, he₀, hrun⟩ := h1 _ _ _ _ hx _ _ hs (.cons hsrc he)
            cases he₀ with
            | cons hsrc₀ he₀ =>
              refine ⟨_, _, .onceActive hsrc₀ ht, he₀, ?_⟩
              intro m cells hm hc
              cases hm with
              | onceActive hsm hm =>
                obtain ⟨m', c', hr, hm', hc'⟩ := hrun _ _ hm (.cons hsm hc)
                cases hc' with
                | cons hsm' hc' =>
                  refine ⟨_, _, ?_, .onceActive hsm' hm', hc'⟩
                  rw [next.eq_def]
                  simp only [bind, hr, Option.bind_some]
        · dsimp only [Back]
          intro n' env' hn he
          cases hn with
          | oncePass hsrc =>
            obtain ⟨t₀, e₀, ht, he₀, hrun⟩ := h1 _ _ _ _ hx _ _ (some_node u s₁) (.cons hsrc he)
            cases he₀ with
            | cons hsrc₀ he₀ =>
              refine ⟨_, _, .onceActive hsrc₀ ht, he₀, ?_⟩
              intro m cells hm hc
              cases hm with
              | onceActive hsm hm =>
                obtain ⟨m', c', hr, hm', hc'⟩ := hrun _ _ hm (.cons hsm hc)
                cases hc' with
                | cons hsm' hc' =>
                  refine ⟨_, _, ?_, .oncePass hsm', hc'⟩
                  rw [next.eq_def]
                  simp only [bind, hr, Option.bind_some]
        · dsimp only [Back]
          intro n' env' hn he
          cases hn
          obtain ⟨t₀, e₀, ht, he₀, hrun⟩ :=
            h1 _ _ _ _ hx _ _ (some_node u s₁) (.cons (some_node u src₁) he)
          cases he₀ with
          | cons hsrc₀ he₀ =>
            refine ⟨_, _, .onceActive hsrc₀ ht, he₀, ?_⟩
            intro m cells hm hc
            cases hm with
            | onceActive hsm hm =>
              obtain ⟨m', c', hr, hm', hc'⟩ := hrun _ _ hm (.cons hsm hc)
              cases hc' with
              | cons hsm' hc' =>
                refine ⟨_, _, ?_, .dead, hc'⟩
                rw [next.eq_def]
                simp only [bind, hr, Option.bind_some]
    case contContent src st tag =>
      simp only [bind, Option.bind_eq_some_iff] at h
      obtain ⟨⟨r, s₁, env₁, u₁⟩, hx, h⟩ := h
      dsimp only at h
      cases env₁ with
      | nil => cases h
      | cons src₁ env₁ =>
        rcases r with e | _ | e <;> cases h
        · dsimp only [Back]
          intro n' env' hn he
          cases hn with
          | contContent hsrc hs =>
            obtain ⟨t₀, e₀, ht, he₀, hrun⟩ := h1 _ _ _ _ hx _ _ hs (.cons hsrc he)
            cases he₀ with
            | cons hsrc₀ he₀ =>
              refine ⟨_, _, .contContent hsrc₀ ht, he₀, ?_⟩
              intro m cells hm hc
              cases hm with
              | contContent hsm hm =>
                obtain ⟨m', c', hr, hm', hc'⟩ := hrun _ _ hm (.cons hsm hc)
                cases hc' with
                | cons hsm' hc' =>
                  refine ⟨_, _, ?_, .contContent hsm' hm', hc'⟩
                  rw [next.eq_def]
                  simp only [bind, hr, Option.bind_some]
        · dsimp only [Back]
          intro n' env' hn he
          cases hn with
          | contClose hsrc =>
            obtain ⟨t₀, e₀, ht, he₀, hrun⟩ := h1 _ _ _ _ hx _ _ (some_node u s₁) (.cons hsrc he)
            cases he₀ with
            | cons hsrc₀ he₀ =>
              refine ⟨_, _, .contContent hsrc₀ ht, he₀, ?_⟩
              intro m cells hm hc
              cases hm with
              | contContent hsm hm =>
                obtain ⟨m', c', hr, hm', hc'⟩ := hrun _ _ hm (.cons hsm hc)
                cases hc' with
                | cons hsm' hc' =>
                  refine ⟨_, _, ?_, .contClose hsm', hc'⟩
                  rw [next.eq_def]
                  simp only [bind, hr, Option.bind_some]
        · dsimp only [Back]
          intro n' env' hn he
          cases hn
          obtain ⟨t₀, e₀, ht, he₀, hrun⟩ :=
            h1 _ _ _ _ hx _ _ (some_node u s₁) (.cons (some_node u src₁) he)
          cases he₀ with
          | cons hsrc₀ he₀ =>
            refine ⟨_, _, .contContent hsrc₀ ht, he₀, ?_⟩
            intro m cells hm hc
            cases hm with
            | contContent hsm hm =>
              obtain ⟨m', c', hr, hm', hc'⟩ := hrun _ _ hm (.cons hsm hc)
              cases hc' with
              | cons hsm' hc' =>
                refine ⟨_, _, ?_, .dead, hc'⟩
                rw [next.eq_def]
                simp only [bind, hr, Option.bind_some]
    case curContent tag level =>
      cases env with
      | nil => cases h
      | cons cell env =>
        cases cell
        case peek s buffered =>
          dsimp only at h
          by_cases hl : level = 0
          · subst hl
            cases buffered with
            | some e =>
              simp only [if_true, bind, Option.bind_some, decide_true, Bool.true_and] at h
              by_cases hcl : e.isClosingTagFor tag = true
              · rw [if_pos hcl] at h
                cases h
                dsimp only [Back]
                intro n' env' hn he
                cases hn
                cases he with
                | cons hcell he =>
                  cases hcell with
                  | peek ht₁ =>
                    refine ⟨_, _, .curContent, .cons (.peek ht₁) he, ?_⟩
                    intro m cells hm hc
                    cases hm
                    cases hc with
                    | cons hm hc =>
                      cases hm with
                      | peek hm =>
                        refine ⟨_, _, ?_, .dead, .cons (.peek hm) hc⟩
                        rw [next.eq_def]
                        simp only [bind, if_true, Option.bind_some, decide_true, Bool.true_and,
                          if_pos hcl]
              · rw [if_neg hcl] at h
                simp only [Option.bind_eq_some_iff] at h
                obtain ⟨⟨r₂, cell, env₂, u₂⟩, hy, h⟩ := h
                rcases r₂ with e₂ | _ | e₂
                · cases hlv : levelAdjust 0 e₂ <;> simp only [hlv] at h <;> cases h
                  · dsimp only [Back]
                    intro n' env' hn he
                    cases hn
                    cases he with
                    | cons hcell he =>
                      obtain ⟨t₁, e₁, ht₁, he₁, hrun₁⟩ := h1 _ _ _ _ hy _ _ hcell he
                      cases ht₁ with
                      | peek ht₁ =>
                        refine ⟨_, _, .curContent, .cons (.peek ht₁) he₁, ?_⟩
                        intro m cells hm hc
                        cases hm
                        cases hc with
                        | cons hm hc =>
                          cases hm with
                          | peek hm =>
                            obtain ⟨m'', c'', hr', hm'', hc''⟩ := hrun₁ _ _ (.peek hm) hc
                            refine ⟨_, _, ?_, .refl _, .cons hm'' hc''⟩
                            rw [next.eq_def]
                            simp only [bind, if_true, Option.bind_some, decide_true, Bool.true_and,
                              if_neg hcl, hr', hlv]
                  · dsimp only [Back]
                    intro n' env' hn he
                    cases hn
                    cases he with
                    | cons hcell he =>
                      obtain ⟨t₁, e₁, ht₁, he₁, hrun₁⟩ := h1 _ _ _ _ hy _ _ hcell he
                      cases ht₁ with
                      | peek ht₁ =>
                        refine ⟨_, _, .curContent, .cons (.peek ht₁) he₁, ?_⟩
                        intro m cells hm hc
                        cases hm
                        cases hc with
                        | cons hm hc =>
                          cases hm with
                          | peek hm =>
                            obtain ⟨m'', c'', hr', hm'', hc''⟩ := hrun₁ _ _ (.peek hm) hc
                            refine ⟨_, _, ?_, .refl _, .cons hm'' hc''⟩
                            rw [next.eq_def]
                            simp only [bind, if_true, Option.bind_some, decide_true, Bool.true_and,
                              if_neg hcl, hr', hlv]
                all_goals
                  cases h
                  dsimp only [Back]
                  intro n' env' hn he
                  cases hn
                  cases he with
                  | cons hcell he =>
                    obtain ⟨t₁, e₁, ht₁, he₁, hrun₁⟩ := h1 _ _ _ _ hy _ _ hcell he
                    cases ht₁ with
                    | peek ht₁ =>
                      refine ⟨_, _, .curContent, .cons (.peek ht₁) he₁, ?_⟩
                      intro m cells hm hc
                      cases hm
                      cases hc with
                      | cons hm hc =>
                        cases hm with
                        | peek hm =>
                          obtain ⟨m'', c'', hr', hm'', hc''⟩ := hrun₁ _ _ (.peek hm) hc
                          refine ⟨_, _, ?_, .refl _, .cons hm'' hc''⟩
                          rw [next.eq_def]
                          simp only [bind, if_true, Option.bind_some, decide_true, Bool.true_and,
                            if_neg hcl, hr']
            | none =>
              simp only [if_true, bind] at h
              rw [Option.bind_eq_some_iff] at h
              obtain ⟨⟨r, s₁, buf₁, env₁, u₁⟩, hx, h⟩ := h
              rw [Option.bind_eq_some_iff] at hx
              obtain ⟨⟨r₁, s₂, env₃, u₃⟩, hx, hx'⟩ := hx
              rcases r₁ with e | _ | e
              · cases hx'
                simp only [decide_true, Bool.true_and] at h
                by_cases hcl : e.isClosingTagFor tag = true
                · rw [if_pos hcl] at h
                  cases h
                  dsimp only [Back]
                  intro n' env' hn he
                  cases hn
                  cases he with
                  | cons hcell he =>
                    cases hcell with
                    | peek ht₁ =>
                      obtain ⟨t₀, e₀, ht, he₀, hrun⟩ := h3 _ _ _ _ hx _ _ ht₁ he
                      refine ⟨_, _, .curContent, .cons (.peek ht) he₀, ?_⟩
                      intro m cells hm hc
                      cases hm
                      cases hc with
                      | cons hm hc =>
                        cases hm with
                        | peek hm =>
                          obtain ⟨m', c', hr, hm', hc'⟩ := hrun _ _ hm hc
                          refine ⟨_, _, ?_, .dead, .cons (.peek hm') hc'⟩
                          rw [next.eq_def]
                          simp only [bind, if_true, hr, Option.bind_some, decide_true,
                            Bool.true_and, if_pos hcl]
                · rw [if_neg hcl] at h
                  simp only [Option.bind_eq_some_iff] at h
                  obtain ⟨⟨r₂, cell, env₂, u₂⟩, hy, h⟩ := h
                  rcases r₂ with e₂ | _ | e₂
                  · cases hlv : levelAdjust 0 e₂ <;> simp only [hlv] at h <;> cases h
                    · dsimp only [Back]
                      intro n' env' hn he
                      cases hn
                      cases he with
                      | cons hcell he =>
                        obtain ⟨t₁, e₁, ht₁, he₁, hrun₁⟩ := h1 _ _ _ _ hy _ _ hcell he
                        cases ht₁ with
                        | peek ht₁ =>
                          obtain ⟨t₀, e₀, ht, he₀, hrun⟩ := h3 _ _ _ _ hx _ _ ht₁ he₁
                          refine ⟨_, _, .curContent, .cons (.peek ht) he₀, ?_⟩
                          intro m cells hm hc
                          cases hm
                          cases hc with
                          | cons hm hc =>
                            cases hm with
                            | peek hm =>
                              obtain ⟨m', c', hr, hm', hc'⟩ := hrun _ _ hm hc
                              obtain ⟨m'', c'', hr', hm'', hc''⟩ := hrun₁ _ _ (.peek hm') hc'
                              refine ⟨_, _, ?_, .refl _, .cons hm'' hc''⟩
                              rw [next.eq_def]
                              simp only [bind, if_true, hr, Option.bind_some, decide_true,
                                Bool.true_and, if_neg hcl, hr', hlv]
                    · dsimp only [Back]
                      intro n' env' hn he
                      cases hn
                      cases he with
                      | cons hcell he =>
                        obtain ⟨t₁, e₁, ht₁, he₁, hrun₁⟩ := h1 _ _ _ _ hy _ _ hcell he
                        cases ht₁ with
                        | peek ht₁ =>
                          obtain ⟨t₀, e₀, ht, he₀, hrun⟩ := h3 _ _ _ _ hx _ _ ht₁ he₁
                          refine ⟨_, _, .curContent, .cons (.peek ht) he₀, ?_⟩
                          intro m cells hm hc
                          cases hm
                          cases hc with
                          | cons hm hc =>
                            cases hm with
                            | peek hm =>
                              obtain ⟨m', c', hr, hm', hc'⟩ := hrun _ _ hm hc
                              obtain ⟨m'', c'', hr', hm'', hc''⟩ := hrun₁ _ _ (.peek hm') hc'
                              refine ⟨_, _, ?_, .refl _, .cons hm'' hc''⟩
                              rw [next.eq_def]
                              simp only [bind, if_true, hr, Option.bind_some, decide_true,
                                Bool.true_and, if_neg hcl, hr', hlv]
                  all_goals
                    cases h
                    dsimp only [Back]
                    intro n' env' hn he
                    cases hn
                    cases he with
                    | cons hcell he =>
                      obtain ⟨t₁, e₁, ht₁, he₁, hrun₁⟩ := h1 _ _ _ _ hy _ _ hcell he
                      cases ht₁ with
                      | peek ht₁ =>
                        obtain ⟨t₀, e₀, ht, he₀, hrun⟩ := h3 _ _ _ _ hx _ _ ht₁ he₁
                        refine ⟨_, _, .curContent, .cons (.peek ht) he₀, ?_⟩
                        intro m cells hm hc
                        cases hm
                        cases hc with
                        | cons hm hc =>
                          cases hm with
                          | peek hm =>
                            obtain ⟨m', c', hr, hm', hc'⟩ := hrun _ _ hm hc
                            obtain ⟨m'', c'', hr', hm'', hc''⟩ := hrun₁ _ _ (.peek hm') hc'
                            refine ⟨_, _, ?_, .refl _, .cons hm'' hc''⟩
                            rw [next.eq_def]
                            simp only [bind, if_true, hr, Option.bind_some, decide_true,
                              Bool.true_and, if_neg hcl, hr']
              · cases hx'
                cases h
                dsimp only [Back]
                intro n' env' hn he
                cases hn
                cases he with
                | cons hcell he =>
                  cases hcell with
                  | peek ht₁ =>
                    obtain ⟨t₀, e₀, ht, he₀, hrun⟩ := h3 _ _ _ _ hx _ _ ht₁ he
                    refine ⟨_, _, .curContent, .cons (.peek ht) he₀, ?_⟩
                    intro m cells hm hc
                    cases hm
                    cases hc with
                    | cons hm hc =>
                      cases hm with
                      | peek hm =>
                        obtain ⟨m', c', hr, hm', hc'⟩ := hrun _ _ hm hc
                        refine ⟨_, _, ?_, .dead, .cons (.peek hm') hc'⟩
                        rw [next.eq_def]
                        simp only [bind, if_true, hr, Option.bind_some]
              · cases hx'
                cases h
                dsimp only [Back]
                intro n' env' hn he
                cases hn
                cases he with
                | cons hcell he =>
                  cases hcell with
                  | peek ht₁ =>
                    obtain ⟨t₀, e₀, ht, he₀, hrun⟩ := h3 _ _ _ _ hx _ _ ht₁ he
                    refine ⟨_, _, .curContent, .cons (.peek ht) he₀, ?_⟩
                    intro m cells hm hc
                    cases hm
                    cases hc with
                    | cons hm hc =>
                      cases hm with
                      | peek hm =>
                        obtain ⟨m', c', hr, hm', hc'⟩ := hrun _ _ hm hc
                        refine ⟨_, _, ?_, .dead, .cons (.peek hm') hc'⟩
                        rw [next.eq_def]
                        simp only [bind, if_true, hr, Option.bind_some]
          · simp only [if_neg hl, bind, Option.bind_some, decide_eq_false hl, Bool.false_and,
              Bool.false_eq_true, if_false] at h
            simp only [Option.bind_eq_some_iff] at h
            obtain ⟨⟨r₂, cell, env₂, u₂⟩, hy, h⟩ := h
            rcases r₂ with e₂ | _ | e₂
            · cases hlv : levelAdjust level e₂ <;> simp only [hlv] at h <;> cases h
              · dsimp only [Back]
                intro n' env' hn he
                cases hn
                cases he with
                | cons hcell he =>
                  obtain ⟨t₁, e₁, ht₁, he₁, hrun₁⟩ := h1 _ _ _ _ hy _ _ hcell he
                  cases ht₁ with
                  | peek ht₁ =>
                    refine ⟨_, _, .curContent, .cons (.peek ht₁) he₁, ?_⟩
                    intro m cells hm hc
                    cases hm
                    cases hc with
                    | cons hm hc =>
                      cases hm with
                      | peek hm =>
                        obtain ⟨m'', c'', hr', hm'', hc''⟩ := hrun₁ _ _ (.peek hm) hc
                        refine ⟨_, _, ?_, .refl _, .cons hm'' hc''⟩
                        rw [next.eq_def]
                        simp only [bind, if_neg hl, Option.bind_some, decide_eq_false hl,
                          Bool.false_and, Bool.false_eq_true, if_false, hr', hlv]
              · dsimp only [Back]
                intro n' env' hn he
                cases hn
                cases he with
                | cons hcell he =>
                  obtain ⟨t₁, e₁, ht₁, he₁, hrun₁⟩ := h1 _ _ _ _ hy _ _ hcell he
                  cases ht₁ with
                  | peek ht₁ =>
                    refine ⟨_, _, .curContent, .cons (.peek ht₁) he₁, ?_⟩
                    intro m cells hm hc
                    cases hm
                    cases hc with
                    | cons hm hc =>
                      cases hm with
                      | peek hm =>
                        obtain ⟨m'', c'', hr', hm'', hc''⟩ := hrun₁ _ _ (.peek hm) hc
                        refine ⟨_, _, ?_, .refl _, .cons hm'' hc''⟩
                        rw [next.eq_def]
                        simp only [bind, if_neg hl, Option.bind_some, decide_eq_false hl,
                          Bool.false_and, Bool.false_eq_true, if_false, hr', hlv]
            all_goals
              cases h
              dsimp only [Back]
              intro n' env' hn he
              cases hn
              cases he with
              | cons hcell he =>
                obtain ⟨t₁, e₁, ht₁, he₁, hrun₁⟩ := h1 _ _ _ _ hy _ _ hcell he
                cases ht₁ with
                | peek ht₁ =>
                  refine ⟨_, _, .curContent, .cons (.peek ht₁) he₁, ?_⟩
                  intro m cells hm hc
                  cases hm
                  cases hc with
                  | cons hm hc =>
                    cases hm with
                    | peek hm =>
                      obtain ⟨m'', c'', hr', hm'', hc''⟩ := hrun₁ _ _ (.peek hm) hc
                      refine ⟨_, _, ?_, .refl _, .cons hm'' hc''⟩
                      rw [next.eq_def]
                      simp only [bind, if_neg hl, Option.bind_some, decide_eq_false hl,
                        Bool.false_and, Bool.false_eq_true, if_false, hr']
        all_goals cases h
  · intro collect' skip' h2 h3 u env n p h
    simp only [bind, Option.bind_eq_some_iff] at h
    obtain ⟨⟨r, s₁, env₁, u₁⟩, hx, h⟩ := h
    dsimp only at h
    rcases r with e | _ | e
    · simp only [Option.bind_eq_some_iff] at h
      obtain ⟨⟨r, env₂, u₂⟩, hy, h⟩ := h
      rcases r with err | es <;> cases h <;> dsimp only [BackCollect] <;> intro env' he <;>
      · obtain ⟨t₁, e₁, ht₁, he₁, hrun₁⟩ := h2 _ _ _ _ hy _ he
        obtain ⟨t₀, e₀, ht, he₀, hrun⟩ := h3 _ _ _ _ hx _ _ ht₁ he₁
        refine ⟨_, _, ht, he₀, ?_⟩
        intro m cells hm hc
        obtain ⟨m', c', hr, hm', hc'⟩ := hrun _ _ hm hc
        obtain ⟨c'', hr', hc''⟩ := hrun₁ _ _ hm' hc'
        refine ⟨_, ?_, hc''⟩
        rw [collect.eq_def]
        simp only [bind, hr, Option.bind_some, hr']
    all_goals
      cases h
      dsimp only [BackCollect]
      intro env' he
      obtain ⟨t₀, e₀, ht, he₀, hrun⟩ := h3 _ _ _ _ hx _ _ (some_node u s₁) he
      refine ⟨_, _, ht, he₀, ?_⟩
      intro m cells hm hc
      obtain ⟨m', c', hr, hm', hc'⟩ := hrun _ _ hm hc
      refine ⟨_, ?_, hc'⟩
      rw [collect.eq_def]
      simp only [bind, hr, Option.bind_some]
  · intro next' skip' h1 h3 u env n p h
    simp only [bind, Option.bind_eq_some_iff] at h
    obtain ⟨⟨r, s₁, env₁, u₁⟩, hx, h⟩ := h
    dsimp only at h
    intro n' env' hn he
    by_cases hr0 : r = .ev .noop
    · subst hr0
      dsimp only at h
      obtain ⟨t₁, e₁, ht₁, he₁, hrun₁⟩ := h3 _ _ _ _ h _ _ hn he
      obtain ⟨t₀, e₀, ht, he₀, hrun⟩ := h1 _ _ _ _ hx _ _ ht₁ he₁
      refine ⟨_, _, ht, he₀, ?_⟩
      intro m cells hm hc
      obtain ⟨m', c', hr, hm', hc'⟩ := hrun _ _ hm hc
      obtain ⟨m'', c'', hr', hm'', hc''⟩ := hrun₁ _ _ hm' hc'
      refine ⟨_, _, ?_, hm'', hc''⟩
      rw [nextSkipNoop.eq_def]
      simp only [bind, hr, Option.bind_some, hr']
    · have h' : p = (r, s₁, env₁, u₁) := by
        rcases r with e | _ | e
        · cases e <;> first
            | exact absurd rfl hr0
            | (cases h; rfl)
        all_goals (cases h; rfl)
      subst h'
      obtain ⟨t₀, e₀, ht, he₀, hrun⟩ := h1 _ _ _ _ hx _ _ hn he
      refine ⟨_, _, ht, he₀, ?_⟩
      intro m cells hm hc
      obtain ⟨m', c', hr, hm', hc'⟩ := hrun _ _ hm hc
      refine ⟨_, _, ?_, hm', hc'⟩
      rw [nextSkipNoop.eq_def]
      simp only [bind, hr, Option.bind_some]
  · intro next' drain' h1 h4 u env n p h
    simp only [bind, Option.bind_eq_some_iff] at h
    obtain ⟨⟨r, s₁, env₁, u₁⟩, hx, h⟩ := h
    dsimp only at h
    intro n' env' hn he
    rcases r with e | _ | e
    · obtain ⟨t₁, e₁, ht₁, he₁, hrun₁⟩ := h4 _ _ _ _ h _ _ hn he
      obtain ⟨t₀, e₀, ht, he₀, hrun⟩ := h1 _ _ _ _ hx _ _ ht₁ he₁
      refine ⟨_, _, ht, he₀, ?_⟩
      intro m cells hm hc
      obtain ⟨m', c', hr, hm', hc'⟩ := hrun _ _ hm hc
      obtain ⟨m'', c'', hr', hm'', hc''⟩ := hrun₁ _ _ hm' hc'
      refine ⟨_, _, ?_, hm'', hc''⟩
      rw [drain.eq_def]
      simp only [bind, hr, Option.bind_some, hr']
    all_goals
      cases h
      obtain ⟨t₀, e₀, ht, he₀, hrun⟩ := h1 _ _ _ _ hx _ _ hn he
      refine ⟨_, _, ht, he₀, ?_⟩
      intro m cells hm hc
      obtain ⟨m', c', hr, hm', hc'⟩ := hrun _ _ hm hc
      refine ⟨_, _, ?_, hm', hc'⟩
      rw [drain.eq_def]
      simp only [bind, hr, Option.bind_some]

/-- Every transform with user code that shares state does what some transform does whose user code
shares none. -/
theorem transform_resolved {k : Kind} {t : Template} {p : UProg σ .gen k} {u u' : σ}
    {r : Except StreamError Template} (h : t.transformUser p u = some (r, u')) :
    ∃ q, Resolves p q ∧ t.transform q = some r := by
  simp only [Template.transformUser, bind, Option.bind_eq_some_iff] at h
  obtain ⟨⟨x, env, v⟩, hx, h⟩ := h
  have hb := machine_back.2.1 _ _ _ _ hx
  obtain ⟨env', henv'⟩ : ∃ env', List.Forall₂ ResolvesNode env env' := by
    clear hx hb h
    induction env with
    | nil => exact ⟨_, .nil⟩
    | cons n _ ih => exact ⟨_, .cons (some_node u n) ih.choose_spec⟩
  obtain ⟨n₀, e₀, hn, he, hrun⟩ := hb _ henv'
  obtain ⟨q, n', hq, hn', rfl⟩ := resolves_build u hn
  cases hn'
  cases he
  obtain ⟨c, hr, _⟩ := hrun _ _ (.refl _) .nil
  refine ⟨q, hq, ?_⟩
  simp only [Template.transform, Template.toStream, bind, hr, Option.bind_some]
  cases x <;> cases h <;> rfl

end Fuser
