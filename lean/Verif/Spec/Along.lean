import Verif.Model.UserState

/-!
# User code over states that correspond

Two transforms with user code over different types of states are alike along a relation between the
states if in states that correspond their user code gives the same and goes to states that
correspond. A property of states that all user code keeps makes user code over the states with that
property.
-/

namespace Fuser.Spec

variable {σ τ : Type}

/-- Contents whose streams give the same in states that correspond. -/
inductive AlongContent (R : σ → τ → Prop) : UContent σ → UContent τ → Prop
  | data {d} : AlongContent R (.data d) (.data d)
  | template {t} : AlongContent R (.template t) (.template t)
  | stream {pull after pull' after'} : (∀ i u v, R u v → pull i u = pull' i v) →
      (∀ u v, R u v → R (after u) (after' v)) →
      AlongContent R (.stream pull after) (.stream pull' after')
  | resultOk {c d} : AlongContent R c d → AlongContent R (.resultOk c) (.resultOk d)
  | resultErr {e} : AlongContent R (.resultErr e) (.resultErr e)

/-- Calls whose user code gives the same in states that correspond. -/
inductive Along (R : σ → τ → Prop) : {a k : Kind} → UProg σ a k → UProg τ a k → Prop
  | src {a} : Along R (.src (a := a)) .src
  | forget {a} {p : UProg σ a .elem} {q} : Along R p q → Along R (.forget p) (.forget q)
  | apply {a b c} {p : UProg σ a b} {p' : UProg σ b c} {q q'} :
      Along R p q → Along R p' q' → Along R (.apply p p') (.apply q q')
  | fallOk {a k} {p : UProg σ a k} {q} : Along R p q → Along R (.fallOk p) (.fallOk q)
  | fallErr {a k e} : Along R (.fallErr e : UProg σ a k) (.fallErr e)
  | selectRaw {a k k'} {p : UProg σ a k} {q s direct} {b : Nat → σ → UProg σ .elem k'} {g c h} :
      Along R p q → (∀ i u v, R u v → Along R (b i u) (c i v)) →
      (∀ u v, R u v → R (g u) (h v)) →
      Along R (.selectRaw p s direct b g) (.selectRaw q s direct c h)
  | selectOnceRaw {a k k'} {p : UProg σ a k} {q s direct} {b : σ → UProg σ .elem k'} {g c h} :
      Along R p q → (∀ u v, R u v → Along R (b u) (c v)) → (∀ u v, R u v → R (g u) (h v)) →
      Along R (.selectOnceRaw p s direct b g) (.selectOnceRaw q s direct c h)
  | remove {a k} {p : UProg σ a k} {q} : Along R p q → Along R (.remove p) (.remove q)
  | prepend {a k} {p : UProg σ a k} {q c d} : Along R p q → AlongContent R c d →
      Along R (.prepend p c) (.prepend q d)
  | append {a k} {p : UProg σ a k} {q c d} : Along R p q → AlongContent R c d →
      Along R (.append p c) (.append q d)
  | repeat {a k k'} {p : UProg σ a k} {q more more'} {b : Nat → σ → UProg σ k k'} {g c h} :
      Along R p q → (∀ i u v, R u v → more i u = more' i v) →
      (∀ i u v, R u v → Along R (b i u) (c i v)) → (∀ u v, R u v → R (g u) (h v)) →
      Along R (.repeat p more b g) (.repeat q more' c h)
  | orElse {a k k₁ k₂} {p : UProg σ a k} {q more more'} {r : σ → UProg σ k k₁}
      {f : σ → UProg σ k k₂} {g r' f' h} : Along R p q →
      (∀ u v, R u v → more u = more' v) → (∀ u v, R u v → Along R (r u) (r' v)) →
      (∀ u v, R u v → Along R (f u) (f' v)) → (∀ u v, R u v → R (g u) (h v)) →
      Along R (.orElse p more r f g) (.orElse q more' r' f' h)
  | applyTemplate {a k} {p : UProg σ a k} {q f g f' h} : Along R p q →
      (∀ u v t, R u v → f u t = f' v t) → (∀ u v t, R u v → R (g u t) (h v t)) →
      Along R (.applyTemplate p f g) (.applyTemplate q f' h)
  | contents {a k} {p : UProg σ a .elem} {q} {b : σ → UProg σ .gen k} {g c h} : Along R p q →
      (∀ u v, R u v → Along R (b u) (c v)) → (∀ u v, R u v → R (g u) (h v)) →
      Along R (.contents p b g) (.contents q c h)
  | attr {a} {p : UProg σ a .elem} {q op} : Along R p q → Along R (.attr p op) (.attr q op)

/-- The streams of a content keep a property of states. -/
def KeepsContent (P : σ → Prop) : UContent σ → Prop
  | .stream _ after => ∀ u, P u → P (after u)
  | .resultOk c => KeepsContent P c
  | _ => True

/-- All user code keeps a property of states. -/
def KeepsState (P : σ → Prop) : {a k : Kind} → UProg σ a k → Prop
  | _, _, .src => True
  | _, _, .forget p => KeepsState P p
  | _, _, .apply p q => KeepsState P p ∧ KeepsState P q
  | _, _, .fallOk p => KeepsState P p
  | _, _, .fallErr _ => True
  | _, _, .selectRaw p _ _ b g =>
    KeepsState P p ∧ (∀ u, P u → P (g u)) ∧ ∀ i u, P u → KeepsState P (b i u)
  | _, _, .selectOnceRaw p _ _ b g => KeepsState P p ∧ (∀ u, P u → P (g u)) ∧ ∀ u, P u → KeepsState P (b u)
  | _, _, .remove p => KeepsState P p
  | _, _, .prepend p c => KeepsState P p ∧ KeepsContent P c
  | _, _, .append p c => KeepsState P p ∧ KeepsContent P c
  | _, _, .repeat p _ b g => KeepsState P p ∧ (∀ u, P u → P (g u)) ∧ ∀ i u, P u → KeepsState P (b i u)
  | _, _, .orElse p _ r f g =>
    KeepsState P p ∧ (∀ u, P u → P (g u)) ∧ (∀ u, P u → KeepsState P (r u)) ∧ ∀ u, P u → KeepsState P (f u)
  | _, _, .applyTemplate p _ g => KeepsState P p ∧ ∀ u t, P u → P (g u t)
  | _, _, .contents p b g => KeepsState P p ∧ (∀ u, P u → P (g u)) ∧ ∀ u, P u → KeepsState P (b u)
  | _, _, .attr p _ => KeepsState P p

/-- The content seen from the states with the property. -/
def withinContent (P : σ → Prop) : (c : UContent σ) → KeepsContent P c → UContent {u // P u}
  | .data d, _ => .data d
  | .template t, _ => .template t
  | .stream pull after, h => .stream (fun i u => pull i u.1) fun u => ⟨after u.1, h _ u.2⟩
  | .resultOk c, h => .resultOk (withinContent P c h)
  | .resultErr e, _ => .resultErr e

/-- The calls seen from the states with the property. -/
def within (P : σ → Prop) : {a k : Kind} → (p : UProg σ a k) → KeepsState P p → UProg {u // P u} a k
  | _, _, .src, _ => .src
  | _, _, .forget p, h => .forget (within P p h)
  | _, _, .apply p q, h => .apply (within P p h.1) (within P q h.2)
  | _, _, .fallOk p, h => .fallOk (within P p h)
  | _, _, .fallErr e, _ => .fallErr e
  | _, _, .selectRaw p s direct b g, h =>
    .selectRaw (within P p h.1) s direct (fun i u => within P (b i u.1) (h.2.2 i _ u.2))
      fun u => ⟨g u.1, h.2.1 _ u.2⟩
  | _, _, .selectOnceRaw p s direct b g, h =>
    .selectOnceRaw (within P p h.1) s direct (fun u => within P (b u.1) (h.2.2 _ u.2))
      fun u => ⟨g u.1, h.2.1 _ u.2⟩
  | _, _, .remove p, h => .remove (within P p h)
  | _, _, .prepend p c, h => .prepend (within P p h.1) (withinContent P c h.2)
  | _, _, .append p c, h => .append (within P p h.1) (withinContent P c h.2)
  | _, _, .repeat p more b g, h =>
    .repeat (within P p h.1) (fun i u => more i u.1)
      (fun i u => within P (b i u.1) (h.2.2 i _ u.2)) fun u => ⟨g u.1, h.2.1 _ u.2⟩
  | _, _, .orElse p more r f g, h =>
    .orElse (within P p h.1) (fun u => more u.1) (fun u => within P (r u.1) (h.2.2.1 _ u.2))
      (fun u => within P (f u.1) (h.2.2.2 _ u.2)) fun u => ⟨g u.1, h.2.1 _ u.2⟩
  | _, _, .applyTemplate p f g, h =>
    .applyTemplate (within P p h.1) (fun u => f u.1) fun u t => ⟨g u.1 t, h.2 _ _ u.2⟩
  | _, _, .contents p b g, h =>
    .contents (within P p h.1) (fun u => within P (b u.1) (h.2.2 _ u.2))
      fun u => ⟨g u.1, h.2.1 _ u.2⟩
  | _, _, .attr p op, h => .attr (within P p h) op

end Fuser.Spec
