import Verif.Model.UserState

/-!
# What is left of a transform when its user code has run

`Resolves p q` says that the transform `q`, whose user code has no state in common, is the transform
`p` with every use of the state replaced by what it gives in some state: every call of a closure by
the calls it makes in some state, every iterator by a number of items, every user-defined stream by
a list of answers.
-/

namespace Fuser.Spec

variable {σ : Type}

/-- Content with the answers of user-defined streams written down. -/
inductive ResolvesContent : UContent σ → Content → Prop
  | data {d} : ResolvesContent (.data d) (.data d)
  | template {t} : ResolvesContent (.template t) (.template t)
  | stream {pull after rs} : (∀ i r, rs[i]? = some r → ∃ u, pull i u = r) →
      ResolvesContent (.stream pull after) (.script rs)
  | resultOk {c d} : ResolvesContent c d → ResolvesContent (.resultOk c) (.resultOk d)
  | resultErr {e} : ResolvesContent (.resultErr e) (.resultErr e)

/-- Calls with what the closures, iterators and functions give written down. -/
inductive Resolves : {a k : Kind} → UProg σ a k → Prog a k → Prop
  | src {a} : Resolves (.src (a := a)) .src
  | forget {a} {p : UProg σ a .elem} {q} : Resolves p q → Resolves (.forget p) (.forget q)
  | apply {a b c} {p : UProg σ a b} {p' : UProg σ b c} {q q'} :
      Resolves p q → Resolves p' q' → Resolves (.apply p p') (.apply q q')
  | fallOk {a k} {p : UProg σ a k} {q} : Resolves p q → Resolves (.fallOk p) (.fallOk q)
  | fallErr {a k e} : Resolves (.fallErr e : UProg σ a k) (.fallErr e)
  | selectRaw {a k k'} {p : UProg σ a k} {q s direct} {b : Nat → σ → UProg σ .elem k'} {g c}
      (at_ : Nat → σ) : Resolves p q → (∀ i, Resolves (b i (at_ i)) (c i)) →
      Resolves (.selectRaw p s direct b g) (.selectRaw q s direct c)
  | selectOnceRaw {a k k'} {p : UProg σ a k} {q s direct} {b : σ → UProg σ .elem k'} {g c}
      (u : σ) : Resolves p q → Resolves (b u) c →
      Resolves (.selectOnceRaw p s direct b g) (.selectOnceRaw q s direct c)
  | remove {a k} {p : UProg σ a k} {q} : Resolves p q → Resolves (.remove p) (.remove q)
  | prepend {a k} {p : UProg σ a k} {q c d} : Resolves p q → ResolvesContent c d →
      Resolves (.prepend p c) (.prepend q d)
  | append {a k} {p : UProg σ a k} {q c d} : Resolves p q → ResolvesContent c d →
      Resolves (.append p c) (.append q d)
  | repeat {a k k'} {p : UProg σ a k} {q n more} {b : Nat → σ → UProg σ k k'} {g c}
      (at_ : Nat → σ) : Resolves p q → (∀ i < n, more i (at_ i) = true) →
      (∀ i, Resolves (b i (at_ i)) (c i)) → Resolves (.repeat p more b g) (.repeat q n c)
  | orElse {a k k₁ k₂} {p : UProg σ a k} {q n more} {r : σ → UProg σ k k₁}
      {f : σ → UProg σ k k₂} {g r' f'} (u : σ) : Resolves p q → (0 < n ↔ more u = true) →
      Resolves (r u) r' → Resolves (f u) f' → Resolves (.orElse p more r f g) (.orElse q n r' f')
  | applyTemplate {a k} {p : UProg σ a k} {q f g} (u : σ) : Resolves p q →
      Resolves (.applyTemplate p f g) (.applyTemplate q (f u))
  | contents {a k} {p : UProg σ a .elem} {q} {b : σ → UProg σ .gen k} {g c} (u : σ) :
      Resolves p q → Resolves (b u) c → Resolves (.contents p b g) (.contents q c)
  | attr {a} {p : UProg σ a .elem} {q op} : Resolves p q → Resolves (.attr p op) (.attr q op)

/-- A user-defined stream whose answers do not depend on the state. -/
def statelessContent (σ : Type) : Content → UContent σ
  | .data d => .data d
  | .template t => .template t
  | .script rs => .stream (fun i _ => (rs[i]?).getD (.ok none)) id
  | .resultOk c => .resultOk (statelessContent σ c)
  | .resultErr e => .resultErr e

/-- A transform whose user code neither reads nor changes the state. -/
def stateless (σ : Type) : {a k : Kind} → Prog a k → UProg σ a k
  | _, _, .src => .src
  | _, _, .forget p => .forget (stateless σ p)
  | _, _, .apply p q => .apply (stateless σ p) (stateless σ q)
  | _, _, .fallOk p => .fallOk (stateless σ p)
  | _, _, .fallErr e => .fallErr e
  | _, _, .selectRaw p s direct b =>
    .selectRaw (stateless σ p) s direct (fun i _ => stateless σ (b i)) id
  | _, _, .selectOnceRaw p s direct b =>
    .selectOnceRaw (stateless σ p) s direct (fun _ => stateless σ b) id
  | _, _, .remove p => .remove (stateless σ p)
  | _, _, .prepend p c => .prepend (stateless σ p) (statelessContent σ c)
  | _, _, .append p c => .append (stateless σ p) (statelessContent σ c)
  | _, _, .repeat p n b =>
    .repeat (stateless σ p) (fun i _ => decide (i < n)) (fun i _ => stateless σ (b i)) id
  | _, _, .orElse p n r f =>
    .orElse (stateless σ p) (fun _ => decide (0 < n)) (fun _ => stateless σ r)
      (fun _ => stateless σ f) id
  | _, _, .applyTemplate p f => .applyTemplate (stateless σ p) (fun _ => f) fun u _ => u
  | _, _, .contents p b => .contents (stateless σ p) (fun _ => stateless σ b) id
  | _, _, .attr p op => .attr (stateless σ p) op

end Fuser.Spec
