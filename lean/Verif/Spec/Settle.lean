import Verif.Model.UserState

/-!
# User code whose iterators and streams end

`G u v` says that user code may go from the state `u` to the state `v`. An iterator or stream ends
along `G` if in every course of states that `G` allows it gives nothing at some time.
-/

namespace Fuser.Spec

variable {σ : Type}

/-- Whoever asks again and again, and lets the state go on along `G` in between, gets nothing at
some time. -/
def Settles (G : σ → σ → Prop) (gives : Nat → σ → Prop) (after : σ → σ) : Prop :=
  ∀ s : Nat → σ, (∀ i, G (after (s i)) (s (i + 1))) → ∃ i, ¬ gives i (s i)

/-- The streams of a content end, and go along `G`. -/
def SettledContent (G : σ → σ → Prop) : UContent σ → Prop
  | .stream pull after =>
    (∀ u, G u (after u)) ∧ Settles G (fun i u => ∃ e, pull i u = .ok (some e)) after
  | .resultOk c => SettledContent G c
  | _ => True

/-- All user code goes along `G`, and iterators and streams end. -/
def Settled (G : σ → σ → Prop) : {a k : Kind} → UProg σ a k → Prop
  | _, _, .src => True
  | _, _, .forget p => Settled G p
  | _, _, .apply p q => Settled G p ∧ Settled G q
  | _, _, .fallOk p => Settled G p
  | _, _, .fallErr _ => True
  | _, _, .selectRaw p _ _ b g => Settled G p ∧ (∀ u, G u (g u)) ∧ ∀ i u, Settled G (b i u)
  | _, _, .selectOnceRaw p _ _ b g => Settled G p ∧ (∀ u, G u (g u)) ∧ ∀ u, Settled G (b u)
  | _, _, .remove p => Settled G p
  | _, _, .prepend p c => Settled G p ∧ SettledContent G c
  | _, _, .append p c => Settled G p ∧ SettledContent G c
  | _, _, .repeat p more b g =>
    Settled G p ∧ (∀ u, G u (g u)) ∧ (∀ i u, Settled G (b i u)) ∧
      Settles G (fun i u => more i u = true) g
  | _, _, .orElse p _ r f g =>
    Settled G p ∧ (∀ u, G u (g u)) ∧ (∀ u, Settled G (r u)) ∧ ∀ u, Settled G (f u)
  | _, _, .applyTemplate p _ g => Settled G p ∧ ∀ u t, G u (g u t)
  | _, _, .contents p b g => Settled G p ∧ (∀ u, G u (g u)) ∧ ∀ u, Settled G (b u)
  | _, _, .attr p _ => Settled G p

end Fuser.Spec
