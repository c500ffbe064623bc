import Verif.Spec.Rewrite

/-!
# Specification of how much deeper calls may nest a page
-/

namespace Fuser.Spec

/-- The calls make a page at most `k` levels deeper: contents that do not fail are at most `k` deep,
nested calls add up, and calls on the contents of elements count one level more, since they may open
a self-closed element. -/
def Deepens {a k' : Kind} : Nat → Prog a k' → Prop
  | _, .src => True
  | k, .forget p => Deepens k p
  | k, .apply p q => ∃ i j, i + j ≤ k ∧ Deepens i p ∧ Deepens j q
  | k, .fallOk p => Deepens k p
  | _, .fallErr _ => True
  | k, .selectRaw p _ _ b => ∃ i j, i + j ≤ k ∧ Deepens i p ∧ ∀ n, Deepens j (b n)
  | k, .selectOnceRaw p _ _ b => ∃ i j, i + j ≤ k ∧ Deepens i p ∧ Deepens j b
  | k, .remove p => Deepens k p
  | k, .prepend p c => Deepens k p ∧ ∀ es, outcome (results c) = .ok es → Nests k es
  | k, .append p c => Deepens k p ∧ ∀ es, outcome (results c) = .ok es → Nests k es
  | k, .repeat p _ b => ∃ i j, i + j ≤ k ∧ Deepens i p ∧ ∀ n, Deepens j (b n)
  | k, .orElse p _ r q => ∃ i j, i + j ≤ k ∧ Deepens i p ∧ Deepens j r ∧ Deepens j q
  | k, .applyTemplate p g => ∃ i j, i + j ≤ k ∧ Deepens i p ∧
    ∀ n t t', Nests n t.events → g t = .ok t' → Nests (n + j) t'.events
  | k, .contents p b => ∃ i j, i + j + 1 ≤ k ∧ Deepens i p ∧ Deepens j b
  | k, .attr p _ => Deepens k p

end Fuser.Spec
