import Verif.Spec.Laws
import Verif.Spec.Show

/-!
# Specification of how much larger calls may make a page
-/

namespace Fuser.Spec

/-- The length of a text in bytes. -/
def bytes (s : List Char) : Nat := (s.map Char.utf8Size).sum

/-- The size of a list of events, if `w` is the size of each event. -/
def weight (w : Event → Nat) (es : List Event) : Nat := (es.map w).sum

/-- Conditions on a measure of events: starts of elements count, and taking a self-closed element
apart into two tags at most doubles it. -/
def Fair (w : Event → Nat) : Prop :=
  (∀ e, isStart e = true → 1 ≤ w e) ∧
  ∀ t as, w (.openingTag t as) + w (.closingTag t) ≤ 2 * w (.selfClosedTag t as)

/-- The calls turn a page of size `s` into one of size `m * s + c` at most: contents and attributes
add what they are, repetitions multiply, and what a builder adds is added for each match. -/
def Grows (w : Event → Nat) {a k : Kind} : Nat → Nat → Prog a k → Prop
  | m, _, .src => 1 ≤ m
  | m, c, .forget p => Grows w m c p
  | m, c, .apply p q => ∃ m₁ c₁ m₂ c₂, m₂ * m₁ ≤ m ∧ m₂ * c₁ + c₂ ≤ c ∧
    Grows w m₁ c₁ p ∧ Grows w m₂ c₂ q
  | m, c, .fallOk p => Grows w m c p
  | _, _, .fallErr _ => True
  | m, c, .selectRaw p _ _ b => ∃ m₁ c₁ m₂ c₂ n, 1 ≤ n ∧ m₂ + c₂ ≤ n ∧ n * m₁ ≤ m ∧ n * c₁ ≤ c ∧
    Grows w m₁ c₁ p ∧ ∀ i, Grows w m₂ c₂ (b i)
  | m, c, .selectOnceRaw p _ _ b => ∃ m₁ c₁ m₂ c₂, 1 ≤ m₂ ∧ m₂ * m₁ ≤ m ∧ m₂ * c₁ + c₂ ≤ c ∧
    Grows w m₁ c₁ p ∧ Grows w m₂ c₂ b
  | _, _, .remove _ => True
  | m, c, .prepend p x => ∃ c₁ c₂, c₁ + c₂ ≤ c ∧ Grows w m c₁ p ∧
    ∀ es, outcome (results x) = .ok es → weight w es ≤ c₂
  | m, c, .append p x => ∃ c₁ c₂, c₁ + c₂ ≤ c ∧ Grows w m c₁ p ∧
    ∀ es, outcome (results x) = .ok es → weight w es ≤ c₂
  | m, c, .repeat p n b => ∃ m₁ c₁ m₂ c₂, n * (m₂ * m₁) ≤ m ∧ n * (m₂ * c₁ + c₂) ≤ c ∧
    Grows w m₁ c₁ p ∧ ∀ i, Grows w m₂ c₂ (b i)
  | m, c, .orElse p _ r q => ∃ m₁ c₁ m₂ c₂, m₂ * m₁ ≤ m ∧ m₂ * c₁ + c₂ ≤ c ∧
    Grows w m₁ c₁ p ∧ Grows w m₂ c₂ r ∧ Grows w m₂ c₂ q
  | m, c, .applyTemplate p g => ∃ m₁ c₁ m₂ c₂, m₂ * m₁ ≤ m ∧ m₂ * c₁ + c₂ ≤ c ∧
    Grows w m₁ c₁ p ∧ ∀ t t', g t = .ok t' → weight w t'.events ≤ m₂ * weight w t.events + c₂
  | m, c, .contents p b => ∃ m₁ c₁ m₂ c₂, 2 ≤ m₂ ∧ m₂ * m₁ ≤ m ∧ m₂ * c₁ + c₂ ≤ c ∧
    Grows w m₁ c₁ p ∧ Grows w m₂ c₂ b
  | m, c, .attr p op => ∃ c₁ c₂, c₁ + c₂ ≤ c ∧ Grows w m c₁ p ∧
    ∀ e, isStart e = true → w (withAttributes op.apply e) ≤ w e + c₂

/-- What a change of attributes may add to the text of a tag. -/
def attributeCost : AttrOp → Nat
  | .removeClass _ => 0
  | .removeAttribute _ => 0
  | .addAttribute n v => bytes (attributeText ⟨n, v⟩)
  | .replaceAttribute n v => bytes (attributeText ⟨n, v⟩)
  | .addToAttribute n v sep => bytes (attributeText ⟨n, some v⟩) + bytes sep.str
  | .setAttribute n v => bytes (attributeText ⟨n, v⟩)

end Fuser.Spec
