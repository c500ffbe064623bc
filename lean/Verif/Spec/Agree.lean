import Verif.Spec.Keep
import Verif.Spec.Select

/-!
# Specification of selectors that agree
-/

namespace Fuser.Spec

/-- The same calls, where the selectors may be others that match the same of the events with
property `A`. -/
inductive OtherSelectors (A : Event → Prop) : {a k : Kind} → Prog a k → Prog a k → Prop
  | src {a} : OtherSelectors A (.src : Prog a a) .src
  | forget {a} {p q : Prog a .elem} : OtherSelectors A p q →
      OtherSelectors A (.forget p) (.forget q)
  | apply {a b c} {p q : Prog a b} {p' q' : Prog b c} : OtherSelectors A p q →
      OtherSelectors A p' q' → OtherSelectors A (.apply p p') (.apply q q')
  | fallOk {a k} {p q : Prog a k} : OtherSelectors A p q →
      OtherSelectors A (.fallOk p) (.fallOk q)
  | fallErr {a k e} : OtherSelectors A (.fallErr e : Prog a k) (.fallErr e)
  | select {a k k'} {p q : Prog a k} {s r : Selector} {d : Bool} {b c : Nat → Prog .elem k'} :
      OtherSelectors A p q → (∀ e, A e → s.matches e = r.matches e) →
      (∀ i, OtherSelectors A (b i) (c i)) →
      OtherSelectors A (.selectRaw p s d b) (.selectRaw q r d c)
  | selectOnce {a k k'} {p q : Prog a k} {s r : Selector} {d : Bool} {b c : Prog .elem k'} :
      OtherSelectors A p q → (∀ e, A e → s.matches e = r.matches e) → OtherSelectors A b c →
      OtherSelectors A (.selectOnceRaw p s d b) (.selectOnceRaw q r d c)
  | remove {a k} {p q : Prog a k} : OtherSelectors A p q →
      OtherSelectors A (.remove p) (.remove q)
  | prepend {a k} {p q : Prog a k} {c} : OtherSelectors A p q →
      OtherSelectors A (.prepend p c) (.prepend q c)
  | append {a k} {p q : Prog a k} {c} : OtherSelectors A p q →
      OtherSelectors A (.append p c) (.append q c)
  | «repeat» {a k k'} {p q : Prog a k} {n} {b c : Nat → Prog k k'} : OtherSelectors A p q →
      (∀ i, OtherSelectors A (b i) (c i)) → OtherSelectors A (.repeat p n b) (.repeat q n c)
  | orElse {a k k₁ k₂} {p q : Prog a k} {n} {b c : Prog k k₁} {b' c' : Prog k k₂} :
      OtherSelectors A p q → OtherSelectors A b c → OtherSelectors A b' c' →
      OtherSelectors A (.orElse p n b b') (.orElse q n c c')
  | template {a k} {p q : Prog a k} {g} : OtherSelectors A p q →
      OtherSelectors A (.applyTemplate p g) (.applyTemplate q g)
  | contents {a k} {p q : Prog a .elem} {b c : Prog .gen k} : OtherSelectors A p q →
      OtherSelectors A b c → OtherSelectors A (.contents p b) (.contents q c)
  | attr {a} {p q : Prog a .elem} {op} : OtherSelectors A p q →
      OtherSelectors A (.attr p op) (.attr q op)

/-- A property of events that does not tell closing tags apart, and that an element does not lose when
it is opened to get contents. -/
def Lasting (A : Event → Prop) : Prop :=
  (∀ c, A (.closingTag c)) ∧ ∀ t as, A (.selfClosedTag t as) → A (.openingTag t as)

/-- Selector texts that differ only in the case of letters, and in the order and repetition of
classes. -/
def SelParts.Respelled (p q : SelParts) : Prop :=
  Option.Rel SameName p.tag q.tag ∧ Option.Rel SameName p.id q.id ∧
    (∀ c ∈ p.classes, ∃ d ∈ q.classes, SameName c d) ∧
    ∀ d ∈ q.classes, ∃ c ∈ p.classes, SameName c d

end Fuser.Spec
