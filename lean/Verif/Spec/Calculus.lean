import Verif.Spec.Laws
import Verif.Spec.Apart

/-!
# A calculus of calls

Rules for exchanging calls by other calls, anywhere in a chain.
-/

namespace Fuser.Spec

/-- The content has no error in it. -/
def NoErrors (c : Content) : Prop := ∀ e, .error e ∉ results c

/-- The given calls for the first element, and none for the others. -/
def firstOnly (p : Prog .elem .gen) (i : Nat) : Prog .elem .gen := if i = 0 then p else .forget .src

/-- Chains of calls that the rules make equal. -/
inductive SameCalls : {a k : Kind} → Prog a k → Prog a k → Prop
  -- Equality
  | refl {a k} {p : Prog a k} : SameCalls p p
  | symm {a k} {p q : Prog a k} : SameCalls p q → SameCalls q p
  | trans {a k} {p q r : Prog a k} : SameCalls p q → SameCalls q r → SameCalls p r
  -- Inside of calls
  | inForget {a} {p p' : Prog a .elem} : SameCalls p p' → SameCalls (.forget p) (.forget p')
  | inApply {a b c} {p p' : Prog a b} {q q' : Prog b c} : SameCalls p p' → SameCalls q q' →
      SameCalls (.apply p q) (.apply p' q')
  | inFallible {a k} {p p' : Prog a k} : SameCalls p p' → SameCalls (.fallOk p) (.fallOk p')
  | inSelect {a k k'} {p p' : Prog a k} {s direct} {b b' : Nat → Prog .elem k'} : SameCalls p p' →
      (∀ i, SameCalls (b i) (b' i)) → SameCalls (.selectRaw p s direct b) (.selectRaw p' s direct b')
  | inSelectOnce {a k k'} {p p' : Prog a k} {s direct} {b b' : Prog .elem k'} : SameCalls p p' →
      SameCalls b b' → SameCalls (.selectOnceRaw p s direct b) (.selectOnceRaw p' s direct b')
  | inRemove {a k} {p p' : Prog a k} : SameCalls p p' → SameCalls (.remove p) (.remove p')
  | inPrepend {a k} {p p' : Prog a k} {c} : SameCalls p p' →
      SameCalls (.prepend p c) (.prepend p' c)
  | inAppend {a k} {p p' : Prog a k} {c} : SameCalls p p' → SameCalls (.append p c) (.append p' c)
  | inRepeat {a k k'} {p p' : Prog a k} {n} {b b' : Nat → Prog k k'} : SameCalls p p' →
      (∀ i, SameCalls (b i) (b' i)) → SameCalls (.repeat p n b) (.repeat p' n b')
  | inOrElse {a k k₁ k₂} {p p' : Prog a k} {n} {r r' : Prog k k₁} {q q' : Prog k k₂} :
      SameCalls p p' → SameCalls r r' → SameCalls q q' →
      SameCalls (.orElse p n r q) (.orElse p' n r' q')
  | inTemplate {a k} {p p' : Prog a k} {g} : SameCalls p p' →
      SameCalls (.applyTemplate p g) (.applyTemplate p' g)
  | inContents {a k} {p p' : Prog a .elem} {b b' : Prog .gen k} : SameCalls p p' →
      SameCalls b b' → SameCalls (.contents p b) (.contents p' b')
  | inAttr {a} {p p' : Prog a .elem} {op} : SameCalls p p' → SameCalls (.attr p op) (.attr p' op)
  -- Builders
  | applySrc {a k} {p : Prog a k} : SameCalls (.apply p .src) p
  | srcApply {a k} {p : Prog a k} : SameCalls (.apply .src p) p
  | applyApply {a b c d} {p : Prog a b} {q : Prog b c} {r : Prog c d} :
      SameCalls (.apply (.apply p q) r) (.apply p (.apply q r))
  | fallible {a k} {p : Prog a k} : SameCalls (.fallOk p) p
  | applyAttr {a b} {p : Prog a b} {q : Prog b .elem} {op} :
      SameCalls (.apply p (.attr q op)) (.attr (.apply p q) op)
  | applyContents {a b k} {p : Prog a b} {q : Prog b .elem} {r : Prog .gen k} :
      SameCalls (.apply p (.contents q r)) (.contents (.apply p q) r)
  | applyPrepend {a b k} {p : Prog a b} {q : Prog b k} {c} :
      SameCalls (.apply p (.prepend q c)) (.prepend (.apply p q) c)
  | applyAppend {a b k} {p : Prog a b} {q : Prog b k} {c} :
      SameCalls (.apply p (.append q c)) (.append (.apply p q) c)
  | applyRemove {a b k} {p : Prog a b} {q : Prog b k} :
      SameCalls (.apply p (.remove q)) (.remove (.apply p q))
  | applySelect {a b k k'} {p : Prog a b} {q : Prog b k} {s direct} {r : Nat → Prog .elem k'} :
      SameCalls (.apply p (.selectRaw q s direct r)) (.selectRaw (.apply p q) s direct r)
  | applySelectOnce {a b k k'} {p : Prog a b} {q : Prog b k} {s direct} {r : Prog .elem k'} :
      SameCalls (.apply p (.selectOnceRaw q s direct r)) (.selectOnceRaw (.apply p q) s direct r)
  | applyRepeat {a b k k'} {p : Prog a b} {q : Prog b k} {n} {r : Nat → Prog k k'} :
      SameCalls (.apply p (.repeat q n r)) (.repeat (.apply p q) n r)
  | applyTemplate {a b k} {p : Prog a b} {q : Prog b k} {g} :
      SameCalls (.apply p (.applyTemplate q g)) (.applyTemplate (.apply p q) g)
  | applyForget {a b} {p : Prog a b} {q : Prog b .elem} :
      SameCalls (.apply p (.forget q)) (.forget (.apply p q))
  -- Content before and after
  | bothEnds {a k} {p : Prog a k} {c d} :
      SameCalls (.append (.prepend p c) d) (.prepend (.append p d) c)
  | removeTwice {a k} {p : Prog a k} : SameCalls (.remove (.remove p)) (.remove p)
  | removePrepend {a k} {p : Prog a k} {c} : NoErrors c →
      SameCalls (.remove (.prepend p c)) (.remove p)
  | removeAppend {a k} {p : Prog a k} {c} : NoErrors c →
      SameCalls (.remove (.append p c)) (.remove p)
  | removeAttr {a} {p : Prog a .elem} {op} : SameCalls (.remove (.attr p op)) (.remove p)
  | removeForget {a} {p : Prog a .elem} : SameCalls (.remove (.forget p)) (.remove p)
  | prependNothing {a} {p : Prog a .gen} {c} : results c = [] → SameCalls (.prepend p c) p
  | appendNothing {a} {p : Prog a .gen} {c} : results c = [] → SameCalls (.append p c) p
  -- Repetition
  | repeatNone {a k k'} {p : Prog a k} {b : Nat → Prog k k'} :
      SameCalls (.repeat p 0 b) (.remove p)
  | repeatRepeat {a k k'} {p : Prog a k} {n m} {b : Nat → Nat → Prog k k'} :
      SameCalls (.repeat p n fun i => .repeat .src m (b i))
        (.repeat p (n * m) fun j => b (j / m) (j % m))
  | elseTaken {a k k₁} {p : Prog a k} {r : Prog k k₁} {q : Prog k .gen} :
      SameCalls (.orElse p 0 r q) (.apply p q)
  | elseNotTaken {a k k₂ n} {p : Prog a k} {r : Prog k .gen} {q : Prog k k₂} :
      SameCalls (.orElse p (n + 1) r q) (.apply p r)
  -- Selections
  | selectAlone {a} {p : Prog a .gen} {s direct} : OnlyStarts s →
      SameCalls (.selectRaw p s direct fun _ => .src) p
  | selectOnceAlone {a} {p : Prog a .gen} {s direct} : OnlyStarts s →
      SameCalls (.selectOnceRaw p s direct .src) p
  | firstMatch {a k} {p : Prog a k} {s direct} {b : Prog .elem .gen} : OnlyStarts s →
      SameCalls (.selectOnceRaw p s direct b) (.selectRaw p s direct (firstOnly b))
  | selectRemoved {a k k'} {p : Prog a k} {s direct} {b : Nat → Prog .elem k'} :
      SameCalls (.selectRaw (.remove p) s direct b) (.remove p)
  | selectOnceRemoved {a k k'} {p : Prog a k} {s direct} {b : Prog .elem k'} :
      SameCalls (.selectOnceRaw (.remove p) s direct b) (.remove p)
  | selectTwice {a k k'} {p : Prog a k} {s direct} {b : Nat → Prog .elem .elem}
      {c : Nat → Prog .elem k'} : OnlyStarts s → (∀ i, StaysSelected s (b i)) →
      SameCalls (.selectRaw (.selectRaw p s direct b) s direct c)
        (.selectRaw p s direct fun i => .apply (b i) (c i))
  | selectOnceTwice {a k k'} {p : Prog a k} {s direct} {b : Prog .elem .elem} {c : Prog .elem k'} :
      OnlyStarts s → StaysSelected s b →
      SameCalls (.selectOnceRaw (.selectOnceRaw p s direct b) s direct c)
        (.selectOnceRaw p s direct (.apply b c))
  | selectSwap {a k} {p : Prog a k} {s r direct direct'} {b c : Nat → Prog .elem .elem} :
      OnlyStarts s → OnlyStarts r → (∀ i, OnlyAttributes (b i)) → (∀ i, OnlyAttributes (c i)) →
      (∀ i, Blind r (change (b i))) → (∀ i, Blind s (change (c i))) →
      (∀ i j e, s.matches e = true → r.matches e = true →
        withAttributes (change (c j)) (withAttributes (change (b i)) e) =
          withAttributes (change (b i)) (withAttributes (change (c j)) e)) →
      SameCalls (.selectRaw (.selectRaw p s direct b) r direct' c)
        (.selectRaw (.selectRaw p r direct' c) s direct b)
  | otherSelector {a k k'} {p : Prog a k} {s r direct} {b : Nat → Prog .elem k'} :
      (∀ e, s.matches e = r.matches e) →
      SameCalls (.selectRaw p s direct b) (.selectRaw p r direct b)
  | otherSelectorOnce {a k k'} {p : Prog a k} {s r direct} {b : Prog .elem k'} :
      (∀ e, s.matches e = r.matches e) →
      SameCalls (.selectOnceRaw p s direct b) (.selectOnceRaw p r direct b)
  | removals {a k} {p : Prog a k} {s r direct} : OnlyStarts s → OnlyStarts r →
      SameCalls (.selectRaw (.selectRaw p s direct fun _ => (.remove .src : Prog .elem .gen)) r direct
          fun _ => (.remove .src : Prog .elem .gen))
        (.selectRaw p (anyOf s r) direct fun _ => (.remove .src : Prog .elem .gen))
  | selectCopies {a k k' k''} {p : Prog a k} {n s direct} {b : Nat → Prog k k'}
      {c : Prog .elem k''} :
      SameCalls (.selectRaw (.repeat p n b) s direct fun _ => c)
        (.repeat p n fun i => .selectRaw (b i) s direct fun _ => c)
  -- Inside of elements
  | contentsTwice {a k} {p : Prog a .elem} {b : Prog .gen .gen} {c : Prog .gen k} :
      SameCalls (.contents (.contents p b) c) (.contents p (.apply b c))
  | contentsAttr {a k} {p : Prog a .elem} {b : Prog .gen k} {op} :
      SameCalls (.attr (.contents p b) op) (.contents (.attr p op) b)
  -- Attributes
  | setOver {a} {p : Prog a .elem} {op n v} : ValidCall op → ValidIdent n.str →
      SameName n.str (aboutName op) →
      SameCalls (.attr (.attr p op) (.setAttribute n v)) (.attr p (.setAttribute n v))
  | removeOver {a} {p : Prog a .elem} {op n} : ValidCall op → ValidIdent n.str →
      SameName n.str (aboutName op) →
      SameCalls (.attr (.attr p op) (.removeAttribute n)) (.attr p (.removeAttribute n))
  | replaceSet {a} {p : Prog a .elem} {n m v w} : ValidIdent n.str → ValidIdent m.str →
      SameName n.str m.str →
      SameCalls (.attr (.attr p (.setAttribute m w)) (.replaceAttribute n v))
        (.attr p (.setAttribute n v))
  | replaceRemoved {a} {p : Prog a .elem} {n m v} : ValidIdent n.str → ValidIdent m.str →
      SameName n.str m.str →
      SameCalls (.attr (.attr p (.removeAttribute m)) (.replaceAttribute n v))
        (.attr p (.removeAttribute m))
  | addRemoved {a} {p : Prog a .elem} {n m v} : ValidIdent n.str → ValidIdent m.str →
      SameName n.str m.str →
      SameCalls (.attr (.attr p (.removeAttribute m)) (.addAttribute n v))
        (.attr p (.setAttribute n v))
  | addToRemoved {a} {p : Prog a .elem} {n m v sep} : ValidIdent n.str → ValidIdent m.str →
      SameName n.str m.str →
      SameCalls (.attr (.attr p (.removeAttribute m)) (.addToAttribute n v sep))
        (.attr p (.setAttribute n (some v)))
  | removeClassTwice {a} {p : Prog a .elem} {c d} : ValidIdent c.str → ValidIdent d.str →
      SameName c.str d.str →
      SameCalls (.attr (.attr p (.removeClass c)) (.removeClass d)) (.attr p (.removeClass c))
  | removeOther {a} {p : Prog a .elem} {op n} : ValidCall op → ValidIdent n.str →
      ¬ SameName n.str (aboutName op) →
      SameCalls (.attr (.attr p op) (.removeAttribute n)) (.attr (.attr p (.removeAttribute n)) op)
  -- Errors
  | applyError {a b k} {p : Prog a b} {e} :
      SameCalls (.apply p (.fallErr e : Prog b k)) (.fallErr e)
  | attrError {a e op} : SameCalls (.attr (.fallErr e : Prog a .elem) op) (.fallErr e)
  | contentsError {a k e} {b : Prog .gen k} :
      SameCalls (.contents (.fallErr e : Prog a .elem) b) (.fallErr e)
  | appendError {a k e c} : SameCalls (.append (.fallErr e : Prog a k) c) (.fallErr e)
  | removeError {a k e} : SameCalls (.remove (.fallErr e : Prog a k)) (.fallErr e)
  | selectError {a k k' e s direct} {b : Nat → Prog .elem k'} :
      SameCalls (.selectRaw (.fallErr e : Prog a k) s direct b) (.fallErr e)
  | selectOnceError {a k k' e s direct} {b : Prog .elem k'} :
      SameCalls (.selectOnceRaw (.fallErr e : Prog a k) s direct b) (.fallErr e)
  | repeatError {a k k' e n} {b : Nat → Prog k k'} :
      SameCalls (.repeat (.fallErr e : Prog a k) n b) (.fallErr e)
  | templateError {a k e g} : SameCalls (.applyTemplate (.fallErr e : Prog a k) g) (.fallErr e)

end Fuser.Spec
