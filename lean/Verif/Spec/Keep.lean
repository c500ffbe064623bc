import Verif.Spec.Rewrite
import Verif.Spec.Normal

/-!
# Specification of what calls put into a page
-/

namespace Fuser.Spec

/-- Every content in the calls has property `C`, every attribute change `A`, and every function on
templates `G`. -/
def Each (C : Content → Prop) (A : AttrOp → Prop)
    (G : (Template → Except StreamError Template) → Prop) {a k : Kind} : Prog a k → Prop
  | .src => True
  | .forget p => Each C A G p
  | .apply p q => Each C A G p ∧ Each C A G q
  | .fallOk p => Each C A G p
  | .fallErr _ => True
  | .selectRaw p _ _ b => Each C A G p ∧ ∀ i, Each C A G (b i)
  | .selectOnceRaw p _ _ b => Each C A G p ∧ Each C A G b
  | .remove p => Each C A G p
  | .prepend p c => Each C A G p ∧ C c
  | .append p c => Each C A G p ∧ C c
  | .repeat p _ b => Each C A G p ∧ ∀ i, Each C A G (b i)
  | .orElse p _ r q => Each C A G p ∧ Each C A G r ∧ Each C A G q
  | .applyTemplate p g => Each C A G p ∧ G g
  | .contents p b => Each C A G p ∧ Each C A G b
  | .attr p op => Each C A G p ∧ A op

/-- The calls only put events with property `P` into a page of events with property `P`: the
contents have such events, and attribute changes and functions on templates keep the property. -/
def Keeps (P : Event → Prop) {a k : Kind} (p : Prog a k) : Prop :=
  Each (fun c => ∀ e, .ok e ∈ results c → P e)
    (fun op => ∀ t as, (P (.openingTag t as) → P (.openingTag t (op.apply as))) ∧
      (P (.selfClosedTag t as) → P (.selfClosedTag t (op.apply as))) ∧
      (P (.voidTag t as) → P (.voidTag t (op.apply as))))
    (fun g => ∀ t t', (∀ e ∈ t.events, P e) → g t = .ok t' → ∀ e ∈ t'.events, P e) p

/-- Events of ordinary pages without raw text elements. -/
def Plain : Event → Prop
  | .data c => '<' ∉ c.str
  | .openingTag t as => Spelled (.openingTag t as) ∧ ¬ RawName t.str ∧ t.str.head? ≠ some '!'
  | .selfClosedTag t as =>
    Spelled (.selfClosedTag t as) ∧ ¬ RawName t.str ∧ t.str.head? ≠ some '!'
  | .voidTag t as => Spelled (.voidTag t as) ∧ t.str.head? ≠ some '!'
  | e => Spelled e

/-- An attribute change with a proper name, and values without quotes. -/
def PlainChange : AttrOp → Prop
  | .removeClass _ => True
  | .removeAttribute _ => True
  | .addAttribute n v => Name n.str ∧ ∀ x, v = some x → '"' ∉ x.str
  | .replaceAttribute n v => Name n.str ∧ ∀ x, v = some x → '"' ∉ x.str
  | .addToAttribute n v s => Name n.str ∧ '"' ∉ v.str ∧ '"' ∉ s.str
  | .setAttribute n v => Name n.str ∧ ∀ x, v = some x → '"' ∉ x.str

/-- The calls only put ordinary things into a page. -/
def PlainCalls {a k : Kind} (p : Prog a k) : Prop :=
  Each (fun c => ∀ e, .ok e ∈ results c → Plain e) PlainChange
    (fun g => ∀ t t', (∀ e ∈ t.events, Plain e) → g t = .ok t' → ∀ e ∈ t'.events, Plain e) p

/-- Every `<` in the text is followed, in the text, by something that cannot be part of a closing
tag: a character other than `/` and white space, perhaps after white space. -/
def Guarded (s : List Char) : Prop :=
  ∀ x y, s = x ++ '<' :: y → ∃ w c z, y = w ++ c :: z ∧ Blank w ∧ ¬ Space c ∧ c ≠ '/'

/-- The calls only put texts without `<`, and ordinary attributes into a page. -/
def TextCalls {a k : Kind} (p : Prog a k) : Prop :=
  Each (fun c => ∀ e, .ok e ∈ results c → ∃ d, e = .data d ∧ '<' ∉ d.str) PlainChange
    (fun _ => False) p

end Fuser.Spec
