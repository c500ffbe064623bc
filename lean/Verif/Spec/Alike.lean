import Verif.Spec.Keep
import Verif.Spec.Laws

/-!
# Specification of pages that differ in ways a transform does not see
-/

namespace Fuser.Spec

/-- Which names and which texts are alike, and which values of attributes of a given name. -/
structure Likeness where
  name : Identifier → Identifier → Prop
  text : Deferred → Deferred → Prop
  value : Identifier → Value → Value → Prop

/-- The likenesses a transform respects: names alike are the same up to ASCII case, values of ids
and classes that are alike have the same characters, every text and every value is like itself,
joining values keeps likeness, and the case of the name of an attribute does not matter. -/
structure Likeness.Proper (L : Likeness) : Prop where
  name : ∀ {i j}, L.name i j → SameName i.str j.str
  seen : ∀ {n v w}, SameName n.str "id".toList ∨ SameName n.str "class".toList → L.value n v w →
    v.str = w.str
  text : ∀ a, L.text a a
  refl : ∀ n v, L.value n v v
  join : ∀ {n v w x y}, L.value n v w → L.value n x y →
    L.value n (EncodedText.join v x) (EncodedText.join w y)
  anyCase : ∀ {n m v w}, SameName n.str m.str → L.value n v w → L.value m v w

/-- Names up to ASCII case, texts with the way they are stored: what the comparison of templates
sees. -/
def Likeness.case : Likeness :=
  ⟨fun i j => SameName i.str j.str, (· = ·), fun _ => (· = ·)⟩

/-- The characters of names and texts, not the way they are stored: what rendering sees. -/
def Likeness.stored : Likeness :=
  ⟨fun i j => i.str = j.str, fun a b => a.str = b.str, fun _ v w => v.str = w.str⟩

/-- The names, and the values of ids and classes: what the selectors of the crate see. Contents and
all other values are hidden. -/
def Likeness.outline : Likeness :=
  ⟨(· = ·), fun _ _ => True, fun n v w =>
    SameName n.str "id".toList ∨ SameName n.str "class".toList → v = w⟩

/-- Values of attributes of the given name alike. -/
inductive LikeValue (L : Likeness) (n : Identifier) : Option Value → Option Value → Prop
  | none : LikeValue L n none none
  | some {v w} : L.value n v w → LikeValue L n (some v) (some w)

/-- Attributes alike. -/
def LikeAttribute (L : Likeness) (a b : Attribute) : Prop :=
  L.name a.name b.name ∧ LikeValue L a.name a.value b.value

/-- Events alike. -/
inductive LikeEvent (L : Likeness) : Event → Event → Prop
  | noop : LikeEvent L .noop .noop
  | doctype {a b} : L.text a b → LikeEvent L (.doctype a) (.doctype b)
  | comment {a b} : L.text a b → LikeEvent L (.comment a) (.comment b)
  | data {a b} : L.text a b → LikeEvent L (.data a) (.data b)
  | rawData {a b} : L.text a b → LikeEvent L (.rawData a) (.rawData b)
  | opening {t u as bs} : L.name t u → List.Forall₂ (LikeAttribute L) as bs →
      LikeEvent L (.openingTag t as) (.openingTag u bs)
  | closing {t u} : L.name t u → LikeEvent L (.closingTag t) (.closingTag u)
  | selfClosed {t u as bs} : L.name t u → List.Forall₂ (LikeAttribute L) as bs →
      LikeEvent L (.selfClosedTag t as) (.selfClosedTag u bs)
  | void {t u as bs} : L.name t u → List.Forall₂ (LikeAttribute L) as bs →
      LikeEvent L (.voidTag t as) (.voidTag u bs)

/-- Templates alike. -/
def LikeTemplate (L : Likeness) (t u : Template) : Prop :=
  List.Forall₂ (LikeEvent L) t.events u.events

/-- Events found at a place alike, or nothing found at both. -/
inductive LikeFound (L : Likeness) : Option Event → Option Event → Prop
  | none : LikeFound L none none
  | some {e f} : LikeEvent L e f → LikeFound L (some e) (some f)

/-- Errors alike: the same, or the same defect of a stream with names and events alike. -/
inductive LikeError (L : Likeness) : StreamError → StreamError → Prop
  | same {e} : LikeError L e e
  | unexpectedClosing {t u} : L.name t u →
      LikeError L (.assertion (.unexpectedClosingTag t)) (.assertion (.unexpectedClosingTag u))
  | expectedOpening {e f} : LikeFound L e f →
      LikeError L (.assertion (.expectedOpeningTag e)) (.assertion (.expectedOpeningTag f))
  | expectedClosing {e f t u} : LikeFound L e f → L.name t u →
      LikeError L (.assertion (.expectedClosingTag e t)) (.assertion (.expectedClosingTag f u))

/-- Results of pulling a stream alike. -/
inductive LikeResult (L : Likeness) : Except StreamError Event → Except StreamError Event → Prop
  | ok {e f} : LikeEvent L e f → LikeResult L (.ok e) (.ok f)
  | error {e f} : LikeError L e f → LikeResult L (.error e) (.error f)

/-- Results of transforms alike. -/
inductive LikeOutcome (L : Likeness) :
    Except StreamError Template → Except StreamError Template → Prop
  | ok {t u} : LikeTemplate L t u → LikeOutcome L (.ok t) (.ok u)
  | error {e f} : LikeError L e f → LikeOutcome L (.error e) (.error f)

/-- Attribute changes alike. -/
inductive LikeChange (L : Likeness) : AttrOp → AttrOp → Prop
  | removeClass {n m} : L.name n m → LikeChange L (.removeClass n) (.removeClass m)
  | removeAttribute {n m} : L.name n m → LikeChange L (.removeAttribute n) (.removeAttribute m)
  | addAttribute {n m v w} : L.name n m → LikeValue L n v w →
      LikeChange L (.addAttribute n v) (.addAttribute m w)
  | replaceAttribute {n m v w} : L.name n m → LikeValue L n v w →
      LikeChange L (.replaceAttribute n v) (.replaceAttribute m w)
  | addToAttribute {n m v w x y} : L.name n m → L.value n v w → L.value n x y →
      LikeChange L (.addToAttribute n v x) (.addToAttribute m w y)
  | setAttribute {n m v w} : L.name n m → LikeValue L n v w →
      LikeChange L (.setAttribute n v) (.setAttribute m w)

/-- Selectors alike: they agree on events alike. -/
def LikeSelector (L : Likeness) (s s' : Selector) : Prop :=
  ∀ e f, LikeEvent L e f → s.matches e = s'.matches f

/-- Calls alike: the same calls, with contents, attribute changes, selectors, errors and functions
on templates alike. Placeholders in contents do not count. -/
inductive LikeCalls (L : Likeness) : {a k : Kind} → Prog a k → Prog a k → Prop
  | src {a} : LikeCalls L (.src (a := a)) .src
  | forget {a p q} : LikeCalls L p q → LikeCalls L (.forget (a := a) p) (.forget q)
  | apply {a b c p q} {r s : Prog b c} : LikeCalls L (a := a) p q → LikeCalls L r s →
      LikeCalls L (.apply p r) (.apply q s)
  | fallOk {a k p q} : LikeCalls L (a := a) (k := k) p q → LikeCalls L (.fallOk p) (.fallOk q)
  | fallErr {a k e f} : LikeError L e f → LikeCalls L (.fallErr (a := a) (k := k) e) (.fallErr f)
  | select {a k k' p q s s' d} {b c : Nat → Prog .elem k'} : LikeCalls L (a := a) (k := k) p q →
      LikeSelector L s s' → (∀ i, LikeCalls L (b i) (c i)) →
      LikeCalls L (.selectRaw p s d b) (.selectRaw q s' d c)
  | selectOnce {a k k' p q s s' d} {b c : Prog .elem k'} : LikeCalls L (a := a) (k := k) p q →
      LikeSelector L s s' → LikeCalls L b c →
      LikeCalls L (.selectOnceRaw p s d b) (.selectOnceRaw q s' d c)
  | remove {a k p q} : LikeCalls L (a := a) (k := k) p q → LikeCalls L (.remove p) (.remove q)
  | prepend {a k p q c d} : LikeCalls L (a := a) (k := k) p q →
      List.Forall₂ (LikeResult L) (visible (results c)) (visible (results d)) →
      LikeCalls L (.prepend p c) (.prepend q d)
  | append {a k p q c d} : LikeCalls L (a := a) (k := k) p q →
      List.Forall₂ (LikeResult L) (visible (results c)) (visible (results d)) →
      LikeCalls L (.append p c) (.append q d)
  | «repeat» {a k k' p q n} {b c : Nat → Prog k k'} : LikeCalls L (a := a) p q →
      (∀ i, LikeCalls L (b i) (c i)) → LikeCalls L (.repeat p n b) (.repeat q n c)
  | orElse {a k k₁ k₂ p q n} {r s : Prog k k₁} {u v : Prog k k₂} : LikeCalls L (a := a) p q →
      LikeCalls L r s → LikeCalls L u v → LikeCalls L (.orElse p n r u) (.orElse q n s v)
  | applyTemplate {a k p q g h} : LikeCalls L (a := a) (k := k) p q →
      (∀ t u, LikeTemplate L t u → LikeOutcome L (g t) (h u)) →
      LikeCalls L (.applyTemplate p g) (.applyTemplate q h)
  | contents {a k p q} {b c : Prog .gen k} : LikeCalls L (a := a) p q → LikeCalls L b c →
      LikeCalls L (.contents p b) (.contents q c)
  | attr {a p q o o'} : LikeCalls L (a := a) p q → LikeChange L o o' →
      LikeCalls L (.attr p o) (.attr q o')

/-- The calls do not look at more than a likeness lets them see: the selectors agree on events
alike, and functions on templates give results alike on templates alike. -/
def Steady (L : Likeness) {a k : Kind} : Prog a k → Prop
  | .src => True
  | .forget p => Steady L p
  | .apply p q => Steady L p ∧ Steady L q
  | .fallOk p => Steady L p
  | .fallErr _ => True
  | .selectRaw p s _ b => Steady L p ∧ LikeSelector L s s ∧ ∀ i, Steady L (b i)
  | .selectOnceRaw p s _ b => Steady L p ∧ LikeSelector L s s ∧ Steady L b
  | .remove p => Steady L p
  | .prepend p _ => Steady L p
  | .append p _ => Steady L p
  | .repeat p _ b => Steady L p ∧ ∀ i, Steady L (b i)
  | .orElse p _ r q => Steady L p ∧ Steady L r ∧ Steady L q
  | .applyTemplate p g => Steady L p ∧ ∀ t u, LikeTemplate L t u → LikeOutcome L (g t) (g u)
  | .contents p b => Steady L p ∧ Steady L b
  | .attr p _ => Steady L p

/-- The names in an event are ASCII, as all names the crate accepts. -/
def AsciiEvent : Event → Prop
  | .openingTag t as => Ascii t.str ∧ ∀ a ∈ as, Ascii a.name.str
  | .closingTag t => Ascii t.str
  | .selfClosedTag t as => Ascii t.str ∧ ∀ a ∈ as, Ascii a.name.str
  | .voidTag t as => Ascii t.str ∧ ∀ a ∈ as, Ascii a.name.str
  | _ => True

/-- The names in an attribute change are ASCII. -/
def AsciiChange : AttrOp → Prop
  | .removeClass _ => True
  | .removeAttribute _ => True
  | .addAttribute n _ => Ascii n.str
  | .replaceAttribute n _ => Ascii n.str
  | .addToAttribute n _ _ => Ascii n.str
  | .setAttribute n _ => Ascii n.str

/-- The calls only bring ASCII names. -/
def AsciiCalls {a k : Kind} (p : Prog a k) : Prop :=
  Each (fun c => ∀ e, .ok e ∈ results c → AsciiEvent e) AsciiChange
    (fun g => ∀ t t', (∀ e ∈ t.events, AsciiEvent e) → g t = .ok t' →
      ∀ e ∈ t'.events, AsciiEvent e) p

end Fuser.Spec
