import Verif.Props.Calls

/-!
# Setup for running the crate's own tests on the model

The samples in `Verif.Tests` are tests of the model, not proofs of properties: they check that the
model gives the results that the unit tests and the examples in the documentation of the crate
expect. The result of the model is computed through theorem C37.
-/

namespace Fuser.Tests

open Spec

/-- The stream a builder is given. -/
abbrev html {a : Kind} : Prog a a := .src

/-- `IntoSelector` for strings. -/
def sel (s : String) : Except StreamError Selector :=
  match Selector.ofStatic s.toList with
  | .ok (.ok s) => .ok s
  | .ok (.error e) => .error (.staticSelector e)
  | .error _ => .error (.staticSelector .unrestricted)

/-- `IntoIdentifier` for strings. -/
def name (s : String) : Except IdentifierError Identifier := Identifier.fromStaticStr s.toList

/-- `IntoStream` for strings. -/
def str (s : String) : Content :=
  match fromUnencodedStaticStr s.toList with
  | .ok d => .data d
  | .error _ => .data (.static [])

/-- `IntoValue` for strings. -/
def val (s : String) : Value :=
  match fromUnencodedStaticStr s.toList with
  | .ok d => d
  | .error _ => .static []

/-- `IntoStream` for integers. -/
def num (n : Int) : Content := .data (Value.ofInt n)

/-- `Template::from_str(..).unwrap()`. -/
def parsed (s : String) : Template :=
  match Template.fromStr s.toList {} with
  | .ok (.ok t) => t
  | _ => ⟨[]⟩

/-- `IntoStream` for parsed templates. -/
def tpl (s : String) : Content := .template (parsed s)

instance : Coe String (Except StreamError Selector) := ⟨sel⟩
instance : Coe String (Except IdentifierError Identifier) := ⟨name⟩
instance : Coe String Content := ⟨str⟩
instance : Coe String Value := ⟨val⟩

/-- The result of a transform of a parsed text, rendered. -/
def result {k : Kind} (s : String) (p : Prog .gen k) : Option (Except StreamError Str) :=
  match Template.fromStr s.toList {} with
  | .ok (.ok t) => (t.transform p).map (Except.map Template.render)
  | _ => none

/-- The same by the meaning of the calls. -/
def meant {k : Kind} (s : String) (p : Prog .gen k) : Option (Except StreamError Str) :=
  match Template.fromStr s.toList {} with
  | .ok (.ok t) =>
    some (((meaning p (treeOf t.events)).events.map Template.mk).map Template.render)
  | _ => none

theorem sample {k : Kind} {s : String} {p : Prog .gen k} {r : Option (Except StreamError Str)}
    (hp : WellNested p) (h : meant s p = r) : result s p = r := by
  rw [← h, result, meant]
  split
  next t ht => rw [C37_transform_parsed _ _ _ _ ht hp]; rfl
  next => rfl

section Nested

variable {a k k' k₁ k₂ : Kind}

theorem src_nested : WellNested (.src : Prog a a) := trivial

theorem data_page (d : Data) : PageContent (.data d) :=
  ⟨.leaf trivial .done, by intro e t h; simp [results] at h; subst h; simp [startName]⟩

theorem str_page (s : String) : PageContent (str s) := by
  unfold str
  split <;> exact data_page _

theorem num_page (n : Int) : PageContent (num n) := data_page _

theorem template_page {t : Template} (h : Page t.events) : PageContent (.template t) :=
  page_nested h

theorem tpl_page (s : String) : PageContent (tpl s) := by
  unfold tpl parsed
  split
  next t ht => exact template_page (parsed_page ht)
  next => exact template_page ⟨⟨0, .nil⟩, by simp [AsciiNames], by simp⟩

theorem fallible_nested {r : Except StreamError (Prog a k)} (h : ∀ p, r = .ok p → WellNested p) :
    WellNested (Prog.fallible r) := by
  cases r with
  | ok p => exact h p rfl
  | error e => trivial

theorem map_nested {α : Type} {r : Except StreamError α} {f : α → Prog a k}
    (h : ∀ x, WellNested (f x)) : WellNested (Prog.fallible (r.map f)) := by
  cases r with
  | ok x => exact h x
  | error e => trivial

theorem select_nested {p : Prog a k} (s) {b : Nat → Prog .elem k'} (hp : WellNested p)
    (hb : ∀ i, WellNested (b i)) : WellNested (p.select s b) := map_nested fun _ => ⟨hp, hb⟩

theorem selectDirect_nested {p : Prog a k} (s) {b : Nat → Prog .elem k'} (hp : WellNested p)
    (hb : ∀ i, WellNested (b i)) : WellNested (p.selectDirect s b) := map_nested fun _ => ⟨hp, hb⟩

theorem selectOnce_nested {p : Prog a k} (s) {b : Prog .elem k'} (hp : WellNested p)
    (hb : WellNested b) : WellNested (p.selectOnce s b) := map_nested fun _ => ⟨hp, hb⟩

theorem selectDirectOnce_nested {p : Prog a k} (s) {b : Prog .elem k'} (hp : WellNested p)
    (hb : WellNested b) : WellNested (p.selectDirectOnce s b) := map_nested fun _ => ⟨hp, hb⟩

theorem subselect_nested {p : Prog a .elem} (s) {b : Nat → Prog .elem k'} (hp : WellNested p)
    (hb : ∀ i, WellNested (b i)) : WellNested (p.subselect s b) :=
  map_nested fun _ => ⟨hp, trivial, hb⟩

theorem subselectDirect_nested {p : Prog a .elem} (s) {b : Nat → Prog .elem k'} (hp : WellNested p)
    (hb : ∀ i, WellNested (b i)) : WellNested (p.subselectDirect s b) :=
  map_nested fun _ => ⟨hp, trivial, hb⟩

theorem subselectOnce_nested {p : Prog a .elem} (s) {b : Prog .elem k'} (hp : WellNested p)
    (hb : WellNested b) : WellNested (p.subselectOnce s b) :=
  map_nested fun _ => ⟨hp, trivial, hb⟩

theorem subselectDirectOnce_nested {p : Prog a .elem} (s) {b : Prog .elem k'} (hp : WellNested p)
    (hb : WellNested b) : WellNested (p.subselectDirectOnce s b) :=
  map_nested fun _ => ⟨hp, trivial, hb⟩

theorem apply_nested {p : Prog a k} {q : Prog k k'} (hp : WellNested p) (hq : WellNested q) :
    WellNested (p.apply q) := ⟨hp, hq⟩

theorem forget_nested {p : Prog a .elem} (hp : WellNested p) : WellNested p.forget := hp

theorem remove_nested {p : Prog a k} (hp : WellNested p) : WellNested p.remove := hp

theorem prepend_nested {p : Prog a k} {c} (hp : WellNested p) (hc : PageContent c) :
    WellNested (p.prepend c) := ⟨hp, hc⟩

theorem append_nested {p : Prog a k} {c} (hp : WellNested p) (hc : PageContent c) :
    WellNested (p.append c) := ⟨hp, hc⟩

theorem replace_nested {p : Prog a k} {c} (hp : WellNested p) (hc : PageContent c) :
    WellNested (p.replace c) := ⟨hp, hc⟩

theorem repeat_nested {p : Prog a k} (n) {b : Nat → Prog k k'} (hp : WellNested p)
    (hb : ∀ i, WellNested (b i)) : WellNested (p.repeat n b) := ⟨hp, hb⟩

theorem repeatOrElse_nested {p : Prog a k} (n) {b : Nat → Prog k k₁} {q : Prog k k₂}
    (hp : WellNested p) (hb : ∀ i, WellNested (b i)) (hq : WellNested q) :
    WellNested (p.repeatOrElse n b q) := ⟨hp, ⟨trivial, hb⟩, hq⟩

theorem repeatContents_nested {p : Prog a .elem} (n) {b : Nat → Prog .gen k'} (hp : WellNested p)
    (hb : ∀ i, WellNested (b i)) : WellNested (p.repeatContents n b) := ⟨hp, trivial, hb⟩

theorem repeatContentsOrElse_nested {p : Prog a .elem} (n) {b : Nat → Prog .gen k'}
    {q : Prog .elem k₂} (hp : WellNested p) (hb : ∀ i, WellNested (b i)) (hq : WellNested q) :
    WellNested (p.repeatContentsOrElse n b q) := ⟨hp, ⟨trivial, trivial, hb⟩, hq⟩

theorem contents_nested {p : Prog a .elem} {b : Prog .gen k'} (hp : WellNested p)
    (hb : WellNested b) : WellNested (p.contents b) := ⟨hp, hb⟩

theorem removeContents_nested {p : Prog a .elem} (hp : WellNested p) :
    WellNested p.removeContents := ⟨hp, trivial⟩

theorem prependContents_nested {p : Prog a .elem} {c} (hp : WellNested p) (hc : PageContent c) :
    WellNested (p.prependContents c) := ⟨hp, trivial, hc⟩

theorem appendContents_nested {p : Prog a .elem} {c} (hp : WellNested p) (hc : PageContent c) :
    WellNested (p.appendContents c) := ⟨hp, trivial, hc⟩

theorem replaceContents_nested {p : Prog a .elem} {c} (hp : WellNested p) (hc : PageContent c) :
    WellNested (p.replaceContents c) := ⟨hp, trivial, hc⟩

theorem applyIfElse_nested {p : Prog a k} {c : Bool} {q r : Prog k k'} (hp : WellNested p)
    (hq : WellNested q) (hr : WellNested r) : WellNested (p.applyIfElse c q r) := by
  unfold Prog.applyIfElse
  split
  · exact ⟨hp, hq⟩
  · exact ⟨hp, hr⟩

theorem applyIf_nested {p : Prog a k} {c : Bool} {q : Prog k k} (hp : WellNested p)
    (hq : WellNested q) : WellNested (p.applyIf c q) := by
  unfold Prog.applyIf
  split
  · exact ⟨hp, hq⟩
  · exact hp

theorem applyWithOption_nested {T : Type} {p : Prog a k} {v : Option T} {q : T → Prog k k'}
    {r : Prog k k'} (hp : WellNested p) (hq : ∀ x, WellNested (q x)) (hr : WellNested r) :
    WellNested (p.applyWithOption v q r) := by
  cases v with
  | none => exact ⟨hp, hr⟩
  | some x => exact ⟨hp, hq x⟩

theorem applyWithResult_nested {T E : Type} {p : Prog a k} {v : Except E T} {q : T → Prog k k'}
    {r : E → Prog k k'} (hp : WellNested p) (hq : ∀ x, WellNested (q x)) (hr : ∀ x, WellNested (r x)) :
    WellNested (p.applyWithResult v q r) := by
  cases v with
  | error x => exact ⟨hp, hr x⟩
  | ok x => exact ⟨hp, hq x⟩

theorem attrNamed_nested {p : Prog a .elem} (n) (op) (hp : WellNested p) :
    WellNested (p.attrNamed n op) := map_nested fun _ => hp

theorem attr_nested {p : Prog a .elem} (op) (hp : WellNested p) : WellNested (p.attr op) := hp

end Nested

/-- Shows that the contents in calls are well nested. -/
macro "nested" : tactic => `(tactic| repeat' first
  | exact src_nested
  | exact str_page _
  | exact num_page _
  | exact tpl_page _
  | exact data_page _
  | apply select_nested
  | apply selectDirect_nested
  | apply selectOnce_nested
  | apply selectDirectOnce_nested
  | apply subselect_nested
  | apply subselectDirect_nested
  | apply subselectOnce_nested
  | apply subselectDirectOnce_nested
  | apply apply_nested
  | apply forget_nested
  | apply removeContents_nested
  | apply prependContents_nested
  | apply appendContents_nested
  | apply replaceContents_nested
  | apply repeatContents_nested
  | apply repeatContentsOrElse_nested
  | apply contents_nested
  | apply replace_nested
  | apply remove_nested
  | apply prepend_nested
  | apply append_nested
  | apply repeatOrElse_nested
  | apply repeat_nested
  | apply applyIfElse_nested
  | apply applyIf_nested
  | apply applyWithOption_nested
  | apply applyWithResult_nested
  | apply attrNamed_nested
  | apply attr_nested
  | intro _)

/-- Computes a result through the meaning of the calls. -/
macro "unit" : tactic => `(tactic| exact sample (by nested) (by decide +kernel))

/-- All ends of a text. -/
def tails : Str → List Str
  | [] => [[]]
  | c :: cs => (c :: cs) :: tails cs

/-- The result is a text that contains these texts and not those. -/
def shows (r : Option (Except StreamError Str)) (these : List String)
    (those : List String := []) : Bool :=
  match r with
  | some (.ok x) =>
    these.all (fun s => (tails x).any fun y => s.toList.isPrefixOf y) &&
    those.all fun s => (tails x).all fun y => !s.toList.isPrefixOf y
  | _ => false

theorem sample_shows {k : Kind} {s : String} {p : Prog .gen k} {these those : List String}
    (hp : WellNested p) (h : shows (meant s p) these those = true) :
    shows (result s p) these those = true := by
  rw [sample hp rfl, h]

/-- Computes what a result shows through the meaning of the calls. -/
macro "docs" : tactic => `(tactic| exact sample_shows (by nested) (by decide +kernel))

end Fuser.Tests
