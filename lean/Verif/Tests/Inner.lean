import Verif.Tests.Docs
import Verif.Props.Text

/-!
# Tests of the crate that run a transform inside a transform, on the model

The inner transforms are computed through theorem C37 on their own and then put into the outer ones.
-/

namespace Fuser.Tests

open Spec

/-- A closure that transforms a template; transforms of templates always end (C47). -/
def closure {k : Kind} (p : Prog .gen k) (t : Template) : Except StreamError Template :=
  (t.transform p).getD (.ok ⟨[]⟩)

theorem closure_nested {a k k' : Kind} {q : Prog a k'} {p : Prog .gen k} (hq : WellNested q)
    (hp : WellNested p) : WellNested (.applyTemplate q (closure p)) := by
  refine ⟨hq, fun t t' ht h => C38_transform_nested t t' p ht hp ?_⟩
  unfold closure at h
  rw [(C37_transform_meaning t p ht hp).1] at h ⊢
  exact congrArg some h

/-- A function in terms of its value at one place. -/
theorem known {g : Template → Except StreamError Template} {t : Template}
    {r : Except StreamError Template} (h : g t = r) : g = fun x => if x = t then r else g x := by
  funext x
  split
  next e => rw [e, h]
  next => rfl

/-- The result of a closure on a parsed text, by the meaning of the calls. -/
def closed {k : Kind} (s : String) (p : Prog .gen k) : Except StreamError Template :=
  (meaning p (treeOf (parsed s).events)).events.map Template.mk

theorem closure_parsed {k : Kind} (s : String) {p : Prog .gen k} (hp : WellNested p) :
    closure p (parsed s) = closed s p := by
  unfold closed closure
  rw [(C37_transform_meaning _ p ?_ hp).1]
  · rfl
  · unfold parsed
    split
    next t ht => exact parsed_page ht
    next => exact ⟨⟨0, .nil⟩, by simp [AsciiNames], by simp⟩

/-! ## `modifier/apply.rs` -/

/-- apply_as_template, with closure -/
example : result "<a><b>23</b></a>" (
    html.select "b" fun _ => (html (a := .elem)).applyTemplate <| closure <|
      html.select "b" fun _ => html.replaceContents "foo") =
    some (.ok "<a><b>foo</b></a>".toList) := by
  refine sample (select_nested _ src_nested fun _ => closure_nested src_nested (by nested)) ?_
  rw [known (closure_parsed "<b>23</b>" (by nested))]
  rfl

/-- apply_as_template, passthrough error -/
example : result "<a/>" (
    html.select "a" fun _ => (html (a := .elem)).applyTemplate <| closure <|
      html.select "a" fun _ => html.setId "") =
    some (.error (.identifier .empty)) := by
  refine sample (select_nested _ src_nested fun _ => closure_nested src_nested (by nested)) ?_
  rw [known (closure_parsed "<a/>" (by nested))]
  rfl

/-! ## `transform.rs` -/

/-- apply_as_template -/
example : shows (result "\n    <head><title>Title</title></head>\n" (
    html.select "head" fun _ => (html (a := .elem)).applyTemplate <| closure <|
      html.selectOnce "title" <| html.replaceContents (dyn "New Title")))
    ["<title>New Title</title>"] = true := by
  refine sample_shows (select_nested _ src_nested fun _ => closure_nested src_nested (by nested)) ?_
  rw [known (closure_parsed "<head><title>Title</title></head>" (by nested))]
  rfl

/-! ## Templates made of an element -/

theorem made_page {n : Identifier} {t : Template} (hn : Ascii n.str)
    (h : Template.withElement (.ok n) = .ok t) : Page t.events := by
  obtain ⟨h1, h2, -⟩ := C55_with_element n .empty
  by_cases hv : VoidName n.str
  · rw [h1 hv] at h
    cases h
    exact ⟨⟨0, .leaf trivial .nil⟩, by simp [AsciiNames, startName, hn], by simp⟩
  · rw [h2 hv] at h
    cases h
    exact ⟨⟨0, .leaf trivial .nil⟩, by simp [AsciiNames, startName, hn], by simp⟩

/-- `IntoStream` for the result of making a template. -/
def made (r : Option (Except StreamError Template)) : Content :=
  match r with
  | some (.ok t) => .resultOk (.template t)
  | some (.error e) => .resultErr e
  | none => .data (.static [])

/-- `with_element` followed by a transform. -/
def element {k : Kind} (n : String) (p : Prog .gen k) : Option (Except StreamError Template) :=
  match Template.withElement (name n) with
  | .ok t => t.transform p
  | .error e => some (.error (.identifier e))

/-- The same by the meaning of the calls. -/
def elementMeant {k : Kind} (n : String) (p : Prog .gen k) :
    Option (Except StreamError Template) :=
  match Template.withElement (name n) with
  | .ok t => some ((meaning p (treeOf t.events)).events.map Template.mk)
  | .error e => some (.error (.identifier e))

theorem named_ascii {s : String} {n : Identifier} (h : name s = .ok n) : Ascii n.str := by
  obtain ⟨h1, -, -, -, h5⟩ := C04_identifier_validation s.toList
  have hv := h5.1 ⟨n, h⟩
  have := (h1 hv).1.symm.trans h
  cases this
  exact hv.2.1

theorem element_eq {k : Kind} {n : String} {p : Prog .gen k} (hp : WellNested p) :
    element n p = elementMeant n p := by
  unfold element elementMeant
  cases hn : name n with
  | error e => rfl
  | ok i =>
    split
    next t ht => rw [(C37_transform_meaning t p (made_page (named_ascii hn) ht) hp).1]
    next => rfl

theorem transformed_eq {k : Kind} {n : String} {i : Identifier} {b : Prog .elem k}
    (hn : name n = .ok i) :
    Template.withTransformedElement (name n) b =
      element n (Prog.selectOnce .src (.ok (.tag i)) b) := by
  unfold Template.withTransformedElement element
  rw [hn]
  dsimp only
  cases Template.withElement (.ok i) <;> rfl

theorem fault_page (e : StreamError) : PageContent (.resultErr e) :=
  ⟨.fail, by intro x t h; simp [results] at h⟩

theorem element_content {k : Kind} (n : String) {p : Prog .gen k} (hp : WellNested p) :
    PageContent (made (element n p)) := by
  unfold element
  cases hn : name n with
  | error e => exact fault_page _
  | ok i =>
    split
    next t ht =>
      have hpg := made_page (named_ascii hn) ht
      unfold made
      split
      next u hu => exact template_page (C38_transform_nested _ _ _ hpg hp hu)
      next => exact fault_page _
      next => exact data_page _
    next => exact fault_page _

/-- The function of the example of `repeat_contents_or_else`. -/
def fillItems (items : List Int) : Prog .elem .gen :=
  html.selectOnce "ul" <| html.repeatContentsOrElse items.length
    (fun i => html.selectOnce "li" <| html.replaceContents (num (items.getD i 0)))
    (html.replace <| made <| element "div" <|
      html.selectOnce "div" <| html.replaceContents "None")

/-- with_element -/
example : shows (result "\n    <body></body>\n" (
    html.selectOnce "body" <| html.replaceContents <| made <| element "a" <|
      html.selectOnce "a" <|
        (html.setAttribute "href" (some "index.html")).replaceContents "Home"))
    ["<body><a href=\"index.html\">Home</a></body>"] = true := by
  refine sample_shows (selectOnce_nested _ src_nested
    (replaceContents_nested src_nested (element_content _ (by nested)))) ?_
  rw [element_eq (by nested)]
  decide +kernel

/-- with_transformed_element -/
example : shows (result "\n    <body></body>\n" (
    html.selectOnce "body" <| html.replaceContents <| made <|
      Template.withTransformedElement (name "a") <|
        (html.setAttribute "href" (some "index.html")).replaceContents "Home"))
    ["<body><a href=\"index.html\">Home</a></body>"] = true := by
  rw [transformed_eq (i := ⟨.static ['a']⟩) (by decide +kernel)]
  refine sample_shows (selectOnce_nested _ src_nested
    (replaceContents_nested src_nested (element_content _ (by nested)))) ?_
  rw [element_eq (by nested)]
  decide +kernel

/-- repeat_contents_or_else -/
example : shows (result "\n    <ul id=\"one\"><li>Item</li></ul>\n    <ul id=\"two\"><li>Item</li></ul>\n" (
    (html.select "#one" fun _ => fillItems [2, 3]).select "#two" fun _ => fillItems []))
    ["<ul id=\"one\"><li>2</li><li>3</li></ul>", "<div>None</div>"] ["<ul id=\"two\">"] =
    true := by
  unfold fillItems
  refine sample_shows ?_ ?_
  · nested <;> exact element_content _ (by nested)
  rw [element_eq (by nested)]
  decide +kernel

end Fuser.Tests
