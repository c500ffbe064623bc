import Verif.Tests.Setup

/-!
# The unit tests of the crate on the model

Each sample is a unit test in the file of `/repo/src` named in the heading. Tests that differ from
others only in a boxed stream (`into_boxed_element`) are left out: boxing is not modelled.
-/

namespace Fuser.Tests

open Spec

/-- `Classes::from_str_iterator`. -/
def classes (l : List String) : Except StreamError Selector :=
  (Selector.classesFromStrIterator (l.map String.toList)).mapError ClassesError.toStream

/-- `Class::from_str`. -/
def cls (s : String) : Except StreamError Selector :=
  (Selector.classFromStr s.toList).mapError ClassError.toStream

/-- `Id::from_str`. -/
def ident (s : String) : Except StreamError Selector :=
  (Selector.idFromStr s.toList).mapError IdError.toStream

/-- `Tag::from_str`. -/
def tag (s : String) : Except StreamError Selector :=
  (Selector.tagFromStr s.toList).mapError TagError.toStream

/-! ## `modifier/append.rs` -/

/-- append to existing -/
example : result "<a><b>23</b><c>42</c><b>93</b></a>" (
    html.select "c" fun _ => html.appendContents "foo") =
    some (.ok "<a><b>23</b><c>42foo</c><b>93</b></a>".toList) := by unit

/-- append to empty -/
example : result "<a><b>23</b><c></c><b>93</b></a>" (
    html.select "c" fun _ => html.appendContents "foo") =
    some (.ok "<a><b>23</b><c>foo</c><b>93</b></a>".toList) := by unit

/-- append -/
example : result "<a><b>23</b><c>42</c><b>93</b></a>" (
    html.select "c" fun _ => html.append "foo") =
    some (.ok "<a><b>23</b><c>42</c>foo<b>93</b></a>".toList) := by unit

/-! ## `modifier/apply.rs` -/

/-- apply with closure -/
example : result "<a><b>23</b></a>" (
    html.select "b" fun _ => html.apply html.removeContents) =
    some (.ok "<a><b></b></a>".toList) := by unit

/-- apply, element streams -/
example : result "<link>" (
    html.select "link" fun _ => (html (a := .elem)).apply html) =
    some (.ok "<link>".toList) := by unit

/-- apply_if_else, true -/
example : result "<a><b>23</b></a>" (
    html.select "b" fun _ => html.applyIfElse true (html.replaceContents "99")
      (html.replaceContents "33")) =
    some (.ok "<a><b>99</b></a>".toList) := by unit

/-- apply_if_else, false -/
example : result "<a><b>23</b></a>" (
    html.select "b" fun _ => html.applyIfElse false (html.replaceContents "99")
      (html.replaceContents "33")) =
    some (.ok "<a><b>33</b></a>".toList) := by unit

/-- apply_if, true -/
example : result "<a><b>23</b></a>" (
    html.select "b" fun _ => html.applyIf true (html.replaceContents "99")) =
    some (.ok "<a><b>99</b></a>".toList) := by unit

/-- apply_if, false -/
example : result "<a><b>23</b></a>" (
    html.select "b" fun _ => html.applyIf false (html.replaceContents "99")) =
    some (.ok "<a><b>23</b></a>".toList) := by unit

/-! ## `modifier/attribute.rs` -/

/-- add_class, add to existing -/
example : result "<a class=\"foo bar\">23</a>" (
    html.select "a" fun _ => html.addClass "baz") =
    some (.ok "<a class=\"foo bar baz\">23</a>".toList) := by unit

/-- add_class, add to none -/
example : result "<a>23</a>" (
    html.select "a" fun _ => html.addClass "baz") =
    some (.ok "<a class=\"baz\">23</a>".toList) := by unit

/-- add_class, identifier error -/
example : result "<a/>" (
    html.select "a" fun _ => html.addClass "") =
    some (.error (.identifier .empty)) := by unit

/-- remove_class, remove one of many -/
example : result "<a class=\"foo  bar baz\" id=\"xyz\">23</a>" (
    html.select "a" fun _ => html.removeClass "bar") =
    some (.ok "<a class=\"foo baz\" id=\"xyz\">23</a>".toList) := by unit

/-- remove_class, remove last class -/
example : result "<a class=\"bar\" id=\"xyz\">23</a>" (
    html.select "a" fun _ => html.removeClass "bar") =
    some (.ok "<a id=\"xyz\">23</a>".toList) := by unit

/-- remove_class -/
example : result "<a class=\"bar baz\" id=\"xyz\">23</a>" (
    html.select "a" fun _ => html.removeClass "bar") =
    some (.ok "<a class=\"baz\" id=\"xyz\">23</a>".toList) := by unit

/-- remove_class, identifier error -/
example : result "<a/>" (
    html.select "a" fun _ => html.removeClass "") =
    some (.error (.identifier .empty)) := by unit

/-- set_id, existing id -/
example : result "<link id=\"foo\" class=\"bar\">" (
    html.select "link" fun _ => html.setId "qux") =
    some (.ok "<link class=\"bar\" id=\"qux\">".toList) := by unit

/-- set_id, no existing id -/
example : result "<link class=\"bar\">" (
    html.select "link" fun _ => html.setId "qux") =
    some (.ok "<link class=\"bar\" id=\"qux\">".toList) := by unit

/-- set_id, identifier error -/
example : result "<a/>" (
    html.select "a" fun _ => html.setId "") =
    some (.error (.identifier .empty)) := by unit

/-- remove_id -/
example : result "<link id=\"foo\" class=\"bar\">" (
    html.select "link" fun _ => html.removeId) =
    some (.ok "<link class=\"bar\">".toList) := by unit

/-- remove_attribute -/
example : result "<a foo=\"bar\" baz=\"qux\">23</a>" (
    html.select "a" fun _ => html.removeAttribute "foo") =
    some (.ok "<a baz=\"qux\">23</a>".toList) := by unit

/-- remove_attribute, identifier error -/
example : result "<a/>" (
    html.select "a" fun _ => html.removeAttribute "") =
    some (.error (.identifier .empty)) := by unit

/-- set_attribute, replace existing -/
example : result "<a foo=\"bar\" baz=\"qux\">23</a>" (
    html.select "a" fun _ => html.setAttribute "foo" (some "newval")) =
    some (.ok "<a baz=\"qux\" foo=\"newval\">23</a>".toList) := by unit

/-- set_attribute, add new -/
example : result "<a baz=\"qux\">23</a>" (
    html.select "a" fun _ => html.setAttribute "foo" (some "newval")) =
    some (.ok "<a baz=\"qux\" foo=\"newval\">23</a>".toList) := by unit

/-- set_attribute, identifier error -/
example : result "<a/>" (
    html.select "a" fun _ => html.setAttribute "" (some "")) =
    some (.error (.identifier .empty)) := by unit

/-- set_empty_attribute, replace existing -/
example : result "<a foo=\"bar\" baz=\"qux\">23</a>" (
    html.select "a" fun _ => html.setAttribute "foo" none) =
    some (.ok "<a baz=\"qux\" foo>23</a>".toList) := by unit

/-- set_empty_attribute, add new -/
example : result "<a baz=\"qux\">23</a>" (
    html.select "a" fun _ => html.setAttribute "foo" none) =
    some (.ok "<a baz=\"qux\" foo>23</a>".toList) := by unit

/-- replace_attribute_value_if_exists, replace existing -/
example : result "<a foo=\"bar\" baz=\"qux\">23</a>" (
    html.select "a" fun _ => html.replaceAttributeValueIfExists "foo" "newval") =
    some (.ok "<a baz=\"qux\" foo=\"newval\">23</a>".toList) := by unit

/-- replace_attribute_value_if_exists, replace multiple -/
example : result "<a foo=\"bar\" baz=\"qux\" foo=\"false\">23</a>" (
    html.select "a" fun _ => html.replaceAttributeValueIfExists "foo" "newval") =
    some (.ok "<a baz=\"qux\" foo=\"newval\">23</a>".toList) := by unit

/-- replace_attribute_value_if_exists, none to replace -/
example : result "<a baz=\"qux\">23</a>" (
    html.select "a" fun _ => html.replaceAttributeValueIfExists "foo" "newval") =
    some (.ok "<a baz=\"qux\">23</a>".toList) := by unit

/-- replace_attribute_value_if_exists, identifier error -/
example : result "<a/>" (
    html.select "a" fun _ => html.replaceAttributeValueIfExists "" "") =
    some (.error (.identifier .empty)) := by unit

/-- add_to_attribute, existing with value -/
example : result "<a foo=\"bar\" baz=\"qux\">23</a>" (
    html.select "a" fun _ => html.addToAttribute "foo" "newval" ":") =
    some (.ok "<a foo=\"bar:newval\" baz=\"qux\">23</a>".toList) := by unit

/-- add_to_attribute, existing empty -/
example : result "<a foo baz=\"qux\">23</a>" (
    html.select "a" fun _ => html.addToAttribute "foo" "newval" ":") =
    some (.ok "<a foo=\"newval\" baz=\"qux\">23</a>".toList) := by unit

/-- add_to_attribute, new -/
example : result "<a baz=\"qux\">23</a>" (
    html.select "a" fun _ => html.addToAttribute "foo" "newval" ":") =
    some (.ok "<a baz=\"qux\" foo=\"newval\">23</a>".toList) := by unit

/-- add_to_attribute, identifier error -/
example : result "<a/>" (
    html.select "a" fun _ => html.addToAttribute "" "" "") =
    some (.error (.identifier .empty)) := by unit

/-- add_attribute, add to existing -/
example : result "<a foo=\"bar\" baz=\"qux\">23</a>" (
    html.select "a" fun _ => html.addAttribute "foo" (some "newval")) =
    some (.ok "<a foo=\"bar\" baz=\"qux\" foo=\"newval\">23</a>".toList) := by unit

/-- add_attribute, add new -/
example : result "<a baz=\"qux\">23</a>" (
    html.select "a" fun _ => html.addAttribute "foo" (some "newval")) =
    some (.ok "<a baz=\"qux\" foo=\"newval\">23</a>".toList) := by unit

/-- add_attribute, identifier error -/
example : result "<a/>" (
    html.select "a" fun _ => html.addAttribute "" (some "")) =
    some (.error (.identifier .empty)) := by unit

/-- add_empty_attribute, add to existing -/
example : result "<a foo=\"bar\" baz=\"qux\">23</a>" (
    html.select "a" fun _ => html.addAttribute "foo" none) =
    some (.ok "<a foo=\"bar\" baz=\"qux\" foo>23</a>".toList) := by unit

/-- add_empty_attribute, add new -/
example : result "<a baz=\"qux\">23</a>" (
    html.select "a" fun _ => html.addAttribute "foo" none) =
    some (.ok "<a baz=\"qux\" foo>23</a>".toList) := by unit

/-- void elements -/
example : result "<link foo=\"bar\" baz=\"qux\">" (
    html.select "link" fun _ => html.removeAttribute "foo") =
    some (.ok "<link baz=\"qux\">".toList) := by unit

/-- self closed elements -/
example : result "<a foo=\"bar\" baz=\"qux\" />" (
    html.select "a" fun _ => html.removeAttribute "foo") =
    some (.ok "<a baz=\"qux\" />".toList) := by unit

/-! ## `modifier/prepend.rs`, `modifier/remove.rs` -/

/-- prepend to existing -/
example : result "<a><b>23</b><c>42</c><b>93</b></a>" (
    html.select "c" fun _ => html.prependContents "foo") =
    some (.ok "<a><b>23</b><c>foo42</c><b>93</b></a>".toList) := by unit

/-- prepend to empty -/
example : result "<a><b>23</b><c></c><b>93</b></a>" (
    html.select "c" fun _ => html.prependContents "foo") =
    some (.ok "<a><b>23</b><c>foo</c><b>93</b></a>".toList) := by unit

/-- prepend -/
example : result "<a><b>23</b><c>42</c><b>93</b></a>" (
    html.select "c" fun _ => html.prepend "foo") =
    some (.ok "<a><b>23</b>foo<c>42</c><b>93</b></a>".toList) := by unit

/-- remove contents -/
example : result "<a><b>23</b>45<c>67</c><b>89</b></a>" (
    html.select "b" fun _ => html.removeContents) =
    some (.ok "<a><b></b>45<c>67</c><b></b></a>".toList) := by unit

/-- remove -/
example : result "<a><b>23</b>45<c>67</c><b>89</b></a>" (
    html.select "b" fun _ => html.remove) =
    some (.ok "<a>45<c>67</c></a>".toList) := by unit

/-! ## `modifier/repeat.rs` -/

/-- repeat_contents, some integers -/
example : result "<a><b>23<c></c>45</b></a>" (
    html.select "b" fun _ => html.repeatContents 2 fun i =>
      html.select "c" fun _ => html.replaceContents (num (3 + i))) =
    some (.ok "<a><b>23<c>3</c>4523<c>4</c>45</b></a>".toList) := by unit

/-- repeat_contents, empty iterator -/
example : result "<a><b>23<c></c>45</b></a>" (
    html.select "b" fun _ => html.repeatContents 0 fun i =>
      html.select "c" fun _ => html.replaceContents (num i)) =
    some (.ok "<a><b></b></a>".toList) := by unit

/-- repeat, some integers -/
example : result "<a><b>23<c></c>45</b></a>" (
    html.select "b" fun _ => html.repeat 2 fun i =>
      html.select "c" fun _ => html.replaceContents (num (3 + i))) =
    some (.ok "<a><b>23<c>3</c>45</b><b>23<c>4</c>45</b></a>".toList) := by unit

/-- repeat, empty iterator -/
example : result "<a><b>23<c></c>45</b></a>" (
    html.select "b" fun _ => html.repeat 0 fun i =>
      html.select "c" fun _ => html.replaceContents (num i)) =
    some (.ok "<a></a>".toList) := by unit

/-- repeat, no match -/
example : result "<link>" (
    html.select "b" fun _ => html.repeat 0 fun _ => html) =
    some (.ok "<link>".toList) := by unit

/-! ## `modifier/replace.rs` -/

/-- void element -/
example : result "<a><b>23</b><link><b>93</b></a>" (
    html.select "link" fun _ => html.replaceContents "foo") =
    some (.ok "<a><b>23</b><link><b>93</b></a>".toList) := by unit

/-- self closed element -/
example : result "<a><b>23</b><c/><b>93</b></a>" (
    html.select "c" fun _ => html.replaceContents "foo") =
    some (.ok "<a><b>23</b><c>foo</c><b>93</b></a>".toList) := by unit

/-- normal element -/
example : result "<a><b>23</b><c>42</c><b>93</b></a>" (
    html.select "c" fun _ => html.replaceContents "foo") =
    some (.ok "<a><b>23</b><c>foo</c><b>93</b></a>".toList) := by unit

/-- replace -/
example : result "<a><b>23</b><c>42</c><b>93</b></a>" (
    html.select "c" fun _ => html.replace "foo") =
    some (.ok "<a><b>23</b>foo<b>93</b></a>".toList) := by unit

/-! ## `modifier/select` -/

/-- roundtrip -/
example : result "<a><b><c><b>foo</b></c></b></a>" (
    html.select "b" fun _ => html) =
    some (.ok "<a><b><c><b>foo</b></c></b></a>".toList) := by unit

/-- select all -/
example : result "<p><b>23</b></p><b>45</b>" (
    html.select "b" fun _ => html.appendContents (num 99)) =
    some (.ok "<p><b>2399</b></p><b>4599</b>".toList) := by unit

/-- select, self closed -/
example : result "<b />" (
    html.select "b" fun _ => html) =
    some (.ok "<b />".toList) := by unit

/-- select first -/
example : result "<p><b>23</b></p><b>45</b>" (
    html.selectOnce "b" (html.appendContents (num 99))) =
    some (.ok "<p><b>2399</b></p><b>45</b>".toList) := by unit

/-- select_once, self closed -/
example : result "<b />" (
    html.selectOnce "b" html) =
    some (.ok "<b />".toList) := by unit

/-- subselect_contents, remove -/
example : result "<a><b>23</b>45<c>67</c><b>89</b></a>" (
    html.select "b" fun _ => html.contents (html (a := .gen)).remove) =
    some (.ok "<a><b></b>45<c>67</c><b></b></a>".toList) := by unit

/-- subselect_contents, nothing -/
example : result "<a><b>23</b>45<c>67</c><b>89</b></a>" (
    html.select "b" fun _ => html.contents html) =
    some (.ok "<a><b>23</b>45<c>67</c><b>89</b></a>".toList) := by unit

/-- match all direct -/
example : result "<p><b>23</b></p><b>45</b><b>67</b>" (
    html.selectDirect "b" fun _ => html.appendContents (num 99)) =
    some (.ok "<p><b>23</b></p><b>4599</b><b>6799</b>".toList) := by unit

/-- match first direct -/
example : result "<p><b>23</b></p><b>45</b><b>67</b>" (
    html.selectDirectOnce "b" (html.appendContents (num 99))) =
    some (.ok "<p><b>23</b></p><b>4599</b><b>67</b>".toList) := by unit

/-! ## `modifier/select`, subselects -/

/-- subselect, 2 levels append -/
example : result "<b><b>23</b></b><b>45</b>" (
    html.select "b" fun _ => html.subselect "b" fun _ => html.appendContents (num 99)) =
    some (.ok "<b><b>2399</b></b><b>45</b>".toList) := by unit

/-- subselect, three levels match -/
example : result "<a><a><a>23</a></a></a>" (
    html.select "a" fun _ => html.subselect "a" fun _ => html.subselect "a" fun _ =>
      html.replaceContents "99") =
    some (.ok "<a><a><a>99</a></a></a>".toList) := by unit

/-- subselect, three levels non-match -/
example : result "<a><a>23</a></a>" (
    html.select "a" fun _ => html.subselect "a" fun _ => html.subselect "a" fun _ =>
      html.replaceContents "99") =
    some (.ok "<a><a>23</a></a>".toList) := by unit

/-- subselect_once, below select_once -/
example : result "<b><b>23</b><b>45</b></b><b>67<b>89</b></b>" (
    html.selectOnce "b" (html.subselectOnce "b" (html.appendContents (num 99)))) =
    some (.ok "<b><b>2399</b><b>45</b></b><b>67<b>89</b></b>".toList) := by unit

/-- subselect_once, below select -/
example : result "<b><b>23</b><b>45</b></b><b>67<b>89</b></b>" (
    html.select "b" fun _ => html.subselectOnce "b" (html.appendContents (num 99))) =
    some (.ok "<b><b>2399</b><b>45</b></b><b>67<b>8999</b></b>".toList) := by unit

/-- subselect_direct, multiple -/
example : result "<b><a><b>00</b></a><b><b>23</b></b><b>45</b></b>" (
    html.select "b" fun _ => html.subselectDirect "b" fun _ => html.appendContents (num 99)) =
    some (.ok "<b><a><b>00</b></a><b><b>23</b>99</b><b>4599</b></b>".toList) := by unit

/-- subselect_direct, two levels direct match -/
example : result "<a><a>23</a></a><a>23</a>" (
    html.selectDirect "a" fun _ => html.subselectDirect "a" fun _ => html.replaceContents "99") =
    some (.ok "<a><a>99</a></a><a>23</a>".toList) := by unit

/-- subselect_direct, late match -/
example : result "<c></c><d /><a><a>23</a></a><a>23</a>" (
    html.selectDirect "a" fun _ => (html (a := .elem)).selectDirect "a" fun _ =>
      html.replaceContents "99") =
    some (.ok "<c></c><d /><a>99</a><a>99</a>".toList) := by unit

/-- subselect_direct_once, multiple -/
example : result "<b><a><b>00</b></a><b><b>23</b></b><b>45</b></b>" (
    html.selectOnce "b" (html.subselectDirectOnce "b" (html.appendContents (num 99)))) =
    some (.ok "<b><a><b>00</b></a><b><b>23</b>99</b><b>45</b></b>".toList) := by unit

/-- subselect_direct_once, no match -/
example : result "<link>" (
    html.selectOnce "b" (html.subselectDirectOnce "b" html)) =
    some (.ok "<link>".toList) := by unit

/-! ## `transform.rs` -/

/-- apply_as_boxed_element -/
example : result "<a>01<b>23</b>45</a>" (
    html.select "b" fun _ => html.apply html.removeContents) =
    some (.ok "<a>01<b></b>45</a>".toList) := by unit

/-- apply_as_boxed -/
example : result "<a>01<b>23</b>45</a>" (
    html.select "b" fun _ => (html (a := .elem)).apply html.remove) =
    some (.ok "<a>0145</a>".toList) := by unit

/-! ## `select.rs` -/

/-- static, tag -/
example : result "<a><b>23</b></a>" (
    html.select "b" fun _ => html.removeContents) =
    some (.ok "<a><b></b></a>".toList) := by unit

/-- static, tag identifier error -/
example : result "<a/>" (
    html.select "/" fun _ => html) =
    some (.error (.staticSelector (.tag (.forbidden '/')))) := by unit

/-- static, id -/
example : result "<a><b id=\"x\">23</b><b id=\"y\">45</b></a>" (
    html.select "#y" fun _ => html.removeContents) =
    some (.ok "<a><b id=\"x\">23</b><b id=\"y\"></b></a>".toList) := by unit

/-- static, id identifier error -/
example : result "<a/>" (
    html.select "#/" fun _ => html) =
    some (.error (.staticSelector (.id (.forbidden '/')))) := by unit

/-- static, class -/
example : result "<a><b class=\"w x\">23</b><b class=\"y z\">45</b></a>" (
    html.select ".y" fun _ => html.removeContents) =
    some (.ok "<a><b class=\"w x\">23</b><b class=\"y z\"></b></a>".toList) := by unit

/-- static, class identifier error -/
example : result "<a/>" (
    html.select ".x.y./" fun _ => html) =
    some (.error (.staticSelector (.class 2 (.forbidden '/')))) := by unit

/-- static, multiple classes -/
example : result "<a><b class=\"x y\">23</b><b class=\"y z\">45</b></a>" (
    html.select ".y.z" fun _ => html.removeContents) =
    some (.ok "<a><b class=\"x y\">23</b><b class=\"y z\"></b></a>".toList) := by unit

/-- static, multiple classes reverse -/
example : result "<a><b class=\"x y\">23</b><b class=\"y z\">45</b></a>" (
    html.select ".z.y" fun _ => html.removeContents) =
    some (.ok "<a><b class=\"x y\">23</b><b class=\"y z\"></b></a>".toList) := by unit

/-- static, tag, id, classes -/
example : result "<a>A</a><a id=\"x\">B</a><a class=\"y z\">C</a><a id=\"x\" class=\"y z\">D</a>" (
    html.select "a#x.z.y" fun _ => html.removeContents) =
    some (.ok "<a>A</a><a id=\"x\">B</a><a class=\"y z\">C</a><a id=\"x\" class=\"y z\"></a>".toList) := by unit

/-- static, unrestricted error -/
example : result "<a/>" (
    html.select "" fun _ => html) =
    some (.error (.staticSelector .unrestricted)) := by unit

/-- classes -/
example : result "<a class=\"X\">23</a><b class=\"Y X\">42</b><a class=\"X Y\">99</a><a>33</a>" (
    html.select (classes ["x", "Y"]) fun _ => html.removeContents) =
    some (.ok "<a class=\"X\">23</a><b class=\"Y X\"></b><a class=\"X Y\"></a><a>33</a>".toList) := by unit

/-- classes, identifier error -/
example : result "" (
    html.select (classes ["x", "y", "", "z"]) fun _ => html) =
    some (.error (.selector (.classes (.identifier 2 .empty)))) := by unit

/-- classes, empty list -/
example : result "" (
    html.select (classes []) fun _ => html) =
    some (.error (.selector (.classes .empty))) := by unit

/-- class -/
example : result "<a class=\"X\">23</a><b class=\"Y\">42</b><a class=\"X Y\">99</a><a>33</a>" (
    html.select (cls "x") fun _ => html.removeContents) =
    some (.ok "<a class=\"X\"></a><b class=\"Y\">42</b><a class=\"X Y\"></a><a>33</a>".toList) := by unit

/-- class, identifier error -/
example : result "" (
    html.select (cls "") fun _ => html) =
    some (.error (.selector (.class .empty))) := by unit

/-- id -/
example : result "<a id=\"X\">23</a><b id=\"Y\">42</b><a id=\"X\">99</a><a>33</a>" (
    html.select (ident "x") fun _ => html.removeContents) =
    some (.ok "<a id=\"X\"></a><b id=\"Y\">42</b><a id=\"X\"></a><a>33</a>".toList) := by unit

/-- id, identifier error -/
example : result "" (
    html.select (ident "") fun _ => html) =
    some (.error (.selector (.id .empty))) := by unit

/-- tag -/
example : result "<a>23</a><b>42</b><a>99</a>" (
    html.select (tag "a") fun _ => html.removeContents) =
    some (.ok "<a></a><b>42</b><a></a>".toList) := by unit

/-- tag, identifier error -/
example : result "" (
    html.select (tag "") fun _ => html) =
    some (.error (.selector (.tag .empty))) := by unit

/-! ## `template.rs` -/

/-- into_stream, template -/
example : result "<a></a>" (
    html.select "a" fun _ => html.replaceContents (tpl "<b></b>")) =
    some (.ok "<a><b></b></a>".toList) := by unit

/-- round trip, nested -/
example : result "<a><b>foo</b></a>" (
    html) =
    some (.ok "<a><b>foo</b></a>".toList) := by unit

/-- round trip, empty -/
example : result "" (
    html) =
    some (.ok "".toList) := by unit

/-- round trip, data only -/
example : result "foo" (
    html) =
    some (.ok "foo".toList) := by unit

/-- template_errors -/
example : Template.fromStr "12345".toList (Options.default.setMaxInputLen 4) =
    .ok (.error (.lengthLimitExceeded 4)) := rfl

/-- template_errors -/
example : ∃ l, Template.fromStr "<a><b><c></c></b></a>".toList (Options.default.setMaxStackDepth 2) =
    .ok (.error (.parse (.stackLimitExceeded "c".toList l 2))) := ⟨_, rfl⟩

/-! ## `location.rs` -/

/-- advance -/
example : Location.atStart.withConsumed "".toList = .ok .atStart ∧
    Location.atStart.withConsumed "foo".toList = .ok ⟨1, 4, 3⟩ ∧
    Location.atStart.withConsumed "foo \n bar".toList = .ok ⟨2, 5, 9⟩ := by decide +kernel

end Fuser.Tests
