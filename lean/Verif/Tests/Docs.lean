import Verif.Tests.Units

/-!
# The examples of the documentation of the crate on the model

Each sample is an example in the documentation in the file of `/repo/src` named in the heading.
The examples with `apply_as_template`, `with_element` and `with_transformed_element`, which run a
transform inside a builder, are in `Verif.Tests.Inner`.
-/

namespace Fuser.Tests

open Spec

/-- `Data::from_unencoded_str`. -/
def dyn (s : String) : Content := .data (fromUnencodedStr s.toList)

theorem dyn_page (s : String) : PageContent (dyn s) := data_page _

/-! ## `transform.rs` -/

/-- BoxedApi (line 41) -/
example : shows (result "\n    <html>\n        <head><title>Title</title></head>\n        <body></body>\n    </html>\n" (
    html.select "head" fun _ => (html (a := .elem)).apply
      (html.select "title" fun _ => html.replaceContents (dyn "New Title"))))
    ["<title>New Title</title>"] = true := by docs

/-- BoxedElementApi (line 78) -/
example : shows (result "\n    <html>\n        <head><title>Title</title></head>\n        <body></body>\n    </html>\n" (
    html.select "title" fun _ => html.apply (html.replaceContents (dyn "New Title"))))
    ["<title>New Title</title>"] = true := by docs

/-- into_boxed -/
example : shows (result "\n    <head><title>Title</title></head>\n" (
    html.select "head" fun _ => (html (a := .elem)).apply
      (html.select "title" fun _ => html.replaceContents (dyn "New Title"))))
    ["<title>New Title</title>"] = true := by docs

/-- apply -/
example : shows (result "\n    <div id=\"one\"/>\n    <div id=\"two\"/>\n" (
    (html.select "#one" fun _ => (html.addClass "first").apply
        (html.replaceContents "Fn Content")).select "#two" fun _ =>
      (html.addClass "second").apply (html.replaceContents "Closure Content")))
    ["<div id=\"one\" class=\"first\">Fn Content</div>",
      "<div id=\"two\" class=\"second\">Closure Content</div>"] = true := by docs

/-- apply_if -/
example : shows (result "\n    <div id=\"one\">Default Value</div>\n    <div id=\"two\">Default Value</div>\n" (
    (html.select "#one" fun _ => html.applyIf (decide ((10 : Int) ≥ 0))
        (html.replaceContents (num 10))).select "#two" fun _ =>
      html.applyIf (decide ((-10 : Int) ≥ 0)) (html.replaceContents (num (-10)))))
    ["<div id=\"one\">10</div>",
      "<div id=\"two\">Default Value</div>"] = true := by docs

/-- apply_if_else -/
example : shows (result "\n    <ul>\n        <li class=\"item\">Item</li>\n        <li class=\"none\">None</li>\n    </ul>\n" (
    html.select "ul" fun _ => html.applyIfElse false
      (html.subselect "li.item" fun _ => html.remove)
      ((html.subselect "li.none" fun _ => html.remove).subselect "li.item" fun _ =>
        html.repeat 2 fun i => (html.appendContents " ").appendContents (num (2 + i)))))
    ["<li class=\"item\">Item 2</li>",
      "<li class=\"item\">Item 3</li>"] ["<li class=\"none\">"] = true := by docs

/-- apply_if_else -/
example : shows (result "\n    <ul>\n        <li class=\"item\">Item</li>\n        <li class=\"none\">None</li>\n    </ul>\n" (
    html.select "ul" fun _ => html.applyIfElse true
      (html.subselect "li.item" fun _ => html.remove)
      ((html.subselect "li.none" fun _ => html.remove).subselect "li.item" fun _ =>
        html.repeat 0 fun i => (html.appendContents " ").appendContents (num (0 + i)))))
    ["<li class=\"none\">None</li>"] ["<li class=\"item\">"] = true := by docs

/-- apply_with_option -/
example : shows (result "\n    <div id=\"one\"></div>\n    <div id=\"two\"></div>\n" (
    (html.select "#one" fun _ => html.applyWithOption (some (23 : Int))
        (fun i => html.replaceContents (num i)) (html.replaceContents "None")).select "#two" fun _ =>
      html.applyWithOption (none : Option Int) (fun i => html.replaceContents (num i))
        (html.replaceContents "None")))
    ["<div id=\"one\">23</div>",
      "<div id=\"two\">None</div>"] = true := by docs

/-- apply_with_result -/
example : shows (result "\n    <div id=\"one\"></div>\n    <div id=\"two\"></div>\n" (
    (html.select "#one" fun _ => html.applyWithResult (.ok 23 : Except Int Int)
        (fun i => (html.replaceContents (num i)).prependContents "OK ")
        (fun i => (html.replaceContents (num i)).prependContents "ERR ")).select "#two" fun _ =>
      html.applyWithResult (.error 42 : Except Int Int)
        (fun i => (html.replaceContents (num i)).prependContents "OK ")
        (fun i => (html.replaceContents (num i)).prependContents "ERR ")))
    ["<div id=\"one\">OK 23</div>",
      "<div id=\"two\">ERR 42</div>"] = true := by docs

/-- apply_as_boxed -/
example : shows (result "\n    <head><title>Title</title></head>\n" (
    html.select "head" fun _ => (html (a := .elem)).apply
      (html.selectOnce "title" (html.replaceContents (dyn "New Title")))))
    ["<title>New Title</title>"] = true := by docs

/-- select, any depth -/
example : shows (result "\n    <span id=\"outer\" class=\"name\">Foo</span>\n    <div>\n        <span id=\"inner\" class=\"name\">Bar</span>\n    </div>\n" (
    html.select ".name" fun _ => html.addClass "highlight"))
    ["<span id=\"outer\" class=\"name highlight\">",
      "<span id=\"inner\" class=\"name highlight\">"] = true := by docs

/-- select, not recursive -/
example : shows (result "\n    <div class=\"outer main\">\n        <div class=\"inner main\">Content</div>\n    </div>\n" (
    html.select ".main" fun _ => html.addClass "highlight"))
    ["<div class=\"outer main highlight\">",
      "<div class=\"inner main\">"] = true := by docs

/-- select_once -/
example : shows (result "\n    <head><title>Title</title></head>\n" (
    html.selectOnce "title" (html.replaceContents (dyn "New Title"))))
    ["<title>New Title</title>"] = true := by docs

/-- select_direct -/
example : shows (result "\n    <span id=\"outer\" class=\"name\">Foo</span>\n    <div>\n        <span id=\"inner\" class=\"name\">Bar</span>\n    </div>\n" (
    html.selectDirect ".name" fun _ => html.addClass "highlight"))
    ["<span id=\"outer\" class=\"name highlight\">",
      "<span id=\"inner\" class=\"name\">"] = true := by docs

/-- select_direct_once -/
example : shows (result "\n    <span id=\"outer1\" class=\"name\">Foo</span>\n    <div>\n        <span id=\"inner\" class=\"name\">Baz</span>\n    </div>\n    <span id=\"outer2\" class=\"name\">Foo</span>\n" (
    html.selectDirectOnce ".name" (html.addClass "highlight")))
    ["<span id=\"outer1\" class=\"name highlight\">",
      "<span id=\"outer2\" class=\"name\">",
      "<span id=\"inner\" class=\"name\">"] = true := by docs

/-- remove -/
example : shows (result "\n    <div><h1>Title</h1><p>Content</p><p>More Content</p></div>\n" (
    html.select "p" fun _ => html.remove))
    ["<div><h1>Title</h1></div>"] = true := by docs

/-- prepend -/
example : shows (result "\n    <div><p>Content</p></div>\n" (
    html.select "p" fun _ => html.prepend (tpl "<h1>Title</h1>")))
    ["<div><h1>Title</h1><p>Content</p></div>"] = true := by docs

/-- append -/
example : shows (result "\n    <div><h1>Title</h1></div>\n" (
    html.select "h1" fun _ => html.append (tpl "<p>Content</p>")))
    ["<div><h1>Title</h1><p>Content</p></div>"] = true := by docs

/-- replace -/
example : shows (result "\n    <div><div id=\"title-placeholder\"/>Content</div>\n" (
    html.select "#title-placeholder" fun _ => html.replace (tpl "<h1>Title</h1>")))
    ["<div><h1>Title</h1>Content</div>"] = true := by docs

/-- repeat -/
example : shows (result "\n    <ul><li>Item</li></ul>\n" (
    html.select "ul" fun _ => html.subselect "li" fun _ => html.repeat 2 fun i =>
      (html.appendContents " ").appendContents (num (1 + i))))
    ["<ul><li>Item 1</li><li>Item 2</li></ul>"] = true := by docs

/-- repeat_or_else -/
example : shows (result "\n    <ul id=\"one\"><li>Item</li></ul>\n    <ul id=\"two\"><li>Item</li></ul>\n" (
    (html.select "#one" fun _ => (html (a := .elem)).select "li" fun _ => html.repeatOrElse 2 (fun i => html.replaceContents (num (2 + i)))
        ((html.replaceContents "None").addClass "none")).select
      "#two" fun _ => (html (a := .elem)).select "li" fun _ => html.repeatOrElse 0 (fun i => html.replaceContents (num (2 + i)))
        ((html.replaceContents "None").addClass "none")))
    ["<ul id=\"one\"><li>2</li><li>3</li></ul>",
      "<ul id=\"two\"><li class=\"none\">None</li></ul>"] = true := by docs

/-- into_boxed_element, apply_as_boxed_element -/
example : shows (result "\n    <head><title>Title</title></head>\n" (
    html.select "title" fun _ => html.apply (html.replaceContents (dyn "New Title"))))
    ["<title>New Title</title>"] = true := by docs

/-- subselect_contents -/
example : shows (result "\n    <div id=\"one\">Foo</div>\n    <div id=\"two\">Foo</div>\n" (
    (html.select "#one" fun _ => html.contents (html (a := .gen)).remove).select "#two" fun _ =>
      html.removeContents))
    ["<div id=\"one\"></div>",
      "<div id=\"two\"></div>"] = true := by docs

/-- subselect -/
example : shows (result "\n    <body><div id=\"outer\"><div id=\"inner\">23</div></div></body>\n" (
    html.select "div" fun _ => html.subselect "div" fun _ => html.remove))
    ["<body><div id=\"outer\"></div></body>"] = true := by docs

/-- subselect, with select the current element is reselected -/
example : shows (result "\n    <body><div id=\"outer\"><div id=\"inner\">23</div></div></body>\n" (
    html.select "div" fun _ => (html (a := .elem)).select "div" fun _ => html.remove))
    ["<body></body>"] = true := by docs

/-- subselect_once -/
example : shows (result "\n    <div>\n        <div>First</div>\n        <div>Second</div>\n    </div>\n" (
    html.select "div" fun _ => html.subselectOnce "div" (html.addClass "found")))
    ["<div class=\"found\">First</div>",
      "<div>Second</div>"] = true := by docs

/-- subselect_direct -/
example : shows (result "\n    <div>\n        <div>First</div>\n        <div>Second</div>\n    </div>\n" (
    html.select "div" fun _ => html.subselectDirect "div" fun _ => html.addClass "found"))
    ["<div class=\"found\">First</div>",
      "<div class=\"found\">Second</div>"] = true := by docs

/-- subselect_direct_once -/
example : shows (result "\n    <div>\n        <article><div>Lower</div></article>\n        <div>First</div>\n        <div>Second</div>\n    </div>\n" (
    html.select "div" fun _ => html.subselectDirectOnce "div" (html.addClass "found")))
    ["<div>Lower</div>",
      "<div class=\"found\">First</div>",
      "<div>Second</div>"] = true := by docs

/-- remove_contents -/
example : shows (result "\n    <body>Some <em>content</em>.</body>\n" (
    html.select "body" fun _ => html.removeContents))
    ["<body></body>"] = true := by docs

/-- prepend_contents -/
example : shows (result "\n    <head><title>Title</title></head>\n" (
    html.select "title" fun _ => html.prependContents "MyApp: "))
    ["<title>MyApp: Title</title>"] = true := by docs

/-- append_contents -/
example : shows (result "\n    <head><title>Title</title></head>\n" (
    html.select "title" fun _ => html.appendContents " - MyApp"))
    ["<title>Title - MyApp</title>"] = true := by docs

/-- replace_contents -/
example : shows (result "\n    <head><title>Title</title></head>\n" (
    html.select "title" fun _ => html.replaceContents "New Title"))
    ["<title>New Title</title>"] = true := by docs

/-- repeat_contents -/
example : shows (result "\n    <ul><li>Item</li></ul>\n" (
    html.select "ul" fun _ => html.repeatContents 2 fun i =>
      html.selectOnce "li" (html.replaceContents (num (2 + i)))))
    ["<li>2</li><li>3</li>"] = true := by docs

/-- repeat_contents_or_else, with a parsed element -/
example : shows (result "\n    <ul id=\"one\"><li>Item</li></ul>\n    <ul id=\"two\"><li>Item</li></ul>\n" (
    (html.select "#one" fun _ => (html (a := .elem)).selectOnce "ul" (html.repeatContentsOrElse 2
        (fun i => html.selectOnce "li" (html.replaceContents (num (2 + i))))
        ((html (a := .elem)).replace (tpl "<div>None</div>")))).select "#two" fun _ =>
      (html (a := .elem)).selectOnce "ul" (html.repeatContentsOrElse 0
        (fun i => html.selectOnce "li" (html.replaceContents (num (2 + i))))
        ((html (a := .elem)).replace (tpl "<div>None</div>")))))
    ["<ul id=\"one\"><li>2</li><li>3</li></ul>",
      "<div>None</div>"] ["<ul id=\"two\">"] = true := by docs

/-- add_attribute, add_attribute_with_value -/
example : shows (result "\n    <a id=\"home-link\">Home</a>\n" (
    html.selectOnce "a#home-link" (html.addAttribute "href" (some "http://example.com/"))))
    ["<a id=\"home-link\" href=\"http://example.com/\">Home</a>"] = true := by docs

/-- add_empty_attribute -/
example : shows (result "\n    <input id=\"info\">\n" (
    html.selectOnce "input#info" (html.addAttribute "disabled" none)))
    ["<input id=\"info\" disabled>"] = true := by docs

/-- add_to_attribute -/
example : shows (result "\n    <div style=\"color: red\">Foo</div>\n    <div>Bar</div>\n" (
    html.select "div" fun _ => html.addToAttribute "style" "padding: 0" "; "))
    ["<div style=\"color: red; padding: 0\">Foo</div>",
      "<div style=\"padding: 0\">Bar</div>"] = true := by docs

/-- replace_attribute_value_if_exists -/
example : shows (result "\n    <a href=\"foo.html\">Foo</a>\n    <a>Bar</a>\n" (
    html.select "a" fun _ => html.replaceAttributeValueIfExists "href" "new.html"))
    ["<a href=\"new.html\">Foo</a>",
      "<a>Bar</a>"] = true := by docs

/-- set_attribute, set_attribute_with_value -/
example : shows (result "\n    <a href=\"foo.html\">Foo</a>\n    <a>Bar</a>\n" (
    html.select "a" fun _ => html.setAttribute "href" (some "new.html")))
    ["<a href=\"new.html\">Foo</a>",
      "<a href=\"new.html\">Bar</a>"] = true := by docs

/-- set_empty_attribute -/
example : shows (result "\n    <input name=\"one\" disabled>\n    <input name=\"two\">\n" (
    html.select "input" fun _ => html.setAttribute "disabled" none))
    ["<input name=\"one\" disabled>",
      "<input name=\"two\" disabled>"] = true := by docs

/-- remove_attribute -/
example : shows (result "\n    <input name=\"info\" disabled>\n" (
    html.select "input" fun _ => html.removeAttribute "disabled"))
    ["<input name=\"info\">"] = true := by docs

/-- add_class -/
example : shows (result "\n    <input id=\"one\" class=\"required\">\n    <input id=\"two\">\n" (
    html.select "input" fun _ => html.addClass "field"))
    ["<input id=\"one\" class=\"required field\">",
      "<input id=\"two\" class=\"field\">"] = true := by docs

/-- remove_class -/
example : shows (result "\n    <div id=\"one\" class=\"warning\">Foo</div>\n    <div id=\"two\" class=\"warning msg\">Bar</div>\n" (
    html.select "div" fun _ => html.removeClass "warning"))
    ["<div id=\"one\">Foo</div>",
      "<div id=\"two\" class=\"msg\">Bar</div>"] = true := by docs

/-- remove_id -/
example : shows (result "\n    <div id=\"foo\">Foo</div>\n" (
    html.select "#foo" fun _ => html.removeId))
    ["<div>Foo</div>"] = true := by docs

/-- set_id -/
example : shows (result "\n    <p>Foo</p>\n    <p>Bar</p>\n" (
    html.selectDirectOnce "p" (html.setId "first-paragraph")))
    ["<p id=\"first-paragraph\">Foo</p>",
      "<p>Bar</p>"] = true := by docs

/-! ## `text/value.rs`, `text/data.rs` -/

/-- Value -/
example : shows (result "\n    <span class=\"field-name\">field-name</span>\n    <input>\n" (
    (html.select "input" fun _ => html.setAttribute "name" (some (fromUnencodedStr "username".toList))).select
      ".field-name" fun _ => html.replaceContents (dyn "username")))
    ["<span class=\"field-name\">username</span>",
      "<input name=\"username\">"] = true := by docs

/-- Data -/
example : shows (result "\n    <div id=\"content\"></div>\n" (
    html.select "div" fun _ => html.replaceContents (dyn "new data")))
    ["<div id=\"content\">new data</div>"] = true := by docs

/-! ## `select.rs` -/

/-- Id -/
example : shows (result "\n    <a id=\"home-link\">Home</a>\n    <a id=\"contact-link\">Contact</a>\n" (
    (html.select (ident "home-link") fun _ => html.setAttribute "href" (some "index.html")).select
      (ident "contact-link") fun _ => html.setAttribute "href" (some "contact.html")))
    ["id=\"home-link\" href=\"index.html\"",
      "id=\"contact-link\" href=\"contact.html\""] = true := by docs

/-- Tag -/
example : shows (result "\n    <html>\n        <head>\n            <title></title>\n        </head>\n        <body/>\n    </html>\n" (
    (html.select (tag "title") fun _ => html.replaceContents "New Title").select
      (tag "body") fun _ => html.replaceContents "Content"))
    ["<title>New Title</title>",
      "<body>Content</body>"] = true := by docs

/-- Class -/
example : shows (result "\n    <a class=\"home-link\">Home</a>\n    <a class=\"contact-link\">Contact</a>\n" (
    (html.select (cls "home-link") fun _ => html.setAttribute "href" (some "index.html")).select
      (cls "contact-link") fun _ => html.setAttribute "href" (some "contact.html")))
    ["class=\"home-link\" href=\"index.html\"",
      "class=\"contact-link\" href=\"contact.html\""] = true := by docs

/-- Classes -/
example : shows (result "\n    <a class=\"home navlink\">Home</a>\n    <a class=\"contact navlink\">Contact</a>\n" (
    (html.select (classes ["home", "navlink"]) fun _ => html.setAttribute "href" (some "index.html")).select
      (classes ["navlink", "contact"]) fun _ => html.setAttribute "href" (some "contact.html")))
    ["class=\"home navlink\" href=\"index.html\"",
      "class=\"contact navlink\" href=\"contact.html\""] = true := by docs

/-- Static -/
example : shows (result "\n    <html>\n        <head><title>Title</title></head>\n        <body>\n            <div id=\"message\">\n                Hello\n                <span class=\"current-user\">Current User</span>!\n            </div>\n        </body>\n    </html>\n" (
    (html.select "title" fun _ => html.replaceContents "Welcome Page").select "#message" fun _ =>
      html.subselect ".current-user" fun _ => html.replaceContents "Foo"))
    ["<title>Welcome Page</title>",
      "<span class=\"current-user\">Foo</span>"] = true := by docs

end Fuser.Tests
