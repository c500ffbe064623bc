import Verif.Model.Text

/-!
# Events, attributes, rendering

Model of `src/event.rs` 1-448.
-/

namespace Fuser

/-- `Attribute`. `event.rs` 342-346. -/
structure Attribute where
  name : Identifier
  value : Option Value
  deriving DecidableEq, Repr

/-- `Attributes`. `event.rs` 199-202. Simplification: no reference counting. -/
abbrev Attributes := List Attribute

/-- `Event(EventKind)`. `event.rs` 18-52. Lean equality is structural; the derived Rust
`PartialEq` is `Event.eq`. -/
inductive Event
  | noop
  | doctype (content : EncodedText)
  | comment (content : EncodedText)
  | data (content : Data)
  | rawData (content : EncodedText)
  | openingTag (tag : Identifier) (attributes : Attributes)
  | closingTag (tag : Identifier)
  | selfClosedTag (tag : Identifier) (attributes : Attributes)
  | voidTag (tag : Identifier) (attributes : Attributes)
  deriving DecidableEq, Repr

/-- Derived `PartialEq for Attribute`: identifiers by `identifier_eq`. `event.rs` 342. -/
def Attribute.eq (a b : Attribute) : Bool := a.name.eq b.name && a.value == b.value

/-- Derived `PartialEq for Attributes` (element by element). `event.rs` 199. -/
def Attributes.eq : Attributes → Attributes → Bool
  | [], [] => true
  | a :: as, b :: bs => a.eq b && Attributes.eq as bs
  | _, _ => false

/-- Derived `PartialEq for Event`. `event.rs` 19, 22. -/
def Event.eq : Event → Event → Bool
  | .noop, .noop => true
  | .doctype a, .doctype b => a == b
  | .comment a, .comment b => a == b
  | .data a, .data b => a == b
  | .rawData a, .rawData b => a == b
  | .openingTag t as, .openingTag u bs => t.eq u && Attributes.eq as bs
  | .closingTag t, .closingTag u => t.eq u
  | .selfClosedTag t as, .selfClosedTag u bs => t.eq u && Attributes.eq as bs
  | .voidTag t as, .voidTag u bs => t.eq u && Attributes.eq as bs
  | _, _ => false

/-- `Event::element_tag_start`. `event.rs` 56-63. -/
def Event.elementTagStart : Event → Option Identifier
  | .openingTag tag _ => some tag
  | .selfClosedTag tag _ => some tag
  | .voidTag tag _ => some tag
  | _ => none

/-- `Event::attributes`. `event.rs` 65-72. -/
def Event.attributes : Event → Option Attributes
  | .openingTag _ attributes => some attributes
  | .selfClosedTag _ attributes => some attributes
  | .voidTag _ attributes => some attributes
  | _ => none

/-- `Event::description`. `event.rs` 75-87. -/
def Event.description : Event → Str
  | .noop => "noop".toList
  | .doctype _ => "doctype".toList
  | .comment _ => "comment".toList
  | .data _ => "content".toList
  | .rawData _ => "raw content".toList
  | .openingTag _ _ => "opening tag".toList
  | .closingTag _ => "closing tag".toList
  | .selfClosedTag _ _ => "self-closed tag".toList
  | .voidTag _ _ => "void tag".toList

/-- `Event::closing_tag_name`. `event.rs` 109-114. -/
def Event.closingTagName : Event → Option Identifier
  | .closingTag tag => some tag
  | _ => none

/-- `Event::opening_tag_name`. `event.rs` 116-121. -/
def Event.openingTagName : Event → Option Identifier
  | .openingTag tag _ => some tag
  | _ => none

/-- `Event::is_opening_tag_for`. `event.rs` 89-93. -/
def Event.isOpeningTagFor (e : Event) (tagName : Identifier) : Bool :=
  (e.openingTagName.map fun name => name.eq tagName).getD false

/-- `Event::is_closing_tag_for_str`. `event.rs` 95-100. -/
def Event.isClosingTagForStr (e : Event) (tagName : Str) : Bool :=
  match e with
  | .closingTag tag => tag.isEq tagName
  | _ => false

/-- `Event::is_closing_tag_for`. `event.rs` 102-107. -/
def Event.isClosingTagFor (e : Event) (tagName : Identifier) : Bool :=
  match e with
  | .closingTag tag => tag.eq tagName
  | _ => false

/-- `Display for Attribute`. `event.rs` 437-448. -/
def Attribute.render (a : Attribute) : Str :=
  a.name.render ++
  match a.value with
  | some v => "=\"".toList ++ v.render ++ "\"".toList
  | none => []

/-- `Display for Attributes`: the loop, with its `first` flag. `event.rs` 326-340. -/
def Attributes.renderLoop : Bool → Attributes → Str
  | _, [] => []
  | first, a :: as => (if first then [] else " ".toList) ++ a.render ++ renderLoop false as

/-- `Display for Attributes`. `event.rs` 326-340. -/
def Attributes.render (as : Attributes) : Str := Attributes.renderLoop true as

/-- `Display for TagDisplay`. `event.rs` 187-197. -/
def tagDisplay (tag : Identifier) (as : Attributes) : Str :=
  tag.render ++ if as.isEmpty then [] else " ".toList ++ Attributes.render as

/-- `Display for Event`. `event.rs` 158-180. -/
def Event.render : Event → Str
  | .noop => []
  | .doctype content => "<!doctype ".toList ++ content.render ++ ">".toList
  | .comment content => "<!--".toList ++ content.render ++ "-->".toList
  | .data content => content.render
  | .rawData content => content.render
  | .selfClosedTag tag as => "<".toList ++ tagDisplay tag as ++ " />".toList
  | .openingTag tag as => "<".toList ++ tagDisplay tag as ++ ">".toList
  | .voidTag tag as => "<".toList ++ tagDisplay tag as ++ ">".toList
  | .closingTag tag => "</".toList ++ tag.render ++ ">".toList

/-- `Attributes::add_to_attribute`: the two loops over one iterator. `event.rs` 212-242. -/
def Attributes.addToAttribute (as : Attributes) (name : Identifier) (newValue separator : Value) :
    Attributes :=
  match as with
  | [] => [⟨name, some newValue⟩]
  | a :: rest =>
    if a.name.eq name then
      ⟨a.name, some (match a.value with
        | some v => EncodedText.join (EncodedText.join v separator) newValue
        | none => newValue)⟩ :: rest
    else a :: Attributes.addToAttribute rest name newValue separator

/-- `Attributes::replace_attribute`. `event.rs` 244-256. -/
def Attributes.replaceAttribute (as : Attributes) (name : Identifier) (value : Option Value) :
    Attributes :=
  let kept := as.filter fun a => !a.name.eq name
  if as.length ≠ kept.length then kept ++ [⟨name, value⟩] else kept

/-- `Attributes::add_attribute`. `event.rs` 258-263. -/
def Attributes.addAttribute (as : Attributes) (name : Identifier) (value : Option Value) :
    Attributes :=
  as ++ [⟨name, value⟩]

/-- `Attributes::remove_attribute`. `event.rs` 265-274. -/
def Attributes.removeAttribute (as : Attributes) (name : Identifier) : Attributes :=
  as.filter fun a => !a.name.eq name

/-- `Attributes::set_attribute`. `event.rs` 276-286. -/
def Attributes.setAttribute (as : Attributes) (name : Identifier) (value : Option Value) :
    Attributes :=
  (as.filter fun a => !a.name.eq name) ++ [⟨name, value⟩]

/-- `Attribute::classes` with the `Classes` iterator. `event.rs` 348-369, 380-387. -/
def Attribute.classes (a : Attribute) : Option (List Str) :=
  if a.name.isEq "class".toList then
    a.value.map fun v => (splitWhitespace v.str).filter fun w => !w.isEmpty
  else none

/-- `Attribute::has_class`. `event.rs` 389-398. -/
def Attribute.hasClass (a : Attribute) (name : Str) : Bool :=
  match a.classes with
  | some classes => classes.any fun c => identifierEq name c
  | none => false

/-- The loop building the new class list. `event.rs` 410-418. -/
def joinClasses (name : Str) : List Str → EncodedText → EncodedText
  | [], acc => acc
  | c :: cs, acc =>
    joinClasses name cs <|
      if identifierEq name c then acc
      else
        EncodedText.pushEncodedStr
          (if EncodedText.isEmpty acc then acc else EncodedText.pushEncodedStr acc " ".toList) c

/-- `make_without` inside `Attribute::remove_class`. `event.rs` 402-420. -/
def Attribute.makeWithout (a : Attribute) (name : Str) : Option Value :=
  if !a.hasClass name then none
  else match a.classes with
    | none => none
    | some classes => some (joinClasses name classes EncodedText.new)

/-- `Attribute::remove_class`. `event.rs` 400-434. -/
def Attribute.removeClass (a : Attribute) (name : Str) : Option Attribute :=
  match a.makeWithout name with
  | none => some a
  | some newClasses =>
    if EncodedText.isEmpty newClasses then none else some ⟨a.name, some newClasses⟩

/-- `Attributes::has_class`. `event.rs` 303-310. -/
def Attributes.hasClass (as : Attributes) (name : Str) : Bool :=
  as.any fun a => a.hasClass name

/-- `Attributes::remove_class`. `event.rs` 288-301. -/
def Attributes.removeClass (as : Attributes) (name : Identifier) : Attributes :=
  if Attributes.hasClass as name.str then as.filterMap fun a => a.removeClass name.str
  else as

/-- `Attributes::has_id`. `event.rs` 312-323. -/
def Attributes.hasId (as : Attributes) (id : Str) : Bool :=
  as.any fun a =>
    a.name.isEq "id".toList &&
      match a.value with
      | some v => identifierEq v.str id
      | none => false

end Fuser
