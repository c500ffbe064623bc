import Verif.Model.Stream

/-!
# The public transform calls

Model of the methods of `Api` in `src/transform.rs` that are not constructors of `Prog`, and of the
`Template` constructors that use transforms. The first argument is the transform so far. Boxing
(`into_boxed`, `apply_as_boxed`, `into_boxed_element`, `apply_as_boxed_element`, `transform.rs`
195-197, 541-548, 1116-1118, 1157-1164) only forwards and is `Prog.apply`; it changes the kind of
a stream at most as `Prog.forget` does.
-/

namespace Fuser

/-- The identifier `class` as written in `Api::add_class`; the `expect` cannot fail.
`transform.rs` 2014-2015. -/
def classIdentifier : Identifier := ⟨.static "class".toList⟩

/-- The identifier `id` as written in `Api::remove_id` and `Api::set_id`. `transform.rs` 2094,
2134-2135. -/
def idIdentifier : Identifier := ⟨.static "id".toList⟩

/-- The separator of `Api::add_class`, `Value::from_unencoded_static_str(" ")`.
`transform.rs` 2017. -/
def classSeparator : Value := .static " ".toList

/-- The modifier of `Api::add_class`. `transform.rs` 2012-2018. -/
def AttrOp.addClass (name : Identifier) : AttrOp :=
  .addToAttribute classIdentifier name.intoValue classSeparator

/-- The modifier of `Api::remove_id`. `transform.rs` 2092-2095. -/
def AttrOp.removeId : AttrOp := .removeAttribute idIdentifier

/-- The modifier of `Api::set_id`. `transform.rs` 2132-2137. -/
def AttrOp.setId (id : Identifier) : AttrOp := .setAttribute idIdentifier (some id.intoValue)

namespace Prog

variable {a k k' k₁ k₂ : Kind}

/-- `Fallible::new` on a result. `modifier/mod.rs` 116-120. -/
def fallible : Except StreamError (Prog a k) → Prog a k
  | .ok p => .fallOk p
  | .error e => .fallErr e

/-- `Api::select`. `transform.rs` 658-670. -/
def select (p : Prog a k) (s : Except StreamError Selector) (builder : Nat → Prog .elem k') :
    Prog a .gen :=
  fallible (s.map fun s => .selectRaw p s false builder)

/-- `Api::select_once`. `transform.rs` 700-712. -/
def selectOnce (p : Prog a k) (s : Except StreamError Selector) (builder : Prog .elem k') :
    Prog a .gen :=
  fallible (s.map fun s => .selectOnceRaw p s false builder)

/-- `Api::select_direct`. `transform.rs` 749-761. -/
def selectDirect (p : Prog a k) (s : Except StreamError Selector) (builder : Nat → Prog .elem k') :
    Prog a .gen :=
  fallible (s.map fun s => .selectRaw p s true builder)

/-- `Api::select_direct_once`. `transform.rs` 802-814. -/
def selectDirectOnce (p : Prog a k) (s : Except StreamError Selector) (builder : Prog .elem k') :
    Prog a .gen :=
  fallible (s.map fun s => .selectOnceRaw p s true builder)

/-- `Api::replace`. `transform.rs` 950-955, `modifier/replace.rs` 19-25. -/
def replace (p : Prog a k) (c : Content) : Prog a .gen :=
  .prepend (.remove p) c

/-- `Api::repeat_or_else`. `transform.rs` 1039-1055, `modifier/repeat.rs` 89-113. -/
def repeatOrElse (p : Prog a k) (n : Nat) (builder : Nat → Prog k k₁) (fallback : Prog k k₂) :
    Prog a .gen :=
  .orElse p n (.repeat .src n builder) fallback

/-- `Api::apply_if_else`; also `Api::apply_if` (with `fallback = src`), `Api::apply_with_option` and
`Api::apply_with_result`, where the builders get the wrapped value. `transform.rs` 292-303,
363-383, 420-443, 487-507; `modifier/apply.rs` 11-53. -/
def applyIfElse (p : Prog a k) (predicate : Bool) (builder fallback : Prog k k') : Prog a k' :=
  if predicate then .apply p builder else .apply p fallback

/-- `Api::apply_if`. `transform.rs` 292-303. -/
def applyIf (p : Prog a k) (predicate : Bool) (builder : Prog k k) : Prog a k :=
  if predicate then .apply p builder else p

/-- `Api::apply_with_option`. `transform.rs` 420-443. -/
def applyWithOption {T : Type} (p : Prog a k) (value : Option T) (someBuilder : T → Prog k k')
    (noneBuilder : Prog k k') : Prog a k' :=
  match value with
  | some v => .apply p (someBuilder v)
  | none => .apply p noneBuilder

/-- `Api::apply_with_result`. `transform.rs` 487-507. -/
def applyWithResult {T E : Type} (p : Prog a k) (value : Except E T) (okBuilder : T → Prog k k')
    (errBuilder : E → Prog k k') : Prog a k' :=
  match value with
  | .ok v => .apply p (okBuilder v)
  | .error e => .apply p (errBuilder e)

/-- `Api::subselect`. `transform.rs` 1238-1250, `modifier/select/subselect_any.rs` 21-50, 93-109. -/
def subselect (p : Prog a .elem) (s : Except StreamError Selector)
    (builder : Nat → Prog .elem k') : Prog a .elem :=
  fallible (s.map fun s => .contents p (.selectRaw .src s false builder))

/-- `Api::subselect_once`. `transform.rs` 1282-1294, `modifier/select/subselect_any.rs` 62-91,
112-132. -/
def subselectOnce (p : Prog a .elem) (s : Except StreamError Selector)
    (builder : Prog .elem k') : Prog a .elem :=
  fallible (s.map fun s => .contents p (.selectOnceRaw .src s false builder))

/-- `Api::subselect_direct`. `transform.rs` 1325-1337, `modifier/select/subselect_direct.rs` 21-50,
94-114. -/
def subselectDirect (p : Prog a .elem) (s : Except StreamError Selector)
    (builder : Nat → Prog .elem k') : Prog a .elem :=
  fallible (s.map fun s => .contents p (.selectRaw .src s true builder))

/-- `Api::subselect_direct_once`. `transform.rs` 1371-1383,
`modifier/select/subselect_direct.rs` 62-92, 117-137. -/
def subselectDirectOnce (p : Prog a .elem) (s : Except StreamError Selector)
    (builder : Prog .elem k') : Prog a .elem :=
  fallible (s.map fun s => .contents p (.selectOnceRaw .src s true builder))

/-- `Api::remove_contents`. `transform.rs` 1406-1408, `modifier/remove.rs` 31-65. -/
def removeContents (p : Prog a .elem) : Prog a .elem :=
  .contents p (.remove .src)

/-- `Api::prepend_contents`. `transform.rs` 1433-1440, `modifier/prepend.rs` 37-89. -/
def prependContents (p : Prog a .elem) (c : Content) : Prog a .elem :=
  .contents p (.prepend .src c)

/-- `Api::append_contents`. `transform.rs` 1464-1470, `modifier/append.rs` 38-89. -/
def appendContents (p : Prog a .elem) (c : Content) : Prog a .elem :=
  .contents p (.append .src c)

/-- `Api::replace_contents`. `transform.rs` 1495-1501, `modifier/replace.rs` 40-91. -/
def replaceContents (p : Prog a .elem) (c : Content) : Prog a .elem :=
  .contents p (replace .src c)

/-- `Api::repeat_contents`; the stored copies of the content are not element streams.
`transform.rs` 1530-1538, `modifier/repeat.rs` 210-252, 305-343. -/
def repeatContents (p : Prog a .elem) (n : Nat) (builder : Nat → Prog .gen k') : Prog a .elem :=
  .contents p (.repeat .src n builder)

/-- `Api::repeat_contents_or_else`. `transform.rs` 1590-1605, `modifier/repeat.rs` 261-302. -/
def repeatContentsOrElse (p : Prog a .elem) (n : Nat) (builder : Nat → Prog .gen k')
    (fallback : Prog .elem k₂) : Prog a .gen :=
  .orElse p n (repeatContents .src n builder) fallback

/-- An attribute modifier for a name that may be invalid. `transform.rs` 1676-1684 and the same
pattern in the other attribute calls. -/
def attrNamed (p : Prog a .elem) (name : Except IdentifierError Identifier)
    (op : Identifier → AttrOp) : Prog a .elem :=
  fallible ((name.mapError StreamError.identifier).map fun name => .attr p (op name))

/-- `Api::add_attribute`, `Api::add_attribute_with_value`, `Api::add_empty_attribute`.
`transform.rs` 1634-1641, 1670-1685, 1712-1722. -/
def addAttribute (p : Prog a .elem) (name : Except IdentifierError Identifier)
    (value : Option Value) : Prog a .elem :=
  attrNamed p name (.addAttribute · value)

/-- `Api::add_to_attribute`. `transform.rs` 1756-1773. -/
def addToAttribute (p : Prog a .elem) (name : Except IdentifierError Identifier)
    (value separator : Value) : Prog a .elem :=
  attrNamed p name (.addToAttribute · value separator)

/-- `Api::replace_attribute_value_if_exists`. `transform.rs` 1802-1817. -/
def replaceAttributeValueIfExists (p : Prog a .elem) (name : Except IdentifierError Identifier)
    (value : Value) : Prog a .elem :=
  attrNamed p name (.replaceAttribute · (some value))

/-- `Api::set_attribute`, `Api::set_attribute_with_value`, `Api::set_empty_attribute`.
`transform.rs` 1847-1854, 1884-1899, 1929-1939. -/
def setAttribute (p : Prog a .elem) (name : Except IdentifierError Identifier)
    (value : Option Value) : Prog a .elem :=
  attrNamed p name (.setAttribute · value)

/-- `Api::remove_attribute`. `transform.rs` 1964-1974. -/
def removeAttribute (p : Prog a .elem) (name : Except IdentifierError Identifier) :
    Prog a .elem :=
  attrNamed p name .removeAttribute

/-- `Api::add_class`. `transform.rs` 2005-2021. -/
def addClass (p : Prog a .elem) (name : Except IdentifierError Identifier) : Prog a .elem :=
  attrNamed p name .addClass

/-- `Api::remove_class`. `transform.rs` 2054-2064. -/
def removeClass (p : Prog a .elem) (name : Except IdentifierError Identifier) : Prog a .elem :=
  attrNamed p name .removeClass

/-- `Api::remove_id`. `transform.rs` 2090-2096. -/
def removeId (p : Prog a .elem) : Prog a .elem :=
  .attr p .removeId

/-- `Api::set_id`. `transform.rs` 2125-2140. -/
def setId (p : Prog a .elem) (id : Except IdentifierError Identifier) : Prog a .elem :=
  attrNamed p id .setId

end Prog

/-- `Template::with_element`. `template.rs` 270-285. -/
def Template.withElement (tag : Except IdentifierError Identifier) :
    Except IdentifierError Template := do
  let tag ← tag
  if isVoidTag tag.str then return ⟨[.voidTag tag []]⟩
  else return ⟨[.selfClosedTag tag []]⟩

/-- `Template::with_transformed_element`. `template.rs` 317-336. -/
def Template.withTransformedElement {k : Kind} (tag : Except IdentifierError Identifier)
    (builder : Prog .elem k) : Option (Except StreamError Template) :=
  match tag with
  | .error e => some (.error (.identifier e))
  | .ok tag =>
    match Template.withElement (.ok tag) with
    | .error e => some (.error (.identifier e))
    | .ok template => template.transform (Prog.selectOnce .src (.ok (.tag tag)) builder)

end Fuser
