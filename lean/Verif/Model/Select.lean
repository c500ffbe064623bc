import Verif.Model.Event

/-!
# Selectors

Model of `src/select.rs`.
-/

namespace Fuser

/-- `IdError`. `select.rs` 75-83. -/
inductive IdError
  | identifier (error : IdentifierError)
  deriving DecidableEq, Repr

/-- `TagError`. `select.rs` 182-190. -/
inductive TagError
  | identifier (error : IdentifierError)
  deriving DecidableEq, Repr

/-- `ClassError`. `select.rs` 300-308. -/
inductive ClassError
  | identifier (error : IdentifierError)
  deriving DecidableEq, Repr

/-- `ClassesError`. `select.rs` 409-420. -/
inductive ClassesError
  | empty
  | identifier (index : Nat) (error : IdentifierError)
  deriving DecidableEq, Repr

/-- `select::Error`; `IdError`, `TagError`, `ClassError` and `ClassesError` are converted into it
when they reach a stream. `select.rs` 752-773. -/
inductive SelectorError
  | tag (error : IdentifierError)
  | id (error : IdentifierError)
  | class (error : IdentifierError)
  | classes (error : ClassesError)
  deriving DecidableEq, Repr

/-- `StaticError`. `select.rs` 546-566. -/
inductive StaticError
  | unrestricted
  | tag (error : IdentifierError)
  | id (error : IdentifierError)
  | class (index : Nat) (error : IdentifierError)
  deriving DecidableEq, Repr

/-- The selectors of the crate, and user-defined implementations of the `Selector` trait.
`select.rs` 20-24 (trait), 155-158 (`Id`), 266-269 (`Tag`), 380-383 (`Class`),
503-506 (`Classes`), 657-662 (`Static`). -/
inductive Selector
  | id (identifier : Identifier)
  | tag (identifier : Identifier)
  | class (identifier : Identifier)
  | classes (identifiers : List Identifier)
  | static (tag id classes : Option Str)
  | custom (f : Event → Bool)

/-- `Id::from_str`. `select.rs` 160-169. -/
def Selector.idFromStr (value : Str) : Except IdError Selector :=
  match Identifier.fromStr value with
  | .ok i => .ok (.id i)
  | .error e => .error (.identifier e)

/-- `Tag::from_str`. `select.rs` 278-287. -/
def Selector.tagFromStr (value : Str) : Except TagError Selector :=
  match Identifier.fromStr value with
  | .ok i => .ok (.tag i)
  | .error e => .error (.identifier e)

/-- `Class::from_str`. `select.rs` 385-394. -/
def Selector.classFromStr (value : Str) : Except ClassError Selector :=
  match Identifier.fromStr value with
  | .ok i => .ok (.class i)
  | .error e => .error (.identifier e)

/-- The loop of `Classes::from_str_iterator`. `select.rs` 514-520. -/
def classesLoop : Nat → List Str → List Identifier → Except ClassesError (List Identifier)
  | _, [], acc => .ok acc
  | index, v :: vs, acc =>
    match Identifier.fromStr v with
    | .ok i => classesLoop (index + 1) vs (acc ++ [i])
    | .error e => .error (.identifier index e)

/-- `Classes::from_str_iterator`. `select.rs` 511-525. -/
def Selector.classesFromStrIterator (values : List Str) : Except ClassesError Selector := do
  let identifiers ← classesLoop 0 values []
  if identifiers.isEmpty then throw .empty
  return .classes identifiers

/-- The loop over the class parts of a static selector. `select.rs` 733-736. -/
def validateClasses : Nat → List Str → Except StaticError Unit
  | _, [] => .ok ()
  | index, c :: cs =>
    match validate c with
    | .error e => .error (.class index e)
    | .ok _ => validateClasses (index + 1) cs

/-- The tag part of a static selector. `select.rs` 703-715. -/
def staticTagPart (rest : Str) : M (Except StaticError (Option Str × Str)) := do
  let tagLen := (findChar (fun c => c == '#' || c == '.') rest).getD (utf8Len rest)
  if tagLen = 0 then return .ok (none, rest)
  match validate (← sliceTo rest tagLen) with
  | .error e => return .error (.tag e)
  | .ok tag => return .ok (some tag, ← sliceFrom rest tagLen)

/-- The id part of a static selector. `select.rs` 716-730. -/
def staticIdPart (rest : Str) : M (Except StaticError (Option Str × Str × Bool)) := do
  if rest.head? = some '#' then
    let rest ← sliceFrom rest ('#').utf8Size
    let (id, rest, expectClass) ← match findChar (· == '.') rest with
      | some len => do
        pure (← sliceTo rest len, ← sliceFrom rest (('.').utf8Size + len), true)
      | none => do pure (rest, ← sliceFrom rest (utf8Len rest), false)
    match validate id with
    | .error e => return .error (.id e)
    | .ok id => return .ok (some id, rest, expectClass)
  else if ['.'].isPrefixOf rest then
    return .ok (none, ← sliceFrom rest ('.').utf8Size, true)
  else return .ok (none, rest, false)

/-- The class parts of a static selector and the final check. `select.rs` 731-745. -/
def staticFinish (mTag : Option Str) :
    Except StaticError (Option Str × Str × Bool) → Except StaticError Selector
  | .error e => .error e
  | .ok (mId, rest, expectClass) =>
    let mClasses : Except StaticError (Option Str) :=
      if expectClass then
        match validateClasses 0 (splitBy (· == '.') rest) with
        | .error e => .error e
        | .ok () => .ok (some rest)
      else .ok none
    match mClasses with
    | .error e => .error e
    | .ok mClasses =>
      if mTag = none ∧ mId = none ∧ mClasses = none then .error .unrestricted
      else .ok (.static mTag mId mClasses)

/-- `IntoSelector for &'static str`. `select.rs` 692-746. -/
def Selector.ofStatic (self : Str) : M (Except StaticError Selector) := do
  match ← staticTagPart self with
  | .error e => return .error e
  | .ok (mTag, rest) => return staticFinish mTag (← staticIdPart rest)

/-- `Selector::matches`. `select.rs` 171-180 (`Id`), 289-298 (`Tag`), 396-405 (`Class`),
528-542 (`Classes`), 664-690 (`Static`). -/
def Selector.matches : Selector → Event → Bool
  | .id i, e =>
    match e.attributes with
    | some as => Attributes.hasId as i.str
    | none => false
  | .tag i, e =>
    match e.elementTagStart with
    | some t => t.eq i
    | none => false
  | .class i, e =>
    match e.attributes with
    | some as => Attributes.hasClass as i.str
    | none => false
  | .classes is, e =>
    match e.attributes with
    | some as => is.all fun i => Attributes.hasClass as i.str
    | none => false
  | .static mTag mId mClasses, e =>
    match e.elementTagStart, e.attributes with
    | some t, some as =>
      (match mTag with
        | some m => t.isEq m
        | none => true) &&
      (match mId with
        | some m => Attributes.hasId as m
        | none => true) &&
      (match mClasses with
        | some cs => (splitBy (· == '.') cs).all fun c => Attributes.hasClass as c
        | none => true)
    | _, _ => false
  | .custom f, e => f e

end Fuser
