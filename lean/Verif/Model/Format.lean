import Verif.Model.Parse

/-!
# Display with format parameters

`{}` shows texts and templates without parameters; that is `render`. This is the model of the same
`Display` instances for `{:>8}`, `{:.3}` and the like. `fmt::Display::fmt(x, fmt)` hands the
parameters on, `write!(fmt, "{}", x)` starts without parameters.
-/

namespace Fuser

/-- Alignments of format parameters. (Rust standard library.) -/
inductive Alignment
  | left
  | center
  | right
  deriving DecidableEq, Repr

/-- The parameters of a `fmt::Formatter` that matter for text. (Rust standard library.) -/
structure FormatSpec where
  fill : Char := ' '
  align : Option Alignment := none
  width : Option Nat := none
  precision : Option Nat := none
  deriving DecidableEq, Repr

/-- The fill characters before and after a text, with left alignment as default.
(Rust standard library, `Formatter::padding`.) -/
def FormatSpec.padding (f : FormatSpec) (n : Nat) (s : Str) : Str :=
  match f.align with
  | some .right => List.replicate n f.fill ++ s
  | some .center => List.replicate (n / 2) f.fill ++ s ++ List.replicate ((n + 1) / 2) f.fill
  | some .left => s ++ List.replicate n f.fill
  | none => s ++ List.replicate n f.fill

/-- `Formatter::pad`, used by `Display for str`. (Rust standard library.) -/
def FormatSpec.pad (f : FormatSpec) (s : Str) : Str :=
  let s := match f.precision with
    | some max => s.take max
    | none => s
  match f.width with
  | none => s
  | some width => if width ≤ s.length then s else f.padding (width - s.length) s

/-- `Display`. `text/deferred.rs` 32-40, with the forwarding instances of the newtypes
(`text/base.rs` 43-48, `text/encoded.rs` 110-115 and 137-142, `text/value.rs` 47-52,
`text/data.rs` 43-48). Tendrils are displayed like `str`. -/
def Deferred.format (f : FormatSpec) : Deferred → Str
  | .static s => f.pad s
  | .actual s => f.pad s

/-- `Display`. `text/identifier.rs` 150-155. -/
def Identifier.format (f : FormatSpec) (i : Identifier) : Str := i.text.format f

/-- `Display for Attribute`. `event.rs` 437-448. -/
def Attribute.format (f : FormatSpec) (a : Attribute) : Str :=
  a.name.format f ++
  match a.value with
  | some v => "=\"".toList ++ v.format f ++ "\"".toList
  | none => []

/-- `Display for Attributes`: the loop, with its `first` flag. `event.rs` 326-340. -/
def Attributes.formatLoop (f : FormatSpec) : Bool → Attributes → Str
  | _, [] => []
  | first, a :: as => (if first then [] else " ".toList) ++ a.format f ++ formatLoop f false as

/-- `Display for TagDisplay`. `event.rs` 187-197. -/
def tagDisplayFormat (f : FormatSpec) (tag : Identifier) (as : Attributes) : Str :=
  tag.format f ++ if as.isEmpty then [] else " ".toList ++ Attributes.formatLoop f true as

/-- `Display for Event`. `event.rs` 158-180. Only the texts get the parameters; everything in
`write!` is shown without. -/
def Event.format (f : FormatSpec) : Event → Str
  | .noop => []
  | .doctype content => "<!doctype ".toList ++ content.format {} ++ ">".toList
  | .comment content => "<!--".toList ++ content.format {} ++ "-->".toList
  | .data content => content.format f
  | .rawData content => content.format f
  | .selfClosedTag tag as => "<".toList ++ tagDisplayFormat {} tag as ++ " />".toList
  | .openingTag tag as => "<".toList ++ tagDisplayFormat {} tag as ++ ">".toList
  | .voidTag tag as => "<".toList ++ tagDisplayFormat {} tag as ++ ">".toList
  | .closingTag tag => "</".toList ++ tag.format {} ++ ">".toList

/-- `Display for Template`. `template.rs` 369-377. -/
def Template.format (f : FormatSpec) (t : Template) : Str := t.events.flatMap (Event.format f)

end Fuser
