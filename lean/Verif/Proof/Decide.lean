import Verif.Spec.Keep

/-!
# Decision procedures for the examples
-/

namespace Fuser.Spec

instance (c d : Char) : Decidable (SameLetter c d) := by unfold SameLetter; infer_instance

instance decidableSameName : (a b : List Char) → Decidable (SameName a b)
  | [], [] => .isTrue .nil
  | [], _ :: _ => .isFalse nofun
  | _ :: _, [] => .isFalse nofun
  | c :: a, d :: b =>
    match (inferInstance : Decidable (SameLetter c d)), decidableSameName a b with
    | .isTrue h, .isTrue h' => .isTrue (.cons h h')
    | .isFalse h, _ => .isFalse fun | .cons h' _ => h h'
    | _, .isFalse h => .isFalse fun | .cons _ h' => h h'

instance (s : List Char) : Decidable (Ascii s) := by unfold Ascii; infer_instance

instance (s : List Char) : Decidable (ValidIdent s) := by unfold ValidIdent; infer_instance

instance (s : List Char) : Decidable (Name s) := by unfold Name; infer_instance

instance (s : List Char) : Decidable (VoidName s) := by unfold VoidName; infer_instance

instance (s : List Char) : Decidable (RawName s) := by unfold RawName; infer_instance

instance (as : Attributes) : Decidable (SpelledAttributes as) :=
  inferInstanceAs (Decidable (∀ a ∈ as, Name a.name.str ∧ ∀ v ∈ a.value, '"' ∉ v.str))

instance (e : Event) : Decidable (Spelled e) := by
  cases e <;> unfold Spelled <;> infer_instance

instance (e : Event) : Decidable (Plain e) := by
  cases e <;> unfold Plain <;> infer_instance

instance (op : AttrOp) : Decidable (PlainChange op) :=
  match op with
  | .removeClass _ => .isTrue trivial
  | .removeAttribute _ => .isTrue trivial
  | .addAttribute n v => inferInstanceAs (Decidable (Name n.str ∧ ∀ x ∈ v, '"' ∉ x.str))
  | .replaceAttribute n v => inferInstanceAs (Decidable (Name n.str ∧ ∀ x ∈ v, '"' ∉ x.str))
  | .addToAttribute n v s => inferInstanceAs (Decidable (Name n.str ∧ '"' ∉ v.str ∧ '"' ∉ s.str))
  | .setAttribute n v => inferInstanceAs (Decidable (Name n.str ∧ ∀ x ∈ v, '"' ∉ x.str))

end Fuser.Spec
