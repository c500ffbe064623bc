import Verif.Model.Event
import Verif.Spec.Text

/-!
# Specification of attributes, ids and classes
-/

namespace Fuser.Spec

/-- `w` is a word of `v`: a maximal non-empty run of characters without white space. -/
def IsWord (w v : List Char) : Prop :=
  w ≠ [] ∧ (∀ c ∈ w, ¬ Space c) ∧
  ∃ pre post, v = pre ++ w ++ post ∧
    (∀ c, pre.getLast? = some c → Space c) ∧ (∀ c, post.head? = some c → Space c)

/-- The attribute has the given name, ignoring case. -/
def Named (n : List Char) (a : Attribute) : Prop := SameName a.name.str n

/-- The attribute is a class attribute with `c` (ignoring case) among its classes. -/
def CarriesClass (c : List Char) (a : Attribute) : Prop :=
  Named "class".toList a ∧ ∃ v, a.value = some v ∧ ∃ w, IsWord w v.str ∧ SameName w c

/-- Some class attribute has the class. -/
def HasClass (c : List Char) (as : Attributes) : Prop := ∃ a ∈ as, CarriesClass c a

/-- Some id attribute has the value `x`, ignoring case. -/
def HasId (x : List Char) (as : Attributes) : Prop :=
  ∃ a ∈ as, Named "id".toList a ∧ ∃ v, a.value = some v ∧ SameName v.str x

open Classical in
/-- The attributes of a given name, in order. -/
noncomputable def ofName (n : List Char) (as : Attributes) : Attributes :=
  as.filter fun a => decide (Named n a)

open Classical in
/-- The attributes of all other names, in order. -/
noncomputable def notOfName (n : List Char) (as : Attributes) : Attributes :=
  as.filter fun a => decide (¬ Named n a)

/-- `ws` are the words of `v`, in order: runs without white space, with white space between. -/
inductive Words : List Char → List (List Char) → Prop
  | done {v : List Char} : (∀ c ∈ v, Space c) → Words v []
  | word {gap w rest : List Char} {ws : List (List Char)} : (∀ c ∈ gap, Space c) → w ≠ [] →
      (∀ c ∈ w, ¬ Space c) → (∀ c, rest.head? = some c → Space c) → Words rest ws →
      Words (gap ++ w ++ rest) (w :: ws)

open Classical in
/-- The words other than `x` (ignoring case), in order. -/
noncomputable def otherWords (x : List Char) (ws : List (List Char)) : List (List Char) :=
  ws.filter fun w => decide (¬ SameName w x)

/-- The second list is the first without the class `x`, attribute by attribute and in order. An
attribute that does not carry the class stays as it is. One that carries the class keeps its name;
its value becomes the other words, in order, with single spaces between. If there are no other words
the attribute goes. -/
inductive WithoutClass (x : List Char) : Attributes → Attributes → Prop
  | nil : WithoutClass x [] []
  | other {a : Attribute} {as bs : Attributes} : ¬ CarriesClass x a → WithoutClass x as bs →
      WithoutClass x (a :: as) (a :: bs)
  | gone {a : Attribute} {as bs : Attributes} {v : Value} {ws : List (List Char)} :
      CarriesClass x a → a.value = some v → Words v.str ws → otherWords x ws = [] →
      WithoutClass x as bs → WithoutClass x (a :: as) bs
  | rest {a : Attribute} {as bs : Attributes} {v u : Value} {ws : List (List Char)} :
      CarriesClass x a → a.value = some v → Words v.str ws → otherWords x ws ≠ [] →
      u.str = [' '].intercalate (otherWords x ws) → WithoutClass x as bs →
      WithoutClass x (a :: as) (⟨a.name, some u⟩ :: bs)

end Fuser.Spec
