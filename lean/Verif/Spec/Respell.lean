import Verif.Spec.Alike

/-!
# Specification of texts that differ in spelling only
-/

namespace Fuser.Spec

/-- The second document spells the same page in another way. Every tag, comment, doctype and text
may be spelled in any way the grammar allows for an event that differs in the case of names only;
raw text stays as it is. The grammar leaves open the white space inside tags: after `<`, after the
slash, after names, around `=`, before the characters of a value and before `>`; and the case of
`doctype`. -/
inductive Respelled : Doc → Doc → Prop
  | nil : Respelled [] []
  | raw {c p d d'} : Respelled d d' → Respelled ((.rawData c, p) :: d) ((.rawData c, p) :: d')
  | piece {e e' p p' d d'} : LikeEvent .case e e' → Piece e' p' → Respelled d d' →
      Respelled ((e, p) :: d) ((e', p') :: d')

end Fuser.Spec
