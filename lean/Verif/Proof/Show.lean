import Verif.Spec.Show

/-!
# The text of events
-/

namespace Fuser
open Spec

theorem attribute_text (a : Attribute) : ' ' :: a.render = attributeText a := by
  unfold Attribute.render attributeText
  have hn : a.name.render = a.name.str := rfl
  rw [hn]
  cases a.value with
  | none => simp
  | some v =>
    have hv : v.render = v.str := rfl
    simp [hv]

theorem renderLoop_text (as : Attributes) :
    Attributes.renderLoop false as = (as.map attributeText).flatten := by
  induction as with
  | nil => rfl
  | cons a as ih =>
    rw [List.map_cons, List.flatten_cons, ← ih, ← attribute_text]
    rfl

theorem tagDisplay_text (t : Identifier) (as : Attributes) :
    "<".toList ++ tagDisplay t as = startText t as := by
  cases as with
  | nil => rfl
  | cons a as =>
    unfold startText
    rw [← renderLoop_text]
    rfl

theorem event_text (e : Event) : e.render = eventText e := by
  cases e with
  | openingTag t as =>
    change "<".toList ++ tagDisplay t as ++ ">".toList = startText t as ++ ['>']
    rw [tagDisplay_text]
    rfl
  | voidTag t as =>
    change "<".toList ++ tagDisplay t as ++ ">".toList = startText t as ++ ['>']
    rw [tagDisplay_text]
    rfl
  | selfClosedTag t as =>
    change "<".toList ++ tagDisplay t as ++ " />".toList = startText t as ++ " />".toList
    rw [tagDisplay_text]
  | doctype c => cases c <;> rfl
  | comment c => cases c <;> rfl
  | data c => cases c <;> rfl
  | rawData c => cases c <;> rfl
  | closingTag t =>
    change "</".toList ++ t.str ++ ">".toList = "</".toList ++ t.str ++ ['>']
    rfl
  | noop => rfl

end Fuser
