import Verif.Proof.Calculus
import Verif.Props.Laws

/-!
# A calculus of calls
-/

namespace Fuser

open Spec

/-- C105. Calls can be exchanged by the rules of `SameCalls`, at any place in a chain and inside of
builders, and the result on every page stays the same, including the error if there is one. -/
theorem C105_calculus {k : Kind} {p q : Prog .gen k} (h : SameCalls p q) (t : Template)
    (ht : Page t.events) (hp : WellNested p) (hq : WellNested q) :
    t.transform p = t.transform q := by
  rw [transform_eq p hp t ht, transform_eq q hq t ht, sameCalls_meaning h]

/-- C105: what was appended to the contents does not matter, if the contents are replaced. -/
theorem replace_appended {a : Kind} {p : Prog a .elem} {c d : Content} (h : NoErrors c) :
    SameCalls (Prog.replaceContents (Prog.appendContents p c) d) (Prog.replaceContents p d) :=
  .trans .contentsTwice (.inContents .refl (.trans .applyPrepend (.inPrepend
    (.trans .applyRemove (.trans (.inRemove .applySrc) (.removeAppend h))))))

/-- C105: the contents given to a template without elements. -/
theorem text_noErrors (s : String) : NoErrors (text s) := by
  intro e h
  simp [text, results] at h

/-- C105: of two changes of the id only the second one counts. -/
theorem setId_twice {a : Kind} {p : Prog a .elem} (x y : Identifier) :
    SameCalls (Prog.setId (Prog.setId p (.ok x)) (.ok y)) (Prog.setId p (.ok y)) :=
  .trans (.inFallible (.trans (.inAttr .fallible) (.setOver (validate_iff.1 rfl)
    (validate_iff.1 rfl) (SameName.refl _)))) .refl

/-- The items of a list get an id, then their contents, and then another id. -/
def idsAndContents : Prog .gen .gen :=
  Prog.select (Prog.select .src (.ok (.tag li)) fun _ => Prog.setId .src (.ok (owned ['x'])))
    (.ok (.tag li)) fun _ =>
      Prog.setId (Prog.replaceContents (Prog.appendContents .src (text "a")) (text "b"))
        (.ok (owned ['y']))

/-- One selection that gives contents and the second id. -/
def idAndContents : Prog .gen .gen :=
  Prog.select .src (.ok (.tag li)) fun _ =>
    Prog.replaceContents (Prog.setId .src (.ok (owned ['y']))) (text "b")

/-- C105: by the rules the first chain of calls is the second one. -/
theorem ids_once : SameCalls idsAndContents idAndContents := by
  have tagStarts : OnlyStarts (.tag li) := by
    intro e h
    cases e <;> first | rfl | cases h
  have inner : ∀ i : Nat, SameCalls
      (.apply (.attr .src (.setId (owned ['x']))) (.attr (Prog.replaceContents .src (text "b"))
        (.setId (owned ['y']))) : Prog .elem .elem)
      (Prog.replaceContents (Prog.setId .src (.ok (owned ['y']))) (text "b")) := by
    intro i
    refine .trans .applyAttr (.trans (.inAttr .applyContents) ?_)
    refine .trans .contentsAttr (.inContents ?_ .refl)
    refine .trans (.inAttr .applySrc) (.trans ?_ (.symm .fallible))
    exact .setOver (validate_iff.1 rfl) (validate_iff.1 rfl) (SameName.refl _)
  have first : SameCalls (Prog.select .src (.ok (.tag li)) fun _ =>
        Prog.setId .src (.ok (owned ['x'])) : Prog .gen .gen)
      (.selectRaw .src (.tag li) false fun _ => .attr .src (.setId (owned ['x']))) :=
    .trans .fallible (.inSelect .refl fun _ => .fallible)
  have second : ∀ i : Nat, SameCalls (Prog.setId (Prog.replaceContents
        (Prog.appendContents .src (text "a")) (text "b")) (.ok (owned ['y'])) : Prog .elem .elem)
      (.attr (Prog.replaceContents .src (text "b")) (.setId (owned ['y']))) :=
    fun _ => .trans .fallible (.inAttr (replace_appended (text_noErrors "a")))
  have fused : SameCalls
      (.selectRaw (.selectRaw .src (.tag li) false fun _ => .attr .src (.setId (owned ['x'])))
        (.tag li) false fun _ => .attr (Prog.replaceContents .src (text "b")) (.setId (owned ['y'])) :
        Prog .gen .gen)
      (.selectRaw .src (.tag li) false fun _ => .apply (.attr .src (.setId (owned ['x'])))
        (.attr (Prog.replaceContents .src (text "b")) (.setId (owned ['y'])))) := by
    refine .selectTwice tagStarts fun i => ⟨trivial, fun e h => ?_⟩
    cases e <;> first | exact h | cases h
  exact .inFallible (.trans (.inSelect first second) (.trans fused (.inSelect .refl inner)))

/-- C105: both chains on a page. -/
example : shownMeaning "<ul><li>p</li><li id=\"q\"><br></li></ul>" idsAndContents =
      some "<ul><li id=\"y\">b</li><li id=\"y\">b</li></ul>".toList ∧
    shownMeaning "<ul><li>p</li><li id=\"q\"><br></li></ul>" idAndContents =
      some "<ul><li id=\"y\">b</li><li id=\"y\">b</li></ul>".toList := by
  constructor <;> decide +kernel

/-- Four copies of the page made as two times two, then without items and line breaks. -/
def copiesCleared : Prog .gen .gen :=
  .selectRaw (.selectRaw (.repeat .src 2 fun _ => .repeat .src 2 fun _ => .src) (.tag li) false
      fun _ => (.remove .src : Prog .elem .gen)) (.tag (owned "br".toList)) false
    fun _ => (.remove .src : Prog .elem .gen)

/-- Four copies of the page, each one without items and line breaks. -/
def clearedCopies : Prog .gen .gen :=
  .repeat .src 4 fun _ => .selectRaw .src (anyOf (.tag li) (.tag (owned "br".toList))) false
    fun _ => (.remove .src : Prog .elem .gen)

/-- C105: by the rules about copies and removals the first chain is the second one. -/
theorem cleared_copies : SameCalls copiesCleared clearedCopies := by
  have starts : ∀ t, OnlyStarts (.tag t) := by
    intro t e h
    cases e <;> first | rfl | cases h
  refine .trans (.removals (starts _) (starts _)) (.trans (.inSelect .repeatRepeat fun _ => .refl) ?_)
  exact .selectCopies

/-- C105: both chains on a page. -/
example : shownMeaning "a<br><ul><li>p</li></ul>" copiesCleared =
      some "a<ul></ul>a<ul></ul>a<ul></ul>a<ul></ul>".toList ∧
    shownMeaning "a<br><ul><li>p</li></ul>" clearedCopies =
      some "a<ul></ul>a<ul></ul>a<ul></ul>a<ul></ul>".toList := by
  constructor <;> decide +kernel

/-- C105: the rules do not make everything equal. -/
example : ¬ SameCalls (.remove .src : Prog .gen .gen) .src := by
  intro h
  have := sameCalls_meaning h (.leaf (.voidTag li []) .nil)
  simp [meaning, removed, Forest.events] at this

end Fuser
