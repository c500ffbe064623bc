import Verif.Proof.Copies
import Verif.Props.Apart

/-!
# Property C114: copies of a page
-/

namespace Fuser

open Spec

/-- C114. `repeat` for a list of items is `repeat` for its first items, followed by `repeat` for the
others: the result is the two results one after the other, the error of the first, or the error of
the second if the first has none. -/
theorem C114_split {k k' : Kind} (t : Template) (p : Prog .gen k) (n m : Nat)
    (b : Nat → Prog k k') (ht : Page t.events) (hp : WellNested p) (hb : ∀ i, WellNested (b i)) :
    (∀ u v, t.transform (.repeat p n b) = some (.ok u) →
      t.transform (.repeat p m fun i => b (n + i)) = some (.ok v) →
      t.transform (.repeat p (n + m) b) = some (.ok ⟨u.events ++ v.events⟩)) ∧
    (∀ e, t.transform (.repeat p n b) = some (.error e) →
      t.transform (.repeat p (n + m) b) = some (.error e)) ∧
    (∀ u e, t.transform (.repeat p n b) = some (.ok u) →
      t.transform (.repeat p m fun i => b (n + i)) = some (.error e) →
      t.transform (.repeat p (n + m) b) = some (.error e)) := by
  rw [transform_eq (.repeat p n b) ⟨hp, hb⟩ t ht,
    transform_eq (.repeat p m fun i => b (n + i)) ⟨hp, fun i => hb (n + i)⟩ t ht,
    transform_eq (.repeat p (n + m) b) ⟨hp, hb⟩ t ht]
  simp only [meaning, repeated]
  cases (meaning p (treeOf t.events)).events with
  | error e => simp [Forest.events, Except.map]
  | ok es =>
    dsimp only
    rw [copies_shift (fun i => meaning (b i) (meaning p (treeOf t.events))) n m 0, copies_add,
      events_append, Nat.zero_add, Nat.add_zero]
    cases (copies (fun i => meaning (b i) (meaning p (treeOf t.events))) 0 n).events with
    | error e => simp [joinResult, Except.map]
    | ok es =>
      cases (copies (fun i => meaning (b i) (meaning p (treeOf t.events))) n m).events with
      | error e => simp [joinResult, Except.map]
      | ok fs =>
        simp only [joinResult, Except.map, Option.some.injEq, Except.ok.injEq]
        refine ⟨?_, by simp, by simp⟩
        rintro _ _ rfl rfl
        rfl

/-- C114, copies of copies. Repeating a page for each item of a list, and each copy for each item of
a second list, is repeating it once for all pairs of items, in order. -/
theorem C114_nested {k k' : Kind} (t : Template) (p : Prog .gen k) (n m : Nat)
    (b : Nat → Nat → Prog k k') (ht : Page t.events) (hp : WellNested p)
    (hb : ∀ i j, WellNested (b i j)) :
    t.transform (.repeat p n fun i => .repeat .src m (b i)) =
      t.transform (.repeat p (n * m) fun j => b (j / m) (j % m)) := by
  rw [transform_eq _ (by exact ⟨hp, fun i => ⟨trivial, hb i⟩⟩) t ht,
    transform_eq _ (by exact ⟨hp, fun j => hb _ _⟩) t ht]
  refine congrArg (fun f : Forest => some (f.events.map Template.mk)) ?_
  simp only [meaning, repeated]
  cases h : (meaning p (treeOf t.events)).events with
  | error e => rfl
  | ok es =>
    have := copies_flat (fun i j => meaning (b i j) (meaning p (treeOf t.events))) n m 0
    rw [Nat.zero_mul] at this
    exact this

/-- C114, calls after `repeat`. Calls that treat all parts of a page alike can be moved into the
builder of the copies, if there is a copy, or if the calls give nothing for an empty page. -/
theorem C114_inside {k k' : Kind} (t u : Template) (p : Prog .gen k) (n : Nat)
    (b : Nat → Prog k .gen) (q : Prog .gen k') (ht : Page t.events) (hp : WellNested p)
    (hb : ∀ i, WellNested (b i)) (hq : WellNested q) (hl : Local q)
    (hu : t.transform p = some (.ok u)) (h0 : n = 0 → run q [] = some (.ok [])) :
    t.transform (.apply (.repeat p n b) q) = t.transform (.repeat p n fun i => .apply (b i) q) := by
  rw [transform_eq p hp t ht] at hu
  rw [transform_eq _ (by exact ⟨⟨hp, hb⟩, hq⟩) t ht,
    transform_eq _ (by exact ⟨hp, fun i => ⟨hb i, hq⟩⟩) t ht]
  refine congrArg (fun f : Forest => some (f.events.map Template.mk)) ?_
  have empty : n = 0 → meaning q .nil = .nil := by
    intro hn
    have h1 := h0 hn
    have hpage : Page [] := ⟨⟨0, .nil⟩, (by intro e he; cases he), by simp⟩
    rw [run_meaning q hq hpage trivial] at h1
    have hw := (meaning_ok q hq .nil trivial trivial).2
    have h2 : (meaning q .nil).events = .ok [] := Option.some.inj h1
    have := treeOf_of_events hw h2
    rw [← this]
    rfl
  simp only [meaning, repeated]
  cases h : (meaning p (treeOf t.events)).events with
  | error e => rw [h] at hu; cases hu
  | ok es => exact copies_meaning q hl _ n empty 0

/-! ## Examples and limits -/

/-- Calls for the examples: the page with a letter after it. -/
def letterAfter (i : Nat) : Prog .gen .gen := .append .src (lettered i)

theorem letterAfter_nested (i : Nat) : WellNested (letterAfter i) := ⟨trivial, lettered_page i⟩

theorem apart_src : apartPage.transform (.src : Prog .gen .gen) = some (.ok apartPage) :=
  (transform_eq (.src : Prog .gen .gen) trivial _ apartPage_page).trans rfl

/-- C114: one copy and two copies are three copies. -/
example : shown (apartPage.transform (.repeat .src (1 + 2) letterAfter)) =
    some "<li /><br><li></li>a<li /><br><li></li>b<li /><br><li></li>b".toList := by
  have h1 := transform_eq (.repeat .src 1 letterAfter) (by exact ⟨trivial, letterAfter_nested⟩)
    apartPage apartPage_page
  have h2 := transform_eq (.repeat .src 2 fun i => letterAfter (1 + i))
    (by exact ⟨trivial, fun i => letterAfter_nested (1 + i)⟩) apartPage apartPage_page
  rw [(C114_split apartPage (.src : Prog .gen .gen) 1 2 letterAfter apartPage_page trivial
    letterAfter_nested).1 _ _ (h1.trans rfl) (h2.trans rfl)]
  decide +kernel

/-- C114: two copies of three copies are six copies. -/
example : apartPage.transform (.repeat .src 2 fun i => .repeat .src 3 fun j =>
      .append (.append .src (lettered i)) (lettered j)) =
    apartPage.transform (.repeat (.src : Prog .gen .gen) (2 * 3) fun j =>
      .append (.append .src (lettered (j / 3))) (lettered (j % 3))) :=
  C114_nested apartPage (.src : Prog .gen .gen) 2 3
    (fun i j => .append (.append .src (lettered i)) (lettered j)) apartPage_page trivial
    fun i j => ⟨⟨trivial, lettered_page i⟩, lettered_page j⟩

/-- Calls for the examples: items are removed. -/
def noItems : Prog .gen .gen := Prog.select .src (.ok (.tag li)) fun _ => .remove .src

theorem noItems_nested : WellNested noItems := by exact ⟨trivial, fun _ => trivial⟩

/-- C114: items are removed from the copies, or from the page with the copies. -/
example : shown (apartPage.transform (.apply (.repeat .src 2 letterAfter) noItems)) =
      some "<br>a<br>b".toList ∧ run noItems [] = some (.ok []) := by
  have hl : Local noItems := by exact ⟨trivial, fun _ => rfl⟩
  have h0 : run noItems [] = some (.ok []) :=
    (run_meaning noItems noItems_nested ⟨⟨0, .nil⟩, (by intro e he; cases he), by simp⟩ trivial).trans rfl
  refine ⟨?_, h0⟩
  rw [C114_inside apartPage apartPage (.src : Prog .gen .gen) 2 letterAfter noItems apartPage_page
    trivial letterAfter_nested noItems_nested hl apart_src fun _ => h0,
    transform_eq _ (by exact ⟨trivial, fun i => ⟨letterAfter_nested i, noItems_nested⟩⟩) _
      apartPage_page]
  decide +kernel

/-- C114, a limit: calls that number the matches see whether they are inside of the copies. -/
theorem C114_numbers_seen : ∃ (t : Template) (q : Prog .gen .gen), Page t.events ∧ WellNested q ∧
    shown (t.transform (.apply (.repeat (.src : Prog .gen .gen) 2 fun _ => .src) q)) =
      some "ab".toList ∧
    shown (t.transform (.repeat (.src : Prog .gen .gen) 2 fun _ => .apply .src q)) =
      some "aa".toList := by
  have hr : Template.fromStr "<br>".toList {} = .ok (.ok ⟨[.voidTag lineBreak []]⟩) := rfl
  have hq : WellNested (Prog.select .src (.ok (.tag lineBreak))
    fun i => Prog.replace .src (lettered i) : Prog .gen .gen) := by
    exact ⟨trivial, fun i => ⟨trivial, lettered_page i⟩⟩
  refine ⟨_, _, parsed_page hr, hq, ?_, ?_⟩
  · rw [transform_eq _ (by exact ⟨⟨trivial, fun _ => trivial⟩, hq⟩) _ (parsed_page hr)]
    decide +kernel
  · rw [transform_eq _ (by exact ⟨trivial, fun _ => ⟨trivial, hq⟩⟩) _ (parsed_page hr)]
    decide +kernel

/-- C114, a limit: without copies, calls that fail on every page fail after `repeat`, but not inside
of the copies. -/
theorem C114_none_seen : ∃ (t : Template) (q : Prog .gen .gen) (e : StreamError), Page t.events ∧
    WellNested q ∧ Local q ∧
    t.transform (.apply (.repeat (.src : Prog .gen .gen) 0 fun _ => .src) q) = some (.error e) ∧
    t.transform (.repeat (.src : Prog .gen .gen) 0 fun _ => .apply .src q) = some (.ok ⟨[]⟩) := by
  refine ⟨apartPage, .fallErr (.identifier .empty), .identifier .empty, apartPage_page, trivial,
    trivial, ?_, ?_⟩
  · rw [transform_eq _ (by exact ⟨⟨trivial, fun _ => trivial⟩, trivial⟩) _ apartPage_page]
    rfl
  · rw [transform_eq _ (by exact ⟨trivial, fun _ => ⟨trivial, trivial⟩⟩) _ apartPage_page]
    rfl

end Fuser
