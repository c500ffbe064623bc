import Verif.Proof.Heap
import Verif.Props.Transform

/-!
# Properties: shared cells
-/

namespace Fuser

/-- C83. The cells shared between selections and the streams of their builders are never borrowed
while they are borrowed, and sharing them is invisible: with an explicit heap, on which a second
borrow stops the program, every transform gives the result it has when each stream owns its
source. -/
theorem C83_no_double_borrow {k : Kind} (t : Template) (p : Prog .gen k) :
    (∃ r, t.transformHeap p = some r) ∧ t.transformHeap p = t.transform p := by
  rcases C40_transform_total t p with ⟨t', h⟩ | ⟨e, h⟩
  · rw [transform_heap t p h, h]
    exact ⟨⟨_, rfl⟩, rfl⟩
  · rw [transform_heap t p h, h]
    exact ⟨⟨_, rfl⟩, rfl⟩

/-- Nested selections and contents, so that four cells are in use at once. -/
example : ∃ t', sampleTemplate.transformHeap sampleProg = some (.ok t') ∧
    t'.events.length = 16 := by
  rw [(C83_no_double_borrow _ _).2, C37_transform_parsed _ _ _ _ sample_parsed sampleProg_nested]
  exact ⟨_, rfl, rfl⟩

/-- A stream that reaches its own cell does stop the program. -/
example : nextHeap [some (.shared 0)] (.shared 0) = none := by
  rw [nextHeap.eq_def]
  simp only [Heap.borrow, bind, List.getElem?_cons_zero, Option.bind_some]
  rw [nextHeap.eq_def]
  rfl

/-- So does a stream that is pulled while its cell is in use. -/
example : nextHeap [none, some (.oncePass 0)] (.shared 1) = none := by
  rw [nextHeap.eq_def]
  simp only [Heap.borrow, bind, List.getElem?_cons_zero, List.getElem?_cons_succ, Option.bind_some]
  rw [nextHeap.eq_def]
  simp only [bind]
  rw [nextHeap.eq_def]
  rfl

end Fuser
