import Verif.Model.Memory

/-!
# What the statements on shared memory say
-/

namespace Verif.Memory
open Verif
variable {α : Type _}

/-- A slice of this memory: its array exists and is long enough for its capacity. -/
structure Slice.Fits (h : Heap α) (s : Slice) : Prop where
  len : s.len ≤ s.cap
  arr : s.arr < h.length
  cap : s.off + s.cap ≤ (h.getD s.arr []).length

/-- The element at position `i` of array `a`, if there is one. -/
def cell (h : Heap α) (a i : Nat) : Option α := (h.getD a [])[i]?

end Verif.Memory
