import Verif.Model.MemoryLists
import Verif.Lemmas.MemoryLists

/-!
# C120, continued: the other lists
-/

namespace Verif.Memory
open Verif Ledger

variable (sha : Str → Hash)

/-- C120: when it is built, a list has the hash and the elements of the given slice; an error is returned for exactly the same slices. This is the builder of
rings, secrets, private transactions and transactions (`C120_lists_kinds`). -/
theorem C120_lists {α : Type} (hashOf : α → Hash) (h : Heap α) (s : Slice) (hf : s.Fits h) :
    listNow sha hashOf (some (s.read h)) =
      match buildList sha hashOf h (some s) with
      | .ok o => .ok (o.hash, o.List.read h)
      | .err => .err
      | .panic => .panic := by
  simp only [listNow, buildList, length_read hf]
  by_cases h0 : s.len ≤ 0 <;> simp [h0, ListObj.List]

/-- C120: so it is for rings, secrets, private transactions and transactions. -/
theorem C120_lists_kinds (s : Slice) :
    (∀ h, s.Fits h → ringsNow sha (some (s.read h)) = do let o ← buildList sha Ring.hash h (some s); return ⟨o.hash, o.List.read h⟩) ∧
    (∀ h, s.Fits h → secretsNow sha (some (s.read h)) = do let o ← buildList sha Secret.hash h (some s); return .mk o.hash (o.List.read h)) ∧
    (∀ h, s.Fits h → tprivatesNow sha (some (s.read h)) = do let o ← buildList sha TPrivate.hash h (some s); return ⟨o.hash, o.List.read h⟩) ∧
    (∀ h, s.Fits h → transactionsNow sha (some (s.read h)) = do let o ← buildList sha Transaction.hash h (some s); return ⟨o.hash, o.List.read h⟩) := by
  refine ⟨?_, ?_, ?_, ?_⟩ <;> intro h hf
  · simp only [ringsNow]; rw [C120_lists sha _ h s hf]; cases buildList sha Ring.hash h (some s) <;> rfl
  · simp only [secretsNow]; rw [C120_lists sha _ h s hf]; cases buildList sha Secret.hash h (some s) <;> rfl
  · simp only [tprivatesNow]; rw [C120_lists sha _ h s hf]; cases buildList sha TPrivate.hash h (some s) <;> rfl
  · simp only [transactionsNow]; rw [C120_lists sha _ h s hf]; cases buildList sha Transaction.hash h (some s) <;> rfl

/-- C120, violation: whoever writes into the slice, its owner or a reader of `List`, changes `List` but not `Hash`. If the new element has another hash, then
`Hash` is no longer the hash of `List`: building from the list gives another hash, or SHA-512 has a collision on the two lists of hashes. -/
theorem C120_lists_write {α : Type} (hashOf : α → Hash) (h h' : Heap α) (s : Slice) (hf : s.Fits h) (o : ListObj)
    (ho : buildList sha hashOf h (some s) = .ok o) (w : Slice) (hws : w = s ∨ w = o.List) (i : Nat) (e : α) (hw : w.set h i e = .ok h') :
    o.List.read h' = (o.List.read h).set i e ∧
    ((∀ e0, (o.List.read h)[i]? = some e0 → hashOf e ≠ hashOf e0) → ∃ g, listNow sha hashOf (some (o.List.read h')) = .ok (g, o.List.read h') ∧
      (g ≠ o.hash ∨ Collision sha ((o.List.read h').map fun x => (hashOf x).bytes).flatten ((o.List.read h).map fun x => (hashOf x).bytes).flatten)) := by
  have hs : o.List = s ∧ o.hash = Hash.fromMultiBytes sha ((s.read h).map fun e => (hashOf e).bytes) := by
    simp only [buildList] at ho
    by_cases h0 : s.len ≤ 0 <;> simp [h0] at ho
    subst ho
    exact ⟨rfl, rfl⟩
  have hw' : s.set h i e = .ok h' := by rcases hws with rfl | rfl <;> simpa [hs.1] using hw
  rw [hs.1, hs.2]
  exact list_write sha hashOf hf hw'

/-- C120, violation: the same for a ring of hashes, as long as its builder accepts the number of hashes. -/
theorem C120_ring_hashes_write (min max : UInt64) (h h' : Heap Hash) (s : Slice) (hf : s.Fits h) (o : ListObj)
    (ho : buildRing sha min max h (some s) = .ok o) (w : Slice) (hws : w = s ∨ w = o.List) (i : Nat) (e : Hash) (hw : w.set h i e = .ok h') :
    ringNow sha min max (some (s.read h)) = .ok ⟨o.hash, o.List.read h⟩ ∧
    o.List.read h' = (o.List.read h).set i e ∧
    ((o.List.read h)[i]? ≠ some e → ∃ r, ringNow sha min max (some (o.List.read h')) = .ok r ∧ r.list = o.List.read h' ∧
      (r.hash ≠ o.hash ∨ Collision sha ((o.List.read h').map fun x => x.bytes).flatten ((o.List.read h).map fun x => x.bytes).flatten)) := by
  have hs : o.List = s ∧ o.hash = Hash.fromMultiBytes sha ((s.read h).map fun e => e.bytes) ∧ ¬ min > UInt64.ofNat s.len ∧ ¬ max < UInt64.ofNat s.len := by
    simp only [buildRing] at ho
    split at ho
    · simp at ho
    · split at ho
      · simp at ho
      · simp at ho
        subst ho
        exact ⟨rfl, rfl, ‹_›, ‹_›⟩
  have hw' : s.set h i e = .ok h' := by rcases hws with rfl | rfl <;> simpa [hs.1] using hw
  rw [hs.1, hs.2.1]
  have hr : ∀ l : List Hash, l.length = s.len → ringNow sha min max (some l) = .ok ⟨Hash.fromMultiBytes sha (l.map fun x => x.bytes), l⟩ := by
    intro l hl
    simp only [ringNow, hl, hs.2.2.1, hs.2.2.2, if_false]
  obtain ⟨h1, h2⟩ := list_write sha id hf hw'
  refine ⟨hr _ (length_read hf), h1, fun hne => ⟨_, hr _ ?_, rfl, ?_⟩⟩
  · rw [h1, List.length_set, length_read hf]
  · obtain ⟨g, hg, h3⟩ := h2 (fun e0 he0 hee => hne (by rw [he0]; exact congrArg some hee.symm))
    have : g = Hash.fromMultiBytes sha ((s.read h').map fun x => x.bytes) := by
      simp only [listNow, id] at hg
      by_cases h0 : (s.read h').length ≤ 0 <;> simp [h0] at hg
      exact hg.symm
    rw [← this]
    simpa using h3

/-- C120: writes to other arrays have no effect on lists. -/
theorem C120_lists_frame {α : Type} (h h' : Heap α) (o : ListObj) (w : Slice) (i : Nat) (e : α) (hw : w.set h i e = .ok h') (hne : w.arr ≠ o.List.arr) :
    o.List.read h' = o.List.read h := by
  unfold Slice.set at hw
  split at hw
  · injection hw with hw
    subst hw
    simp only [Slice.read, List.getD, List.getElem?_set, hne, if_false]
  · simp at hw

/-- A ring of two hashes, the second of which is written to by a reader of `List`. -/
example : ∃ o h', buildRing exSha 2 5 [[exSha [1], exSha [2], exSha [3]]] (some ⟨0, 0, 2, 3⟩) = .ok o ∧
    o.List.set [[exSha [1], exSha [2], exSha [3]]] 1 (exSha [9]) = .ok h' ∧ o.List.read h' = [exSha [1], exSha [9]] ∧
    ([exSha [1], exSha [2]] : List Hash)[1]? ≠ some (exSha [9]) := by
  refine ⟨_, _, rfl, rfl, ?_, ?_⟩ <;> decide +kernel

/-- A list of rings. -/
example : ∃ o h', buildList exSha Ring.hash [[⟨exSha [1], []⟩, ⟨exSha [2], []⟩]] (some ⟨0, 0, 2, 2⟩) = .ok o ∧
    o.List.set [[⟨exSha [1], []⟩, ⟨exSha [2], []⟩]] 0 ⟨exSha [7], []⟩ = .ok h' ∧ o.List.read h' = [(⟨exSha [7], []⟩ : Ring), ⟨exSha [2], []⟩] := by
  refine ⟨_, _, rfl, rfl, ?_⟩; decide +kernel

end Verif.Memory
