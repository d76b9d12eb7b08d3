import Verif.Spec.Memory

/-!
# Lemmas on slices
-/

namespace Verif.Memory
open Verif
variable {α : Type _}

theorem getD_set_self {h : Heap α} {a : Nat} (ha : a < h.length) (l : List α) : (List.set h a l).getD a [] = l := by
  simp [List.getD, ha]

theorem read_set {h h' : Heap α} {s : Slice} {i : Nat} {a : α} (hf : s.Fits h) (hs : s.set h i a = .ok h') :
    s.read h' = (s.read h).set i a := by
  unfold Slice.set at hs
  split at hs
  · injection hs with hs
    subst hs
    unfold Slice.read
    rw [getD_set_self hf.arr]
    apply List.ext_getElem?
    intro j
    simp only [List.getElem?_take, List.getElem?_drop, List.getElem?_set, List.length_take, List.length_drop]
    have := hf.cap
    have := hf.len
    by_cases hij : i = j
    · subst hij
      rw [if_pos (by omega), if_pos rfl, if_pos (by omega), if_pos rfl, if_pos (by omega)]
    · by_cases hj : j < s.len
      · rw [if_pos hj, if_neg (by omega), if_neg hij, if_pos hj]
      · rw [if_neg hj, if_neg hij, if_neg hj]
  · simp at hs

theorem length_read {h : Heap α} {s : Slice} (hf : s.Fits h) : (s.read h).length = s.len := by
  have := hf.cap
  have := hf.len
  simp only [Slice.read, List.length_take, List.length_drop]
  omega

theorem read_append1 {h : Heap α} {s : Slice} (grow : Nat) (zero a : α) (hf : s.Fits h) :
    (Slice.append1 grow zero h s a).2.read (Slice.append1 grow zero h s a).1 = s.read h ++ [a] := by
  unfold Slice.append1
  split
  · next hc =>
    unfold Slice.read
    simp only [getD_set_self hf.arr]
    have := hf.cap
    apply List.ext_getElem?
    intro j
    simp only [List.getElem?_take, List.getElem?_drop, List.getElem?_set, List.getElem?_append, List.length_take, List.length_drop]
    rcases Nat.lt_trichotomy j s.len with hj | hj | hj
    · rw [if_pos (by omega), if_neg (by omega), if_pos (by omega), if_pos hj]
    · subst hj
      rw [if_pos (by omega), if_pos rfl, if_pos (by omega), if_neg (by omega), show s.len - min s.len (_ - s.off) = 0 by omega]
      rfl
    · rw [if_neg (by omega), if_neg (by omega), List.getElem?_eq_none (by simp; omega)]
  · have := length_read hf
    simp only [Slice.read, List.drop_zero]
    rw [show (h ++ [List.take s.len (List.drop s.off (h.getD s.arr [])) ++ [a] ++ List.replicate grow zero]).getD h.length [] =
      List.take s.len (List.drop s.off (h.getD s.arr [])) ++ [a] ++ List.replicate grow zero by simp [List.getD]]
    rw [List.take_append_of_le_length (by simp only [List.length_append, Slice.read] at *; simp; simp at this; omega)]
    apply List.take_of_length_le
    simp only [Slice.read] at this
    simp only [List.length_append, this, List.length_singleton]
    omega

end Verif.Memory
