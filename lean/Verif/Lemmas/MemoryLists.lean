import Verif.Lemmas.Memory
import Verif.Props.LedgerHistory

/-!
# Lemmas on lists which share their slice
-/

namespace Verif.Memory
open Verif Ledger

theorem flatten_bytes_inj {α : Type} (f : α → Hash) : ∀ (l l' : List α), l.length = l'.length →
    (l.map fun t => (f t).bytes).flatten = (l'.map fun t => (f t).bytes).flatten → l.map f = l'.map f
  | [], [], _, _ => rfl
  | [], _ :: _, h, _ => by simp at h
  | _ :: _, [], h, _ => by simp at h
  | a :: l, b :: l', h, e => by
    simp only [List.map_cons, List.flatten_cons] at e
    have := List.append_inj e ((f a).2.trans (f b).2.symm)
    have h1 : f a = f b := Subtype.ext this.1
    rw [List.map_cons, List.map_cons, h1, flatten_bytes_inj f l l' (by simpa using h) this.2]

theorem list_write (sha : Str → Hash) {α : Type} (hashOf : α → Hash) {h h' : Heap α} {s : Slice} (hf : s.Fits h) {i : Nat} {e : α} (hw : s.set h i e = .ok h') :
    s.read h' = (s.read h).set i e ∧
    ((∀ e0, (s.read h)[i]? = some e0 → hashOf e ≠ hashOf e0) → ∃ g, listNow sha hashOf (some (s.read h')) = .ok (g, s.read h') ∧
      (g ≠ Hash.fromMultiBytes sha ((s.read h).map fun e => (hashOf e).bytes) ∨
        Collision sha ((s.read h').map fun x => (hashOf x).bytes).flatten ((s.read h).map fun x => (hashOf x).bytes).flatten)) := by
  have hi : i < s.len := by
    unfold Slice.set at hw
    split at hw
    · assumption
    · simp at hw
  have hc := read_set hf hw
  have hlen := length_read hf
  refine ⟨hc, fun hne => ?_⟩
  have hl' : ¬ (s.read h').length ≤ 0 := by rw [hc, List.length_set, hlen]; omega
  refine ⟨Hash.fromMultiBytes sha ((s.read h').map fun x => (hashOf x).bytes), by simp [listNow, hl'], ?_⟩
  by_cases hh : Hash.fromMultiBytes sha ((s.read h').map fun x => (hashOf x).bytes) = Hash.fromMultiBytes sha ((s.read h).map fun x => (hashOf x).bytes)
  · right
    rw [C03_multi_is_concat, C03_multi_is_concat] at hh
    have hneq : ((s.read h').map fun x => (hashOf x).bytes).flatten ≠ ((s.read h).map fun x => (hashOf x).bytes).flatten := by
      intro heq
      have := flatten_bytes_inj hashOf _ _ (by rw [hc, List.length_set]) heq
      have hi' : i < (s.read h).length := by omega
      have := congrArg (fun l => l[i]?) this
      simp only [List.getElem?_map, hc] at this
      rw [List.getElem?_set_self hi', List.getElem?_eq_getElem hi'] at this
      simp at this
      exact hne _ (List.getElem?_eq_getElem hi') this
    have hl : ((s.read h').map fun x => (hashOf x).bytes).flatten.length = ((s.read h).map fun x => (hashOf x).bytes).flatten.length := by
      have key : ∀ l : List α, (l.map fun x => (hashOf x).bytes).flatten.length = 64 * l.length := by
        intro l
        induction l with
        | nil => rfl
        | cons a l ih =>
          have : (hashOf a).bytes.length = 64 := (hashOf a).2
          rw [List.map_cons, List.flatten_cons, List.length_append, ih, this, List.length_cons]; omega
      rw [key, key, hc, List.length_set]
    refine ⟨hneq, ?_⟩
    unfold Hash.fromBytes at hh
    split at hh
    · next h64 =>
      rw [dif_pos (by rw [← hl]; exact h64)] at hh
      exact absurd (congrArg Subtype.val hh) hneq
    · next h64 =>
      rwa [dif_neg (by rw [← hl]; exact h64)] at hh
  · exact .inl hh

end Verif.Memory
