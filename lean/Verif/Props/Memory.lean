import Verif.Lemmas.Memory
import Verif.Props.HashTree
import Verif.Props.LedgerHistory
import Verif.Props.RingMembers

/-!
# C120: what built objects share with the memory of their caller
-/

namespace Verif.Memory
open Verif

section Tree
variable (sha : Str → Hash)

/-- C120: the tree is the one of the blocks which are in the slice when `Now` is called, whatever else shares its memory. -/
theorem C120_tree (grow : Nat) (h : Heap Str) (s : Slice) (hf : s.Fits h) :
    (buildTree sha grow h (some s)).2 = HashTree.build sha (some (s.read h)) := by
  simp only [buildTree, blockFromSlice, HashTree.build, HashTree.treeFromBlocks, HashTree.blockFromData, length_read hf]
  split
  · simp only [read_append1 grow [] [] hf]
  · rfl

/-- C120: building a tree changes the memory of the caller exactly if there is at most one block and the slice has spare capacity:
then the element after the last one becomes the empty block. -/
theorem C120_tree_memory (grow : Nat) (h : Heap Str) (s : Slice) (hf : s.Fits h) (a i : Nat) (ha : a < h.length) :
    cell (buildTree sha grow h (some s)).1 a i =
      if s.len ≤ 1 ∧ s.len < s.cap ∧ a = s.arr ∧ i = s.off + s.len then some [] else cell h a i := by
  have hcap := hf.cap
  have hlen := hf.len
  simp only [buildTree, blockFromSlice, cell]
  by_cases h1 : s.len ≤ 1
  · simp only [h1, if_true, Slice.append1, true_and]
    by_cases h2 : s.len < s.cap
    · simp only [h2, if_true, true_and]
      by_cases h3 : a = s.arr
      · subst h3
        rw [getD_set_self hf.arr, List.getElem?_set]
        by_cases h4 : i = s.off + s.len
        · subst h4
          rw [if_pos rfl, if_pos (by omega), if_pos ⟨rfl, rfl⟩]
        · rw [if_neg (by omega), if_neg (by tauto)]
      · rw [if_neg (by tauto)]
        simp only [List.getD, List.getElem?_set]
        rw [if_neg (by omega)]
    · simp only [h2, if_false, false_and]
      simp only [List.getD]
      rw [List.getElem?_append_left ha]
  · simp only [h1, if_false, false_and]

/-- C120: so the slice itself still holds the same blocks, and building again gives the same tree. -/
theorem C120_tree_again (grow grow' : Nat) (h : Heap Str) (s : Slice) (hf : s.Fits h) :
    s.read (buildTree sha grow h (some s)).1 = s.read h ∧
    (buildTree sha grow' (buildTree sha grow h (some s)).1 (some s)).2 = (buildTree sha grow h (some s)).2 := by
  have hread : s.read (buildTree sha grow h (some s)).1 = s.read h := by
    apply List.ext_getElem?
    intro j
    simp only [Slice.read, List.getElem?_take, List.getElem?_drop]
    split
    · have := C120_tree_memory sha grow h s hf s.arr (s.off + j) hf.arr
      simp only [cell] at this
      rw [this, if_neg (by omega)]
    · rfl
  refine ⟨hread, ?_⟩
  have hf' : s.Fits (buildTree sha grow h (some s)).1 := by
    refine ⟨hf.len, ?_, ?_⟩
    · have := hf.arr
      simp only [buildTree, blockFromSlice, Slice.append1]
      split <;> (try split) <;> simp <;> omega
    · have := hf.cap
      have harr := hf.arr
      simp only [buildTree, blockFromSlice, Slice.append1]
      split <;> (try split)
      · rw [getD_set_self harr]; simpa using this
      · simp only [List.getD]
        rw [List.getElem?_append_left harr]
        exact this
      · exact this
  rw [C120_tree sha grow' _ s hf', C120_tree sha grow h s hf, hread]

/-- C120, violation: after a tree of `all[:1]` was built, `all` has lost its second block: the tree built from it afterwards is the one
in which the second block is empty. -/
theorem C120_tree_overwrites (grow grow' : Nat) (h : Heap Str) (all first : Slice) (hf : all.Fits h) (hfirst : all.upTo 1 = .ok first)
    (b0 b1 : Str) (rest : List Str) (hr : all.read h = b0 :: b1 :: rest) :
    (buildTree sha grow h (some first)).2 = HashTree.build sha (some [b0]) ∧
    (buildTree sha grow' (buildTree sha grow h (some first)).1 (some all)).2 = HashTree.build sha (some (b0 :: [] :: rest)) := by
  have hlen := length_read hf
  rw [hr] at hlen
  simp only [List.length_cons] at hlen
  have hcap := hf.len
  unfold Slice.upTo at hfirst
  rw [if_pos (by omega)] at hfirst
  injection hfirst with hfirst
  have hff : first.Fits h := by
    subst hfirst
    exact ⟨by show 1 ≤ all.cap; omega, hf.arr, hf.cap⟩
  have hmem := C120_tree_memory sha grow h first hff
  have hr1 : first.read h = [b0] := by
    have : first.read h = (all.read h).take 1 := by
      subst hfirst
      simp only [Slice.read, List.take_take]
      rw [show min 1 all.len = 1 by omega]
    rw [this, hr]
    rfl
  have hr2 : all.read (buildTree sha grow h (some first)).1 = b0 :: [] :: rest := by
    have : all.read (buildTree sha grow h (some first)).1 = (all.read h).set 1 [] := by
      apply List.ext_getElem?
      intro j
      rw [List.getElem?_set]
      have := hmem all.arr (all.off + j) hf.arr
      subst hfirst
      simp only [cell] at this
      rw [length_read hf]
      simp only [Slice.read, List.getElem?_take, List.getElem?_drop, this]
      by_cases h1 : 1 = j
      · subst h1
        rw [if_pos (by omega), if_pos ⟨le_rfl, by omega, trivial, rfl⟩, if_pos rfl, if_pos (by omega)]
      · rw [if_neg (show ¬ (1 = j) from h1)]
        split
        · rw [if_neg (by omega)]
        · rfl
    rw [this, hr]
    rfl
  have hf2 : all.Fits (buildTree sha grow h (some first)).1 := by
    have hrl := congrArg List.length hr2
    refine ⟨hf.len, ?_, ?_⟩
    · have := hf.arr
      simp only [buildTree, blockFromSlice, Slice.append1]
      split <;> (try split) <;> simp <;> omega
    · have := hf.cap
      have harr := hf.arr
      subst hfirst
      simp only [buildTree, blockFromSlice, Slice.append1]
      rw [if_pos le_rfl, if_pos (by omega)]
      simp only
      rw [getD_set_self harr]
      simpa using this
  exact ⟨by rw [C120_tree sha grow h first hff, hr1], by rw [C120_tree sha grow' _ all hf2, hr2]⟩

/-- C120, violation: this is another tree, with another head, unless the lost block hashes like the empty block or SHA-512 has a collision
among the strings hashed for the interior nodes of the two trees. -/
theorem C120_tree_other_head (b0 b1 : Str) (rest : List Str) (hb : Hash.fromBytes sha b1 ≠ sha []) :
    ∃ t u, HashTree.build sha (some (b0 :: b1 :: rest)) = .ok t ∧ HashTree.build sha (some (b0 :: [] :: rest)) = .ok u ∧
      (t.head ≠ u.head ∨ HashTree.TreeCollision sha t u) := by
  obtain ⟨t, ht, lt, _⟩ := HashTree.C05_shape sha (b0 :: b1 :: rest) (by simp)
  obtain ⟨u, hu, lu, _⟩ := HashTree.C05_shape sha (b0 :: [] :: rest) (by simp)
  refine ⟨t, u, ht, hu, ?_⟩
  by_cases hh : t.head = u.head
  · right
    have hlen : t.length = u.length := by
      simp only [List.length_cons] at lt lu
      exact lt.unique lu
    rcases HashTree.C07_head_binds_leaves sha _ _ t u ht hu hlen hh with e | e
    · exfalso
      obtain ⟨n, en⟩ := HashTree.C06_leaves sha _ t ht
      obtain ⟨m, em⟩ := HashTree.C06_leaves sha _ u hu
      rw [en, em] at e
      have e := congrArg (fun x => x.2[1]?) e
      simp only [List.map_cons, List.cons_append, List.getElem?_cons_succ, List.getElem?_cons_zero, Option.some.injEq] at e
      apply hb
      rw [e]
      simp [Hash.fromBytes]
    · exact e
  · exact .inl hh

end Tree

section Transactions
open Ledger
variable (sha : Str → Hash)

/-- C120: when they are built, `Hash` and `List` of transactions are the hash and the list of the given slice. -/
theorem C120_transactions (h : Heap Transaction) (s : Slice) (o : TransactionsObj) (ho : buildTransactions sha h (some s) = .ok o) :
    transactionsNow sha (some (s.read h)) = .ok ⟨o.hash, o.contents h⟩ := by
  simp only [buildTransactions] at ho
  simp only [transactionsNow]
  cases hl : listNow sha Transaction.hash (some (s.read h)) with
  | ok p =>
    rw [hl] at ho
    simp at ho
    subst ho
    have : p.2 = s.read h := by
      simp only [listNow] at hl
      split at hl <;> simp at hl
      · next l heq =>
        rw [← hl]
        split at heq
        · simp at heq
        · simpa using heq.symm
    simp [TransactionsObj.contents, this]
  | err => rw [hl] at ho; simp at ho
  | panic => rw [hl] at ho; simp at ho

/-- C120, violation: a later write of the caller to this slice changes `List` but not `Hash`. If the written transaction has another hash, then
`Hash` is no longer the hash of `List`: building from the list gives another hash, or SHA-512 has a collision on the two lists of hashes. -/
theorem C120_transactions_write (h h' : Heap Transaction) (s : Slice) (hf : s.Fits h) (o : TransactionsObj)
    (ho : buildTransactions sha h (some s) = .ok o) (i : Nat) (t : Transaction) (hw : s.set h i t = .ok h') :
    o.contents h' = (o.contents h).set i t ∧
    ((∀ t0, (o.contents h)[i]? = some t0 → t.hash ≠ t0.hash) → ∃ o', transactionsNow sha (some (o.contents h')) = .ok o' ∧
      (o'.hash ≠ o.hash ∨
        Collision sha ((o.contents h').map fun t => t.hash.bytes).flatten ((o.contents h).map fun t => t.hash.bytes).flatten)) := by
  have hs : o.list = s := by
    simp only [buildTransactions] at ho
    cases hl : listNow sha Transaction.hash (some (s.read h)) with
    | ok p => rw [hl] at ho; simp at ho; subst ho; rfl
    | err => rw [hl] at ho; simp at ho
    | panic => rw [hl] at ho; simp at ho
  have hb := C120_transactions sha h s o ho
  have hi : i < s.len := by
    unfold Slice.set at hw
    split at hw
    · assumption
    · simp at hw
  have hc : o.contents h' = (o.contents h).set i t := by
    simp only [TransactionsObj.contents, hs]
    exact read_set hf hw
  refine ⟨hc, fun hne => ?_⟩
  have hlen : (o.contents h).length = s.len := by simp only [TransactionsObj.contents, hs]; exact length_read hf
  have hnil : o.contents h' ≠ [] := by
    intro e
    have := congrArg List.length e
    rw [hc, List.length_set, hlen] at this
    simp at this
    omega
  obtain ⟨o', ho'⟩ : ∃ o', transactionsNow sha (some (o.contents h')) = .ok o' := by
    cases hx : o.contents h' with
    | nil => exact absurd hx hnil
    | cons a l => exact ⟨_, by simp [transactionsNow, listNow]; rfl⟩
  refine ⟨o', ho', ?_⟩
  by_cases hh : o'.hash = o.hash
  · right
    have hrd : s.read h = o.contents h := by simp only [TransactionsObj.contents, hs]
    rw [hrd] at hb
    rcases C113_transactions sha _ _ o' _ ho' hb (by rw [hc, List.length_set]) hh with e | e
    · exact e
    · exfalso
      have hi' : i < (o.contents h).length := by omega
      have := congrArg (fun l => l[i]?) e
      simp only [List.getElem?_map, hc] at this
      rw [List.getElem?_set_self hi', List.getElem?_eq_getElem hi'] at this
      simp at this
      exact hne _ (List.getElem?_eq_getElem hi') this
  · exact .inl hh

/-- C120: writes to other arrays have no effect on built transactions. -/
theorem C120_transactions_frame (h h' : Heap Transaction) (o : TransactionsObj) (w : Slice) (i : Nat) (t : Transaction)
    (hw : w.set h i t = .ok h') (hne : w.arr ≠ o.list.arr) : o.contents h' = o.contents h := by
  unfold Slice.set at hw
  split at hw
  · injection hw with hw
    subst hw
    simp only [TransactionsObj.contents, Slice.read, List.getD, List.getElem?_set, hne, if_false]
  · simp at hw

end Transactions

section Ring
open Signature
variable {L : Nat} {P : Type} [AddCommGroup P] [DecidableEq P] [hL : Fact L.Prime] (c : Curve L P)

/-- C120: as long as the slice is not written, the signature is the one of the ring in the slice, and verifies. -/
theorem C120_ring (h : Heap P) (s : Slice) (x : ZMod L) (msg : Str) (o : RingObj L) (ho : ringSignSlice c h x msg s = .ok o) :
    ringSign c x msg (s.read h) = .ok (o.now h) ∧ o.verify c h msg = .ok true := by
  simp only [ringSignSlice] at ho
  cases hr : ringSign c x msg (s.read h) with
  | ok rs =>
    rw [hr] at ho
    simp at ho
    obtain ⟨j, e1, _, ⟨e2, e3, _⟩, _⟩ := C111_made c x msg _ rs hr
    have hnow : o.now h = rs := by
      subst ho
      simp only [RingObj.now, ← e1]
    refine ⟨by rw [hnow], ?_⟩
    unfold RingObj.verify
    rw [hnow]
    obtain ⟨rs', h1, h2, h3⟩ := C17_ring_sign_verifies c x msg (s.read h) (by rw [← e1]; exact List.mem_of_getElem? e3)
    rw [hr] at h1
    simp at h1
    subst h1
    assumption
  | err => rw [hr] at ho; simp at ho
  | panic => rw [hr] at ho; simp at ho

/-- C120, violation: a later write of the caller to the slice of the ring changes the ring of the signature. If it puts another key (all keys being multiples of
the base point, those of the ring not zero) then the signature does not verify any more, or the challenge of this member is zero or the scalar hash has a collision. -/
theorem C120_ring_write (h h' : Heap P) (s : Slice) (hf : s.Fits h) (x : ZMod L) (msg : Str) (o : RingObj L)
    (ho : ringSignSlice c h x msg s = .ok o) (i : Nat) (Q : P) (hw : s.set h i Q = .ok h') :
    (o.now h').ring = (o.now h).ring.set i Q ∧
    ((s.read h)[i]? ≠ some Q → (∀ p ∈ s.read h, p ≠ 0 ∧ L • p = 0) → L • Q = 0 →
      o.verify c h' msg = .ok false ∨ publicChallenge c (o.now h) msg i = 0 ∨
        ∃ p p' : P, p ≠ p' ∧ c.createHash (msg ++ pointStr c p) = c.createHash (msg ++ pointStr c p')) := by
  obtain ⟨h1, h2⟩ := C120_ring c h s x msg o ho
  have hs : o.ring = s := by
    simp only [ringSignSlice] at ho
    rw [h1] at ho
    simp at ho
    rw [← ho]
  obtain ⟨j, e1, _, ⟨e2, e3, _⟩, _⟩ := C111_made c x msg _ _ h1
  have hnow : o.now h' = ⟨(o.now h).ring.set i Q, (o.now h).s, (o.now h).e⟩ := by
    simp only [RingObj.now, hs]
    rw [read_set hf hw]
  have hi : i < s.len := by
    unfold Slice.set at hw
    split at hw
    · assumption
    · simp at hw
  refine ⟨by rw [hnow], fun hne hord hQ => ?_⟩
  have hv := C62_verify_iff c (o.now h') msg (by rw [hnow]; simp only [List.length_set]; omega)
  by_cases hd : publicChallenge c (o.now h') msg (o.now h').ring.length = (o.now h').e
  · right
    rw [decide_eq_true hd, hnow] at hv
    have := length_read hf
    exact C121_one_member c (o.now h) msg i Q (by omega) (by rw [e1]; omega) (by rw [e1]; exact hne) (by rw [e1]; exact hord) hQ h2 hv
  · left
    rw [decide_eq_false hd] at hv
    exact hv

end Ring

section Examples
open Ledger Signature

/-- The memory of the examples: one array with three blocks; `all` is a slice of all of it. -/
def exHeap : Heap Str := [[lit "a", lit "b", lit "c"]]
def exAll : Slice := ⟨0, 0, 3, 3⟩

/-- The hypotheses on the tree: three blocks, of which the second one is lost. -/
example : exAll.Fits exHeap ∧ exAll.upTo 1 = .ok ⟨0, 0, 1, 3⟩ ∧ exAll.read exHeap = [lit "a", lit "b", lit "c"] ∧
    exAll.read (buildTree exSha 5 exHeap (some ⟨0, 0, 1, 3⟩)).1 = [lit "a", [], lit "c"] ∧ Hash.fromBytes exSha (lit "b") ≠ exSha [] :=
  ⟨⟨by decide, by decide, by decide⟩, by decide, by decide, by decide +kernel, by decide +kernel⟩

/-- The hypotheses on transactions: a slice of two transactions, in which the second is replaced by the first. -/
example : ∃ (h h' : Heap Transaction) (o : TransactionsObj), Slice.Fits h ⟨0, 1, 2, 2⟩ ∧
    buildTransactions exSha h (some ⟨0, 1, 2, 2⟩) = .ok o ∧ Slice.set h ⟨0, 1, 2, 2⟩ 1 (.mk exHash (exSpend (.genesis exUnit)) (lit "x")) = .ok h' ∧
    (∀ t0, (o.contents h)[1]? = some t0 → exHash ≠ t0.hash) ∧ (o.contents h).length = 2 ∧
    (∃ h'', Slice.set h ⟨1, 0, 1, 1⟩ 0 (.mk exHash (exSpend (.genesis exUnit)) (lit "x")) = .ok h'') ∧ (1 : Nat) ≠ o.list.arr := by
  refine ⟨[[.mk exHash (exSpend (.genesis exUnit)) (lit "x"), .mk exHash (exSpend (.genesis exUnit)) (lit "x"),
    .mk (exSha []) (exSpend (.genesis exUnit)) (lit "x")], []], _, _, ⟨by simp, by simp, by simp⟩, rfl, rfl, ?_, by simp [TransactionsObj.contents, Slice.read], ⟨_, rfl⟩, by simp⟩
  simp [TransactionsObj.contents, Slice.read, Transaction.hash, exHash, exSha, Subtype.ext_iff, List.replicate]

/-- The hypotheses on ring signatures: the key 3 signs with the ring 5, 3, 2; then 2 is replaced by 4, and the signature does not verify any more. -/
example : Slice.Fits [[(5 : ZMod 7), 3, 2]] ⟨0, 0, 3, 3⟩ ∧ ∃ o h', ringSignSlice toy [[(5 : ZMod 7), 3, 2]] 3 (lit "m") ⟨0, 0, 3, 3⟩ = .ok o ∧
    Slice.set [[(5 : ZMod 7), 3, 2]] ⟨0, 0, 3, 3⟩ 2 (4 : ZMod 7) = .ok h' ∧ (∀ p ∈ Slice.read [[(5 : ZMod 7), 3, 2]] ⟨0, 0, 3, 3⟩, p ≠ 0 ∧ 7 • p = 0) ∧
    o.verify toy h' (lit "m") = .ok false :=
  ⟨⟨by decide, by decide, by decide⟩, _, _, rfl, rfl, by decide +kernel, by decide +kernel⟩

end Examples
end Verif.Memory
