import Verif.Model.HashTree
import Verif.Model.Ledger
import Verif.Model.Signature

/-!
# Slices which share memory with the caller

The other modules model a Go slice by the list of its values, which is exact as long as nobody writes into the backing array
through another slice. This module models the backing arrays, for the three places of the repository where sharing can be
observed: a hash tree appends to the slice of its caller, and a list of transactions and a ring signature keep the slice of
their caller. The elements are values: for blocks this is a simplification (the bytes of a block could be shared as well, but
the functions here only read them, during the call).
-/

namespace Verif.Memory
open Verif

/-- The backing arrays of the slices with elements of one type, as used in `hashtree/block.go:14-35`. -/
abbrev Heap (α : Type _) := List (List α)

/-- A Go slice: the number of its array, where it begins in it, its length and its capacity. The parameters `data` of
`hashtree/block.go:14`, `list` of `transactions/builder.go:31` and `ringPubKeys` of `signature/privatekey.go:30`. -/
structure Slice where
  arr : Nat
  off : Nat
  len : Nat
  cap : Nat
  deriving DecidableEq

namespace Slice
variable {α : Type _}

/-- The elements `s[0], …, s[len-1]`, as read by the loops `hashtree/block.go:21`, `transactions/builder.go:47` and `signature/ringsignature.go:41`. -/
def read (h : Heap α) (s : Slice) : List α := ((h.getD s.arr []).drop s.off).take s.len

/-- `s[:n]`, made by the caller: the same array, the same capacity. Not in the repository: the argument of `hashtree/builder.go:27`. -/
def upTo (s : Slice) (n : Nat) : Out Slice := if n ≤ s.cap then .ok { s with len := n } else .panic

/-- `s[i] = a`, done by the caller: an index out of range panics. Not in the repository: what the owner of the argument of `transactions/builder.go:31` may do. -/
def set (h : Heap α) (s : Slice) (i : Nat) (a : α) : Out (Heap α) :=
  if i < s.len then .ok (List.set h s.arr ((h.getD s.arr []).set (s.off + i) a)) else .panic

/-- `append(s, a)`, as at `hashtree/block.go:17`: in place if there is capacity, otherwise in a new array with `grow` spare elements
(how many is up to the Go runtime). -/
def append1 (grow : Nat) (zero : α) (h : Heap α) (s : Slice) (a : α) : Heap α × Slice :=
  if s.len < s.cap then (List.set h s.arr ((h.getD s.arr []).set (s.off + s.len) a), { s with len := s.len + 1 })
  else (h ++ [s.read h ++ [a] ++ List.replicate grow zero], ⟨h.length, 0, s.len + 1, s.len + 1 + grow⟩)

end Slice

section Tree
variable (sha : Str → Hash)

/-- `hashtree/block.go:14-35`, `createBlockFromData`, on the slice of the caller: the memory afterwards and the hashes. -/
def blockFromSlice (grow : Nat) (h : Heap Str) (data : Slice) : Heap Str × List Hash :=
  let (h, data) := if data.len ≤ 1 then Slice.append1 grow [] h data [] else (h, data)
  (h, HashTree.resize sha ((data.read h).map (Hash.fromBytes sha)))

/-- `hashtree/builder.go:33-39` and `hashtree/hashtree.go:25-32`: `Now` after `WithBlocks(data)`; `none` for nil. -/
def buildTree (grow : Nat) (h : Heap Str) (data : Option Slice) : Heap Str × Out HashTree.Tree :=
  match data with
  | none => (h, .err)
  | some data =>
    let (h, hashes) := blockFromSlice sha grow h data
    (h, HashTree.treeAux sha (hashes.length + 1) (hashes.map HashTree.Leaf.plain))

/-- `transactions/transactions.go:5-8`: the list is the slice which was given to the builder. -/
structure TransactionsObj where
  hash : Hash
  list : Slice

/-- `transactions/builder.go:37-57`, `Now`: the hash is computed from the present contents, the slice is kept. -/
def buildTransactions (h : Heap Ledger.Transaction) (list : Option Slice) : Out TransactionsObj :=
  match list with
  | none => .err
  | some s => do
    let (hash, _) ← Ledger.listNow sha Ledger.Transaction.hash (some (s.read h))
    return ⟨hash, s⟩

/-- `transactions/transactions.go:27-29`, `List()`: what a reader of the returned slice sees. -/
def TransactionsObj.contents (h : Heap Ledger.Transaction) (o : TransactionsObj) : List Ledger.Transaction := o.list.read h

end Tree

section Ring
open Signature
variable {L : Nat} {P : Type} [AddCommGroup P] [DecidableEq P] [Fact L.Prime] (c : Curve L P)

/-- `signature/ringsignature.go:10-14`: the ring is the slice which was given to `RingSign`. -/
structure RingObj (L : Nat) where
  ring : Slice
  s : List (ZMod L)
  e : ZMod L

/-- What the methods of a ring signature read: `signature/ringsignature.go:27-29`, `signature/ringsignature.go:41-43`. -/
def RingObj.now (h : Heap P) (o : RingObj L) : RingSig L P := ⟨o.ring.read h, o.s, o.e⟩

/-- `signature/privatekey.go:30-82`, `RingSign`, which keeps the slice of the caller (line 80). -/
def ringSignSlice (h : Heap P) (x : ZMod L) (msg : Str) (ring : Slice) : Out (RingObj L) := do
  let rs ← ringSign c x msg (ring.read h)
  return ⟨ring, rs.s, rs.e⟩

/-- `signature/ringsignature.go:32-49`, `Verify`. -/
def RingObj.verify (h : Heap P) (o : RingObj L) (msg : Str) : Out Bool := (o.now h).verify c msg

end Ring
end Verif.Memory
