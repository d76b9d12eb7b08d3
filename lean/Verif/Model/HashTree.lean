import Verif.Model.Hash
import Mathlib.Data.Nat.Log

/-!
# `domain/hashtree`
-/

namespace Verif.HashTree
open Verif

/-- `hashtree/leaf.go:9-12` together with `hashtree/parentleaf.go:9-12`: a leaf has a head hash and, if it was produced by
pairing, a parent leaf, i.e. the pair (left, right) it was made from. -/
inductive Leaf where
  | plain (head : Hash)
  | withParent (head : Hash) (left right : Leaf)
  deriving DecidableEq

namespace Leaf

/-- `hashtree/leaf.go:48-50`, `Head`. -/
def head : Leaf → Hash
  | plain h => h
  | withParent h _ _ => h

/-- `hashtree/leaf.go:63-74`, `Leaves`, and `hashtree/parentleaf.go:40-46`, `BlockLeaves` (left leaves merged with
right leaves; `Merge` mutates a list created afresh by the call, which has no other reference). -/
def leaves : Leaf → List Leaf
  | plain h => [plain h]
  | withParent _ l r => leaves l ++ leaves r

/-- `hashtree/leaf.go:77-93`, `Height`: the number of steps to the left child. -/
def height : Leaf → Nat
  | plain _ => 0
  | withParent _ l _ => height l + 1

end Leaf

/-- `hashtree/hashtree.go:11-14` with the parent leaf inlined as its pair of leaves. -/
structure Tree where
  head : Hash
  left : Leaf
  right : Leaf
  deriving DecidableEq

variable (sha : Str → Hash)

/-- `hashtree/leaf.go:32-45`, `createChildLeaf`: the head of the child leaf. -/
def childHead (l r : Leaf) : Hash := Hash.fromBytes sha (l.head.bytes ++ r.head.bytes)

/-- `hashtree/leaves.go:52-73`, `createChildrenLeaves`: pairs neighbours; an odd length indexes out of range. -/
def childrenLeaves : List Leaf → Out (List Leaf)
  | [] => .ok []
  | [_] => .panic
  | l :: r :: rest => do
    let cs ← childrenLeaves rest
    return Leaf.withParent (childHead sha l r) l r :: cs

/-- `hashtree/leaves.go:35-50`, `Leaves.HashTree`, and `hashtree/parentleaf.go:24-37`, `ParentLeaf.HashTree`. The Go
recursion is not structural; `fuel` bounds its depth and running out is a stack overflow (only possible for an
empty list, for which the Go code recurses forever). -/
def treeAux : Nat → List Leaf → Out Tree
  | 0, _ => .panic
  | fuel + 1, ls =>
    match ls with
    | [l, r] => .ok ⟨Hash.fromBytes sha (l.head.bytes ++ r.head.bytes), l, r⟩
    | _ => do
      let cs ← childrenLeaves sha ls
      treeAux fuel cs

/-- `hashtree/block.go:47-50`, `isLengthPowerForTwo`. -/
def isLengthPowerOfTwo (n : Nat) : Bool := n != 0 && (n &&& (n - 1)) == 0

/-- `hashtree/block.go:37-66`, `resize` and `resizeToNextPowerOfTwo`. Simplification: the floating point
`2^ceil(log n / log 2)` is computed exactly. -/
def resize (list : List Hash) : List Hash :=
  if isLengthPowerOfTwo list.length then list
  else list ++ List.replicate (2 ^ Nat.clog 2 list.length - list.length) (Hash.fromBytes sha [])

/-- `hashtree/block.go:14-35`, `createBlockFromData`. -/
def blockFromData (data : List Str) : List Hash :=
  let data := if data.length ≤ 1 then data ++ [[]] else data
  resize sha (data.map (Hash.fromBytes sha))

/-- `hashtree/hashtree.go:25-32`, `createHashTreeFromBlocks`, with `hashtree/block.go:69-83`. -/
def treeFromBlocks (blocks : List Str) : Out Tree :=
  let hashes := blockFromData sha blocks
  treeAux sha (hashes.length + 1) (hashes.map Leaf.plain)

/-- `hashtree/builder.go:33-39`, `Now`: `none` is a builder without (or with nil) blocks. -/
def build (blocks : Option (List Str)) : Out Tree :=
  match blocks with
  | some b => treeFromBlocks sha b
  | none => .err

namespace Tree

/-- `hashtree/parentleaf.go:40-46`, `BlockLeaves` of the tree's parent leaf, which are also the
leaves of `Compact()` (`hashtree/hashtree.go:57-60`). -/
def blockLeaves (t : Tree) : List Leaf := t.left.leaves ++ t.right.leaves

/-- `hashtree/hashtree.go:41-44`, `Length`; also `hashtree/compact.go:32-34`. -/
def length (t : Tree) : Nat := t.blockLeaves.length

/-- `hashtree/hashtree.go:35-38`, `Height`. -/
def height (t : Tree) : Nat := t.left.height + 2

/-- `hashtree/compact.go:7-19` and `hashtree/hashtree.go:57-60`: the compact form is the head and the leaf heads. -/
def compact (t : Tree) : Hash × List Hash := (t.head, t.blockLeaves.map Leaf.head)

end Tree

/-- A Go map written in order: later writes come first, so that lookup finds the last write. The map of `hashtree/hashtree.go:65`. -/
def mapFrom {α β} (kv : List (α × β)) : List (α × β) := kv.reverse

/-- `hashtree/hashtree.go:63-95`, `Order`. -/
def order (t : Tree) (data : List Str) : Out (List Str) :=
  let hashed := mapFrom (data.map (fun d => ((Hash.fromBytes sha d).toStr, d)))
  let out := t.blockLeaves.filterMap (fun lf => hashed.lookup lf.head.toStr)
  if out.length ≠ data.length then .err else .ok out

/-- `hashtree/block.go:86-93`, `MarshalJSON`: the list of hash texts (the JSON array syntax is the Go library's). -/
def marshalBlock (list : List Hash) : List Str := list.map Hash.toStr

/-- `hashtree/block.go:96-115`, `UnmarshalJSON` from the list of texts. -/
def unmarshalBlock (texts : List Str) : Out (List Hash) := mapOut (Hash.fromString sha) texts

end Verif.HashTree
