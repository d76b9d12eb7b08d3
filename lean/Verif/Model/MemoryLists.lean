import Verif.Model.Memory

/-!
# The other lists which keep the slice of their caller

Rings, secrets and private transactions are built like transactions (`Model/Memory`): their builders keep the slice which they are given, and `List` returns this slice,
so that its owner and every reader of `List` may write into it. Likewise a ring of hashes. The elements are values: they have no methods which change them.
-/

namespace Verif.Memory
open Verif

/-- An object with a hash and the slice which was given to its builder: `rings/rings.go:5-8`, `rings/ring.go:5-8`, `genesis/privates/privates.go:5-8`,
`transactions/transactions.go:5-8`, `transactions/secrets/privates.go:5-8`, `transactions/privates/privates.go:5-8`. -/
structure ListObj where
  hash : Hash
  list : Slice

/-- `List()`: the slice itself. `rings/rings.go:28-30`, `rings/ring.go:28-30`, `genesis/privates/privates.go:28-30`, `transactions/transactions.go:28-30`,
`transactions/secrets/privates.go:28-30`, `transactions/privates/privates.go:28-30`. -/
def ListObj.List (o : ListObj) : Slice := o.list

variable (sha : Str → Hash)

/-- `Now` of the builders of lists, on the slice of the caller, `none` for nil: `rings/builder.go:37-57`, `genesis/privates/builder.go:37-57`,
`transactions/builder.go:37-57`, `transactions/secrets/builder.go:37-57`, `transactions/privates/builder.go:37-57`. -/
def buildList {α : Type} (hashOf : α → Hash) (h : Heap α) (list : Option Slice) : Out ListObj :=
  let list := match list with
    | some s => if s.len ≤ 0 then none else some s
    | none => none
  match list with
  | none => .err
  | some s => .ok ⟨Hash.fromMultiBytes sha ((s.read h).map fun e => (hashOf e).bytes), s⟩

/-- `rings/ring_builder.go:48-75`, `Now`, on the slice of the caller. -/
def buildRing (min max : UInt64) (h : Heap Hash) (list : Option Slice) : Out ListObj :=
  match list with
  | none => .err
  | some s =>
    let amount := UInt64.ofNat s.len
    if min > amount then .err
    else if max < amount then .err
    else .ok ⟨Hash.fromMultiBytes sha ((s.read h).map fun h => h.bytes), s⟩

end Verif.Memory
