import Verif.Model.Ledger

/-!
# Specification notions for the ledger
-/

namespace Verif.Ledger
open Verif

/-- The contract of a builder: it succeeds when `cond` holds, with a result for which `post` holds, and it returns
an error (it does not panic) when `cond` does not hold. -/
def Builds {α} (r : Out α) (cond : Prop) (post : α → Prop) : Prop :=
  (cond → ∃ o, r = .ok o ∧ post o) ∧ (¬ cond → r = .err)

/-- Two given strings are a collision of the digest function. -/
def Collision (sha : Str → Hash) (x y : Str) : Prop := x ≠ y ∧ sha x = sha y

/-- The whole seconds of a time fit in 64 bits (always true in Go). -/
def SecondsFit (t : Time) : Prop := -2 ^ 63 ≤ t / 1000000000 ∧ t / 1000000000 < 2 ^ 63

/-- The nanoseconds of a time fit in 64 bits (true in Go between the years 1678 and 2262). -/
def NanosFit (t : Time) : Prop := -2 ^ 63 ≤ t ∧ t < 2 ^ 63

/-- The number of digits in the decimal form of a height, fee or amount, as printed. -/
def textLength (n : UInt64) : Nat := (uintText n).length

/-- The serialization of a block that is hashed. -/
def blockText (o : Block) : Str :=
  uintText o.height ++ o.fees.hash.bytes ++ o.transactions.hash.bytes ++ secondsText o.createdOn ++
    (match o.previous with | some p => p.bytes | none => [])

/-- The serialization of a chain that is hashed. -/
def chainText (o : Chain) : Str :=
  o.id.1 ++ o.root.bytes ++ secondsText o.createdOn ++
    (match o.head with | some p => p.hash.bytes | none => [])

/-- The serialization of a transaction content that is hashed. -/
def contentText (o : Content) : Str :=
  o.owner.hash.bytes ++ o.amount.bytes ++ o.origin.hash.bytes ++ o.external.bytes ++ secondsText o.createdOn

/-- The serialization of a transaction that is hashed. -/
def transactionText (o : Transaction) : Str := o.content.hash.bytes ++ o.auth

/-- The serialization of a genesis unit that is hashed. -/
def gunitText (o : GUnit) : Str := o.content.hash.bytes ++ o.owner.hash.bytes

/-- The serialization of a genesis that is hashed. -/
def genesisText (o : Genesis) : Str := uintText o.fees ++ o.units.hash.bytes ++ nanosText o.createdOn

/-- The serialization of a unit content that is hashed. -/
def unitContentText (o : UnitContent) : Str :=
  uintText o.amount ++ o.nonce ++ nanosText o.activatedOn ++ nanosText o.createdOn

/-- A history, the newest block first: every block was built; the first block has height 1 and no previous block; every other block is one higher than
the block before it and names the hash of that block. -/
inductive History (sha : Str → Hash) : List Block → Prop
  | first {b : Block} : (∃ bb : BlockBuilder, bb.now sha = .ok b) → b.height = 1 → b.previous = none → History sha [b]
  | next {b c : Block} {rest : List Block} : (∃ bb : BlockBuilder, bb.now sha = .ok b) → b.height = c.height + 1 → b.previous = some c.hash →
      History sha (c :: rest) → History sha (b :: c :: rest)

/-- Two blocks with the same hash and the same parts, as far as they are hashed. -/
def SameBlock (x y : Block) : Prop :=
  x.hash = y.hash ∧ x.height = y.height ∧ x.fees.hash = y.fees.hash ∧ x.transactions.hash = y.transactions.hash ∧
    x.createdOn / 1000000000 = y.createdOn / 1000000000 ∧ x.previous = y.previous

/-- The transaction was built, with an authorization whose text is neither empty nor as long as a hash. -/
def BuiltTrx (sha : Str → Hash) (t : Transaction) : Prop :=
  (∃ b : ContentBuilder, b.now sha = .ok t.content) ∧ transactionNow sha (some t.content) (some t.auth) = .ok t ∧
    t.auth.length ≠ 0 ∧ t.auth.length ≠ 64 ∧ SecondsFit t.content.createdOn

/-- Where the money of a transaction comes from: the transaction, the transaction of its origin and so on, down to a unit of the genesis. -/
inductive Provenance (sha : Str → Hash) : Transaction → List Transaction → GUnit → Prop
  | unit {t : Transaction} {u : GUnit} : BuiltTrx sha t → t.content.origin = .genesis u → (∃ c o, gunitNow sha c o = .ok u) → Provenance sha t [t] u
  | next {t t' : Transaction} {l : List Transaction} {u : GUnit} : BuiltTrx sha t → t.content.origin = .trx t' → Provenance sha t' l u →
      Provenance sha t (t :: l) u

/-- All the texts which were hashed on the way. -/
def provenanceTexts (l : List Transaction) (u : GUnit) : List Str :=
  l.flatMap (fun t => [transactionText t, contentText t.content]) ++ [gunitText u]

/-- Two transactions with the same hash and the same parts, as far as they are hashed. -/
def SameTrx (x y : Transaction) : Prop :=
  x.hash = y.hash ∧ x.auth = y.auth ∧ x.content.owner.hash = y.content.owner.hash ∧ x.content.amount = y.content.amount ∧
    x.content.external = y.content.external ∧ x.content.createdOn / 1000000000 = y.content.createdOn / 1000000000

end Verif.Ledger
