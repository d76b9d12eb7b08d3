import Verif.Model.Hash

/-!
# The ledger objects: `domain/rings`, `domain/genesis`, `domain/transactions`, `domain/receipts`,
`domain/chains`, `domain/identities`

Every package has the same shape: an object with a `Hash()` and getters, and a builder whose `WithX` methods
set a field and whose `Now` checks the fields and computes the hash.  A builder is modelled by the record of its
fields: `Create()` is the default record, `WithX` is the record update, `Now` is the function `now`.

Simplifications: `uint` is a 64-bit number; a `time.Time` is its number of nanoseconds since the Unix
epoch; keys and signatures occur in the ledger only through their `String()` and are modelled by it; list
elements and `With…` arguments are not nil interfaces (leaving the field unset is modelled).
-/

namespace Verif.Ledger
open Verif

/-- A `time.Time`, in nanoseconds since the Unix epoch. The fields `createdOn` of `transactions/content.go:10-17` and the like. -/
abbrev Time := Int

/-- Conversion to `int` (64-bit two's complement). For example `genesis/unitcontent_builder.go:87`. -/
def toInt (n : Int) : Int := Int.bmod n (2 ^ 64)

/-- `[]byte(strconv.Itoa(int(x)))` for a `uint` x. `genesis/unitcontent_builder.go:87`, `transactions/secrets/secret_builder.go:86`, `chains/block_builder.go:91`. -/
def uintText (n : UInt64) : Str := itoa (toInt n.toNat)

/-- `[]byte(strconv.Itoa(int(t.Unix())))`: whole seconds, rounded down. `transactions/content_builder.go:98`, `chains/block_builder.go:94`, `chains/builder.go:80`. -/
def secondsText (t : Time) : Str := itoa (toInt (t / 1000000000))

/-- `[]byte(strconv.Itoa(int(t.UTC().UnixNano())))`. `genesis/builder.go:81`, `genesis/unitcontent_builder.go:89-90`. -/
def nanosText (t : Time) : Str := itoa (toInt t)

variable (sha : Str → Hash)

/-- All the `…s` builders (`rings/builder.go:37-57`, `genesis/units_builder.go:37-57`,
`genesis/privates/builder.go:37-57`, `transactions/builder.go:37-57`, `transactions/secrets/builder.go:37-57`,
`transactions/privates/builder.go:37-57`): the hash of the concatenated hashes of a non-empty list. -/
def listNow {α} (hashOf : α → Hash) (list : Option (List α)) : Out (Hash × List α) :=
  let list := match list with
    | some l => if l.length ≤ 0 then none else some l
    | none => none
  match list with
  | none => .err
  | some l => .ok (Hash.fromMultiBytes sha (l.map (fun e => (hashOf e).bytes)), l)

/-! ## rings -/

/-- `rings/ring.go:5-8`. -/
structure Ring where
  hash : Hash
  list : List Hash
  deriving DecidableEq

/-- `rings/ring_builder.go:48-75`, `RingBuilder.Now`, with the builder fields of lines 10-15. -/
def ringNow (min max : UInt64) (list : Option (List Hash)) : Out Ring :=
  match list with
  | none => .err
  | some l =>
    let amount := UInt64.ofNat l.length
    if min > amount then .err
    else if max < amount then .err
    else .ok ⟨Hash.fromMultiBytes sha (l.map (fun h => h.bytes)), l⟩

/-- `rings/rings.go:5-8`. -/
structure Rings where
  hash : Hash
  list : List Ring

/-- `rings/builder.go:37-57`. -/
def ringsNow (list : Option (List Ring)) : Out Rings := do
  let (h, l) ← listNow sha Ring.hash list
  return ⟨h, l⟩

/-! ## genesis -/

/-- `genesis/unitcontent.go:9-15`. -/
structure UnitContent where
  hash : Hash
  amount : UInt64
  nonce : Str
  activatedOn : Time
  createdOn : Time
  deriving DecidableEq

/-- `genesis/unitcontent_builder.go:12-32`. -/
structure UnitContentBuilder where
  amount : UInt64 := 0
  nonce : Str := []
  activatedOn : Option Time := none
  createdOn : Option Time := none

/-- `genesis/unitcontent_builder.go:64-98`. -/
def UnitContentBuilder.now (b : UnitContentBuilder) : Out UnitContent :=
  if b.amount ≤ 0 then .err
  else if b.nonce = [] then .err
  else
    match b.activatedOn with
    | none => .err
    | some act =>
      match b.createdOn with
      | none => .err
      | some cre =>
        if act < cre then .err
        else
          let hash := Hash.fromMultiBytes sha [uintText b.amount, b.nonce, nanosText act, nanosText cre]
          .ok ⟨hash, b.amount, b.nonce, act, cre⟩

/-- `genesis/unit.go:8-12`. -/
structure GUnit where
  hash : Hash
  content : UnitContent
  owner : Ring
  deriving DecidableEq

/-- `genesis/unit_builder.go:48-67`. -/
def gunitNow (content : Option UnitContent) (owner : Option Ring) : Out GUnit :=
  match content with
  | none => .err
  | some c =>
    match owner with
    | none => .err
    | some o => .ok ⟨Hash.fromMultiBytes sha [c.hash.bytes, o.hash.bytes], c, o⟩

/-- `genesis/units.go:5-8`. -/
structure Units where
  hash : Hash
  list : List GUnit

/-- `genesis/units_builder.go:37-57`. -/
def unitsNow (list : Option (List GUnit)) : Out Units := do
  let (h, l) ← listNow sha GUnit.hash list
  return ⟨h, l⟩

/-- `genesis/genesis.go:9-14`. -/
structure Genesis where
  hash : Hash
  units : Units
  fees : UInt64
  createdOn : Time

/-- `genesis/builder.go:12-30`. -/
structure GenesisBuilder where
  units : Option Units := none
  fees : Option UInt64 := none
  createdOn : Option Time := none

/-- `genesis/builder.go:69-76`: the loop that looks for a unit created before the genesis. -/
def anyUnitBefore (t : Time) : List GUnit → Bool
  | [] => false
  | u :: rest => if u.content.createdOn < t then true else anyUnitBefore t rest

/-- `genesis/builder.go:56-89`. -/
def GenesisBuilder.now (b : GenesisBuilder) : Out Genesis :=
  match b.units with
  | none => .err
  | some us =>
    match b.fees with
    | none => .err
    | some fees =>
      match b.createdOn with
      | none => .err
      | some t =>
        if anyUnitBefore t us.list then .err
        else .ok ⟨Hash.fromMultiBytes sha [uintText fees, us.hash.bytes, nanosText t], us, fees, t⟩

/-- `genesis/privates/private.go:9-13`; the private key is its text. -/
structure GPrivate where
  hash : Hash
  unit : GUnit
  pk : Str

/-- `genesis/privates/private_builder.go:47-65`. -/
def gprivateNow (unit : Option GUnit) (pk : Option Str) : Out GPrivate :=
  match unit with
  | none => .err
  | some u =>
    match pk with
    | none => .err
    | some k => .ok ⟨Hash.fromMultiBytes sha [u.hash.bytes, k], u, k⟩

/-! ## transactions -/

mutual
/-- `transactions/origin.go:8-11`: exactly one of the two fields is set by the two constructors (13-23). -/
inductive Origin where
  | genesis (u : GUnit)
  | trx (t : Transaction)
/-- `transactions/content.go:10-17`. -/
inductive Content where
  | mk (hash : Hash) (owner : Ring) (amount : Hash) (origin : Origin) (external : Hash) (createdOn : Time)
/-- `transactions/transaction.go:8-12`; the authorization is its text. -/
inductive Transaction where
  | mk (hash : Hash) (content : Content) (auth : Str)
end

namespace Transaction
/-- `transactions/transaction.go:29-41`, getters. -/
def hash : Transaction → Hash | mk h _ _ => h
/-- `transactions/transaction.go:34-36`. -/
def content : Transaction → Content | mk _ c _ => c
/-- `transactions/transaction.go:39-41`. -/
def auth : Transaction → Str | mk _ _ a => a
end Transaction

namespace Content
/-- `transactions/content.go:40-67`, getters. -/
def hash : Content → Hash | mk h _ _ _ _ _ => h
/-- `transactions/content.go:45-47`. -/
def owner : Content → Ring | mk _ o _ _ _ _ => o
/-- `transactions/content.go:50-52`. -/
def amount : Content → Hash | mk _ _ a _ _ _ => a
/-- `transactions/content.go:55-57`. -/
def origin : Content → Origin | mk _ _ _ o _ _ => o
/-- `transactions/content.go:60-62`. -/
def external : Content → Hash | mk _ _ _ _ e _ => e
/-- `transactions/content.go:65-67`. -/
def createdOn : Content → Time | mk _ _ _ _ _ t => t
end Content

/-- `transactions/origin.go:38-44`, `Origin.Hash`. -/
def Origin.hash : Origin → Hash
  | genesis u => u.hash
  | trx t => t.hash

/-- `transactions/origin_builder.go:41-51`: the genesis takes precedence. -/
def originNow (genesis : Option GUnit) (trx : Option Transaction) : Out Origin :=
  match genesis with
  | some g => .ok (.genesis g)
  | none =>
    match trx with
    | some t => .ok (.trx t)
    | none => .err

/-- `transactions/content_builder.go:12-34`. -/
structure ContentBuilder where
  owner : Option Ring := none
  amount : Option Hash := none
  origin : Option Origin := none
  external : Option Hash := none
  createdOn : Option Time := none

/-- `transactions/content_builder.go:72-106`. -/
def ContentBuilder.now (b : ContentBuilder) : Out Content :=
  match b.owner with
  | none => .err
  | some owner =>
    match b.amount with
    | none => .err
    | some amount =>
      match b.origin with
      | none => .err
      | some origin =>
        match b.external with
        | none => .err
        | some external =>
          match b.createdOn with
          | none => .err
          | some t =>
            let hash := Hash.fromMultiBytes sha
              [owner.hash.bytes, amount.bytes, origin.hash.bytes, external.bytes, secondsText t]
            .ok (.mk hash owner amount origin external t)

/-- `transactions/transaction_builder.go:46-65`. -/
def transactionNow (content : Option Content) (auth : Option Str) : Out Transaction :=
  match content with
  | none => .err
  | some c =>
    match auth with
    | none => .err
    | some a => .ok (.mk (Hash.fromMultiBytes sha [c.hash.bytes, a]) c a)

/-- `transactions/transactions.go:5-8`. -/
structure Transactions where
  hash : Hash
  list : List Transaction

/-- `transactions/builder.go:37-57`. -/
def transactionsNow (list : Option (List Transaction)) : Out Transactions := do
  let (h, l) ← listNow sha Transaction.hash list
  return ⟨h, l⟩

/-! ## secrets -/

mutual
/-- `transactions/secrets/secret.go:8-15`. -/
inductive Secret where
  | mk (hash : Hash) (amount : UInt64) (nonce : Str) (pub : Transaction) (origin : Option Secret)
      (sides : Option Secrets)
/-- `transactions/secrets/privates.go:5-8`. -/
inductive Secrets where
  | mk (hash : Hash) (list : List Secret)
end

namespace Secret
/-- `transactions/secrets/secret.go:78-115`, getters. -/
def hash : Secret → Hash | mk h _ _ _ _ _ => h
/-- `transactions/secrets/secret.go:83-85`. -/
def amount : Secret → UInt64 | mk _ a _ _ _ _ => a
/-- `transactions/secrets/secret.go:88-90`. -/
def nonce : Secret → Str | mk _ _ n _ _ _ => n
/-- `transactions/secrets/secret.go:93-95`. -/
def pub : Secret → Transaction | mk _ _ _ p _ _ => p
/-- `transactions/secrets/secret.go:98-105`. -/
def origin : Secret → Option Secret | mk _ _ _ _ o _ => o
/-- `transactions/secrets/secret.go:108-115`. -/
def sides : Secret → Option Secrets | mk _ _ _ _ _ s => s
end Secret

namespace Secrets
/-- `transactions/secrets/privates.go:23-30`, getters. -/
def hash : Secrets → Hash | mk h _ => h
/-- `transactions/secrets/privates.go:28-30`. -/
def list : Secrets → List Secret | mk _ l => l
end Secrets

/-- `transactions/secrets/builder.go:37-57`. -/
def secretsNow (list : Option (List Secret)) : Out Secrets := do
  let (h, l) ← listNow sha Secret.hash list
  return .mk h l

/-- `transactions/secrets/secret_builder.go:11-33`. -/
structure SecretBuilder where
  amount : UInt64 := 0
  nonce : Str := []
  pub : Option Transaction := none
  origin : Option Secret := none
  sides : Option Secrets := none

/-- `transactions/secrets/secret_builder.go:71-116`. -/
def SecretBuilder.now (b : SecretBuilder) : Out Secret :=
  if b.amount ≤ 0 then .err
  else if b.nonce = [] then .err
  else
    match b.pub with
    | none => .err
    | some p =>
      let data := [p.hash.bytes, uintText b.amount, b.nonce]
      let data := match b.origin with
        | some o => data ++ [o.hash.bytes]
        | none => data
      let data := match b.sides with
        | some s => data ++ [s.hash.bytes]
        | none => data
      let hash := Hash.fromMultiBytes sha data
      match b.origin, b.sides with
      | some o, some s => .ok (.mk hash b.amount b.nonce p (some o) (some s))
      | some o, none => .ok (.mk hash b.amount b.nonce p (some o) none)
      | none, some s => .ok (.mk hash b.amount b.nonce p none (some s))
      | none, none => .ok (.mk hash b.amount b.nonce p none none)

/-! ## receipts and private transactions -/

/-- `receipts/receipt.go:9-13`; the signature is its text. -/
structure Receipt where
  hash : Hash
  secret : Secret
  sig : Str

/-- `receipts/builder.go:47-62`: the list of hashed rows is empty. -/
def receiptNow (secret : Option Secret) (sig : Option Str) : Out Receipt :=
  match secret with
  | none => .err
  | some s =>
    match sig with
    | none => .err
    | some g => .ok ⟨Hash.fromMultiBytes sha [], s, g⟩

/-- `transactions/privates/private.go:9-13`; the private key is its text. -/
structure TPrivate where
  hash : Hash
  pk : Str
  receipt : Receipt

/-- `transactions/privates/private_builder.go:47-62`: the list of hashed rows is empty. -/
def tprivateNow (pk : Option Str) (receipt : Option Receipt) : Out TPrivate :=
  match pk with
  | none => .err
  | some k =>
    match receipt with
    | none => .err
    | some r => .ok ⟨Hash.fromMultiBytes sha [], k, r⟩

/-- `transactions/privates/privates.go:5-8`. -/
structure TPrivates where
  hash : Hash
  list : List TPrivate

/-- `transactions/privates/builder.go:37-57`. -/
def tprivatesNow (list : Option (List TPrivate)) : Out TPrivates := do
  let (h, l) ← listNow sha TPrivate.hash list
  return ⟨h, l⟩

/-! ## identities -/

/-- `identities/transactions.go:8-11`. -/
structure IdTransactions where
  outgoing : Option TPrivates
  incoming : Option Secrets

/-- `identities/transactions_builder.go:40-54`. -/
def idTransactionsNow (outgoing : Option TPrivates) (incoming : Option Secrets) : Out IdTransactions :=
  match outgoing, incoming with
  | some o, some i => .ok ⟨some o, some i⟩
  | some o, none => .ok ⟨some o, none⟩
  | none, some i => .ok ⟨none, some i⟩
  | none, none => .ok ⟨none, none⟩

/-- `identities/identity.go:5-9`. -/
structure Identity where
  name : Str
  trx : IdTransactions
  genesis : Option TPrivates

/-- `identities/builder.go:49-63`. -/
def identityNow (name : Str) (trx : Option IdTransactions) (genesis : Option TPrivates) : Out Identity :=
  if name = [] then .err
  else
    match trx with
    | none => .err
    | some t =>
      match genesis with
      | some g => .ok ⟨name, t, some g⟩
      | none => .ok ⟨name, t, none⟩

/-! ## chains -/

/-- `chains/block.go:11-18`. -/
structure Block where
  hash : Hash
  height : UInt64
  fees : Ring
  transactions : Transactions
  createdOn : Time
  previous : Option Hash

/-- `chains/block_builder.go:13-35`. -/
structure BlockBuilder where
  height : UInt64 := 0
  fees : Option Ring := none
  transactions : Option Transactions := none
  createdOn : Option Time := none
  previous : Option Hash := none

/-- `chains/block_builder.go:73-111`. -/
def BlockBuilder.now (b : BlockBuilder) : Out Block :=
  if b.height = 0 then .err
  else
    match b.fees with
    | none => .err
    | some fees =>
      match b.transactions with
      | none => .err
      | some trx =>
        match b.createdOn with
        | none => .err
        | some t =>
          let data := [uintText b.height, fees.hash.bytes, trx.hash.bytes, secondsText t]
          match b.previous with
          | some p => .ok ⟨Hash.fromMultiBytes sha (data ++ [p.bytes]), b.height, fees, trx, t, some p⟩
          | none => .ok ⟨Hash.fromMultiBytes sha data, b.height, fees, trx, t, none⟩

/-- A `uuid.UUID`: 16 bytes. The field `id` of `chains/chain.go:11`. -/
abbrev Uuid := { b : Str // b.length = 16 }

/-- `chains/chain.go:10-16`. -/
structure Chain where
  id : Uuid
  hash : Hash
  root : Hash
  createdOn : Time
  head : Option Block

/-- `chains/builder.go:12-32`. -/
structure ChainBuilder where
  id : Option Uuid := none
  root : Option Hash := none
  createdOn : Option Time := none
  head : Option Block := none

/-- `chains/builder.go:64-97`. -/
def ChainBuilder.now (b : ChainBuilder) : Out Chain :=
  match b.id with
  | none => .err
  | some id =>
    match b.root with
    | none => .err
    | some root =>
      match b.createdOn with
      | none => .err
      | some t =>
        let data := [id.1, root.bytes, secondsText t]
        match b.head with
        | some h => .ok ⟨id, Hash.fromMultiBytes sha (data ++ [h.hash.bytes]), root, t, some h⟩
        | none => .ok ⟨id, Hash.fromMultiBytes sha data, root, t, none⟩

end Verif.Ledger
