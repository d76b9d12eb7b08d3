import Mathlib.Data.Nat.Digits.Defs
import Verif.Model.Codec
import Verif.Model.Hash

/-!
# `domain/cryptography/keys/encryption` (RSA keys)

The package wraps `crypto/rsa` (OAEP with SHA-256 and an empty label) and `crypto/x509` (PKCS #1, DER). Both are modelled
as far as the package uses them: SHA-256 is a parameter, the random seed of OAEP and the generated keys are inputs. Keys have two primes (the
factory makes no others); numbers are not negative.
-/

namespace Verif.Rsa
open Verif Codec

/-- `rsa.PublicKey`, which is also the `PublicKey` instance of `encryption/publickey.go:9-19`. -/
structure Pub where
  n : Nat
  e : Nat
  deriving DecidableEq, Repr

/-- `rsa.PrivateKey` with two primes. Go library `crypto/rsa`; called at `encryption/publickey.go:29`, `encryption/privatekey.go:36`. -/
structure Priv where
  pub : Pub
  d : Nat
  p : Nat
  q : Nat
  deriving DecidableEq, Repr

/-- The `PrivateKey` instance of `encryption/privatekey.go:9-21`: the key and the public key which was built for it. -/
structure PrivateKey where
  key : Priv
  pub : Pub
  deriving DecidableEq, Repr

/-! ## Builders -/

/-- `encryption/publickey_builder.go:32-38`, `Now`; the field `key` is nil until `WithKey`. -/
def buildPub (key : Option Pub) : Out Pub :=
  match key with
  | some k => .ok k
  | none => .err

/-- `encryption/builder.go:33-44`, `Now`; the field `pk` is nil until `WithPK`. -/
def buildPriv (pk : Option Priv) : Out PrivateKey :=
  match pk with
  | none => .err
  | some k => do
    let pub ← buildPub (some k.pub)
    .ok ⟨k, pub⟩

/-- `encryption/factory.go:22-29`, `Create`; `generated` is the outcome of `rsa.GenerateKey`. -/
def create (generated : Out Priv) : Out PrivateKey := do
  let pk ← generated
  buildPriv (some pk)

/-! ## Numbers and bytes -/

/-- `big.Int.Bytes`: big-endian without leading zeros. Go library `crypto/rsa`; called at `encryption/publickey.go:29`, `encryption/privatekey.go:36`. -/
def bytes (n : Nat) : Str := ((Nat.digits 256 n).reverse).map UInt8.ofNat

/-- `big.Int.SetBytes`. Go library `crypto/rsa`; called at `encryption/publickey.go:29`, `encryption/privatekey.go:36`. -/
def ofBytes (s : Str) : Nat := Nat.ofDigits 256 (s.reverse.map UInt8.toNat)

/-- `PublicKey.Size`: the length of the modulus in bytes. Go library `crypto/rsa`; called at `encryption/publickey.go:29`, `encryption/privatekey.go:36`. -/
def size (k : Pub) : Nat := (bytes k.n).length

/-- `big.Int.FillBytes` into a buffer of `k` bytes (the callers' numbers fit). Go library `crypto/rsa`; called at `encryption/publickey.go:29`, `encryption/privatekey.go:36`. -/
def fillBytes (k n : Nat) : Str := List.replicate (k - (bytes n).length) 0 ++ bytes n

/-! ## OAEP (`crypto/rsa`), as used in `encryption/publickey.go:27-30` and `encryption/privatekey.go:34-42` -/

/-- The counter of `mgf1XOR`: four bytes, big-endian (`incCounter`). Go library `crypto/rsa`; called at `encryption/publickey.go:29`, `encryption/privatekey.go:36`. -/
def counter (i : Nat) : Str := [UInt8.ofNat (i / 16777216), UInt8.ofNat (i / 65536), UInt8.ofNat (i / 256), UInt8.ofNat i]

/-- The mask of `mgf1XOR` of the given number of blocks from the counter `i` on. Go library `crypto/rsa`; called at `encryption/publickey.go:29`, `encryption/privatekey.go:36`. -/
def maskBlocks (sha256 : Str → Str) (seed : Str) (i : Nat) : Nat → Str
  | 0 => []
  | n + 1 => sha256 (seed ++ counter i) ++ maskBlocks sha256 seed (i + 1) n

/-- `mgf1XOR(out, sha256, seed)`: one block of 32 bytes after the other is added to `out`, until its end. Go library `crypto/rsa`; called at `encryption/publickey.go:29`, `encryption/privatekey.go:36`. -/
def mgfXor (sha256 : Str → Str) (seed out : Str) : Str :=
  List.zipWith (· ^^^ ·) out (maskBlocks sha256 seed 0 ((out.length + 31) / 32))

/-- `checkPub`: exponents from 2 to 2^31-1. Go library `crypto/rsa`; called at `encryption/publickey.go:29`, `encryption/privatekey.go:36`. -/
def checkPub (k : Pub) : Bool := decide (2 ≤ k.e ∧ k.e ≤ 2147483647)

/-- The encoded message of `EncryptOAEP` with an empty label: zero, masked seed, masked data block. Go library `crypto/rsa`; called at `encryption/publickey.go:29`, `encryption/privatekey.go:36`. -/
def oaep (sha256 : Str → Str) (k : Nat) (seed msg : Str) : Str :=
  let db := sha256 [] ++ List.replicate (k - msg.length - 66) 0 ++ 1 :: msg
  let db := mgfXor sha256 seed db
  0 :: (mgfXor sha256 db seed ++ db)

/-- `encryption/publickey.go:27-30`, `Encrypt`, that is `rsa.EncryptOAEP`; `seed` are the 32 bytes read from `rand.Reader`. -/
def encrypt (sha256 : Str → Str) (key : Pub) (seed msg : Str) : Out Str :=
  if !checkPub key then .err
  else if size key < msg.length + 66 then .err
  else .ok (fillBytes (size key) (ofBytes (oaep sha256 (size key) seed msg) ^ key.e % key.n))

/-- The search for the message in `DecryptOAEP`: zeros, a one, the message. Go library `crypto/rsa`; called at `encryption/publickey.go:29`, `encryption/privatekey.go:36`. -/
def unpad : Str → Out Str
  | [] => .err
  | b :: r => if b = 0 then unpad r else if b = 1 then .ok r else .err

/-- `encryption/privatekey.go:34-42`, `Decrypt`, that is `rsa.DecryptOAEP` (blinding and the Chinese remainder theorem do not change the result). -/
def decrypt (sha256 : Str → Str) (key : PrivateKey) (cipher : Str) : Out Str :=
  let k := size key.key.pub
  if !checkPub key.key.pub then .err
  else if k < cipher.length ∨ k < 66 then .err
  else if key.key.pub.n < ofBytes cipher then .err
  else
    let em := fillBytes k (ofBytes cipher ^ key.key.d % key.key.pub.n)
    let maskedSeed := (em.drop 1).take 32
    let maskedDb := em.drop 33
    let seed := mgfXor sha256 maskedDb maskedSeed
    let db := mgfXor sha256 seed maskedDb
    if em.head? = some 0 ∧ db.take 32 = sha256 [] then unpad (db.drop 32) else .err

/-! ## DER (`encoding/asn1`) -/

/-- The length octets: short form below 128, otherwise the number of length bytes and the bytes. Go library `crypto/x509`; called at `encryption/adapter.go:22,43`, `encryption/publickey_adapter.go:26,47`. -/
def derLen (n : Nat) : Str := if n < 128 then [UInt8.ofNat n] else UInt8.ofNat (128 + (bytes n).length) :: bytes n

/-- A tagged value. Go library `crypto/x509`; called at `encryption/adapter.go:22,43`, `encryption/publickey_adapter.go:26,47`. -/
def derTlv (tag : UInt8) (body : Str) : Str := tag :: (derLen body.length ++ body)

/-- The content of a non-negative INTEGER: at least one byte, and a zero in front if the first bit is set. Go library `crypto/x509`; called at `encryption/adapter.go:22,43`, `encryption/publickey_adapter.go:26,47`. -/
def derIntBody (n : Nat) : Str :=
  match bytes n with
  | [] => [0]
  | b :: r => if 128 ≤ b.toNat then 0 :: b :: r else b :: r

/-- A non-negative INTEGER. Go library `crypto/x509`; called at `encryption/adapter.go:22,43`, `encryption/publickey_adapter.go:26,47`. -/
def derInt (n : Nat) : Str := derTlv 2 (derIntBody n)

/-- The loop of `parseTagAndLength` over the length bytes. Go library `crypto/x509`; called at `encryption/adapter.go:22,43`, `encryption/publickey_adapter.go:26,47`. -/
def readLenBytes : Nat → Nat → Str → Out (Nat × Str)
  | 0, acc, s => .ok (acc, s)
  | _ + 1, _, [] => .err
  | n + 1, acc, b :: s =>
    if 8388608 ≤ acc then .err
    else if acc * 256 + b.toNat = 0 then .err
    else readLenBytes n (acc * 256 + b.toNat) s

/-- `parseTagAndLength` behind the tag. Go library `crypto/x509`; called at `encryption/adapter.go:22,43`, `encryption/publickey_adapter.go:26,47`. -/
def readLen : Str → Out (Nat × Str)
  | [] => .err
  | b :: s =>
    if b.toNat < 128 then .ok (b.toNat, s)
    else if b = 128 then .err
    else do
      let r ← readLenBytes (b.toNat - 128) 0 s
      if r.1 < 128 then .err else .ok r

/-- One value with the given tag: its content and what follows. Go library `crypto/x509`; called at `encryption/adapter.go:22,43`, `encryption/publickey_adapter.go:26,47`. -/
def readTlv (tag : UInt8) : Str → Out (Str × Str)
  | [] => .err
  | t :: s =>
    if t ≠ tag then .err
    else do
      let r ← readLen s
      if r.2.length < r.1 then .err else .ok (r.2.take r.1, r.2.drop r.1)

/-- `checkInteger` and `parseBigInt`. Negative numbers are errors here; in the code they are rejected by the checks which follow. Go library `crypto/x509`; called at `encryption/adapter.go:22,43`, `encryption/publickey_adapter.go:26,47`. -/
def readIntBody : Str → Out Nat
  | [] => .err
  | [b] => if 128 ≤ b.toNat then .err else .ok b.toNat
  | b :: c :: r =>
    if b = 0 ∧ c.toNat < 128 then .err
    else if 128 ≤ b.toNat then .err
    else .ok (ofBytes (b :: c :: r))

/-- An INTEGER and what follows. Go library `crypto/x509`; called at `encryption/adapter.go:22,43`, `encryption/publickey_adapter.go:26,47`. -/
def readInt (s : Str) : Out (Nat × Str) := do
  let r ← readTlv 2 s
  let n ← readIntBody r.1
  .ok (n, r.2)

/-! ## Adapters -/

/-- `encryption/publickey_adapter.go:45-48`, `ToBytes` (`x509.MarshalPKCS1PublicKey`). -/
def pubToBytes (k : Pub) : Str := derTlv 48 (derInt k.n ++ derInt k.e)

/-- `encryption/publickey_adapter.go:25-32`, `FromBytes` (`x509.ParsePKCS1PublicKey`): nothing may follow the SEQUENCE, but what follows the two numbers
inside of it is ignored. -/
def pubFromBytes (s : Str) : Out Pub := do
  let seq ← readTlv 48 s
  let n ← readInt seq.1
  let e ← readInt n.2
  if seq.2 ≠ [] then .err
  else if n.1 = 0 ∨ e.1 = 0 then .err
  else if 2147483647 < e.1 then .err
  else buildPub (some ⟨n.1, e.1⟩)

/-- `encryption/publickey_adapter.go:51-54`, `ToEncoded`. -/
def pubToEncoded (k : Pub) : Str := b64Encode (pubToBytes k)

/-- `encryption/publickey_adapter.go:35-42`, `FromEncoded`. -/
def pubFromEncoded (s : Str) : Out Pub := do
  let d ← b64Decode s
  pubFromBytes d

/-- `encryption/publickey_adapter.go:57-60`, `ToHash`. -/
def pubToHash (sha512 : Str → Hash) (k : Pub) : Hash := Hash.fromBytes sha512 (pubToBytes k)

/-- `PrivateKey.Validate`: the primes are greater than 1 and give the modulus, and `e·d` is 1 modulo each prime minus 1 (`Rem` by 0 is a panic
only for the prime 1). Go library; called by `x509.ParsePKCS1PrivateKey`, `encryption/adapter.go:22`. -/
def validate (k : Priv) : Bool :=
  checkPub k.pub && decide (1 < k.p ∧ 1 < k.q ∧ k.p * k.q = k.pub.n) &&
    decide ((k.pub.e * k.d : Int) % (k.p - 1 : Int) = 1 % (k.p - 1 : Int)) && decide ((k.pub.e * k.d : Int) % (k.q - 1 : Int) = 1 % (k.q - 1 : Int))

/-- `encryption/adapter.go:41-44`, `ToBytes` (`x509.MarshalPKCS1PrivateKey`); the last three numbers are those of `Precompute`. -/
def privToBytes (k : PrivateKey) : Str :=
  derTlv 48 (derInt 0 ++ derInt k.key.pub.n ++ derInt k.key.pub.e ++ derInt k.key.d ++ derInt k.key.p ++ derInt k.key.q ++
    derInt (k.key.d % (k.key.p - 1)) ++ derInt (k.key.d % (k.key.q - 1)) ++ derInt (Int.emod (Nat.gcdA k.key.q k.key.p) k.key.p).toNat)

/-- `encryption/adapter.go:21-28`, `FromBytes` (`x509.ParsePKCS1PrivateKey`). The precomputed numbers are optional and not used; here they are not read at all. -/
def privFromBytes (s : Str) : Out PrivateKey := do
  let seq ← readTlv 48 s
  let v ← readInt seq.1
  let n ← readInt v.2
  let e ← readInt n.2
  let d ← readInt e.2
  let p ← readInt d.2
  let q ← readInt p.2
  if seq.2 ≠ [] then .err
  else if 1 < v.1 then .err
  else if n.1 = 0 ∨ d.1 = 0 ∨ p.1 = 0 ∨ q.1 = 0 then .err
  else if validate ⟨⟨n.1, e.1⟩, d.1, p.1, q.1⟩ then buildPriv (some ⟨⟨n.1, e.1⟩, d.1, p.1, q.1⟩)
  else .err

/-- `encryption/adapter.go:47-50`, `ToEncoded`. -/
def privToEncoded (k : PrivateKey) : Str := b64Encode (privToBytes k)

/-- `encryption/adapter.go:31-38`, `FromEncoded`. -/
def privFromEncoded (s : Str) : Out PrivateKey := do
  let d ← b64Decode s
  privFromBytes d

end Verif.Rsa
