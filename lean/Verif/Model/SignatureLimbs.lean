import Verif.Model.SignatureBytes
import Verif.Model.EdwardsLimbs

/-!
# `domain/cryptography/keys/signature` on the machine words of the vendored library

The same functions once more, on the limbs of `Model/EdwardsLimbs.lean` and the scalars of `Model/Scalar.lean`: nothing of
the library is abstract but SHA-256, the argument `sha` (`signature/helper.go:11-13`).
-/

namespace Verif.SigLimb
open Verif Verif.Kyber
open Verif.SigBytes (sub mul oneDiv scalarStr fromStringToScalar setBytes_length readSlot nonNil)

variable (sha : Str → Str)

/-- `signature/helper.go:10-16`, `createHash`. -/
def createHash (msg : Str) : Scalar := ⟨setBytes (sha msg), setBytes_length _⟩

/-- `signature/helper.go:18-20`, `genK`. -/
def genK (x : Scalar) (msg : Str) : Scalar := createHash sha (msg ++ scalarStr x)

/-- `Point.String`: `kyber/group/edwards25519/point.go:34-38`, `signature/publickey.go:30-32`. -/
def pointStr (p : LExtended) : Str := Hash.hexEncode p.toBytes

/-- `signature/helper.go:38-51`, `fromStringToPoint`; `signature/publickey_adapter.go:12-19`, `ToPublicKey`. -/
def toPublicKey (s : Str) : Out LExtended := do
  let d ← Hash.hexDecode s
  LExtended.fromBytes d

/-- `signature/privatekey.go:23-27`, `PrivateKey.PublicKey`. -/
def publicKey (x : Scalar) : LExtended := LExtended.mul x.1 lbaseExt

/-- `signature/signature.go:13-16`. -/
structure Sig where
  r : LExtended
  s : Scalar

/-- `signature/signature.go:28-40`, `Signature.PublicKey(msg)`. -/
def Sig.publicKey (sig : Sig) (msg : Str) : LExtended :=
  let e := createHash sha (msg ++ pointStr sig.r)
  let y := sig.r.sub (LExtended.mul sig.s.1 lbaseExt)
  LExtended.mul (oneDiv e).1 y

/-- `signature/signature.go:43-65`, `Signature.Verify`; the random message of line 45 is the argument `rnd`. -/
def Sig.verify (rnd : Str) (sig : Sig) : Bool :=
  let p := sig.publicKey sha rnd
  let e := createHash sha (rnd ++ pointStr sig.r)
  let sGv := sig.r.sub (LExtended.mul e.1 p)
  let sG := LExtended.mul sig.s.1 lbaseExt
  sG.equal sGv

/-- `signature/signature.go:18-25`, `createSignature`. -/
def createSignature (rnd : Str) (r : LExtended) (s : Scalar) : Out Sig :=
  let out : Sig := ⟨r, s⟩
  if out.verify sha rnd then .ok out else .err

/-- `signature/privatekey.go:85-104`, `PrivateKey.Sign`. -/
def sign (rnd : Str) (x : Scalar) (msg : Str) : Out Sig :=
  let k := genK sha x msg
  let r := LExtended.mul k.1 lbaseExt
  let e := createHash sha (msg ++ pointStr r)
  let s := sub k (mul e x)
  createSignature sha rnd r s

/-- `signature/signature.go:68-71`, `Signature.String`. -/
def Sig.toStr (sig : Sig) : Str :=
  Codec.b64Encode (pointStr sig.r ++ Signature.delimiter :: scalarStr sig.s)

/-- `signature/adapter.go:19-43`, `Adapter.ToSignature`. -/
def toSignature (rnd : Str) (s : Str) : Out Sig := do
  let decoded ← Codec.b64Decode s
  match Codec.split Signature.delimiter decoded with
  | [a, b] =>
    let point ← toPublicKey a
    let scalar ← fromStringToScalar b
    createSignature sha rnd point scalar
  | _ => .err

/-- `signature/ringsignature.go:10-14`. -/
structure RingSig where
  ring : List LExtended
  s : List Scalar
  e : Scalar

/-- `signature/privatekey.go:31-40`, the closure `retrieveSignerIndexFn`; `signature/publickey.go:25-27`, `Equals`. -/
def signerIndex (ring : List LExtended) (pk : LExtended) : Option Nat :=
  match ring with
  | [] => none
  | p :: rest => if p.equal pk then some 0 else (signerIndex rest pk).map (· + 1)

/-- `signature/privatekey.go:65-75`, the loop of `RingSign`. The fuel is the number of turns it can take. -/
def ringLoop (x : Scalar) (msg : Str) (ring : List LExtended) (signer : Nat) :
    Nat → Nat → List (Option Scalar) → List (Option Scalar) → Out (List (Option Scalar) × List (Option Scalar))
  | 0, _, _, _ => .panic
  | fuel + 1, i, es, ss =>
    if i = signer then .ok (es, ss)
    else do
      let r := ring.length
      let si := genK sha x (msg ++ itoaNat i)
      let ss := ss.set i (some si)
      let ei ← readSlot es i
      let pi ← index ring i
      let sig := LExtended.mul si.1 lbaseExt
      let eipi := LExtended.mul ei.1 pi
      let es := es.set ((i + 1) % r) (some (createHash sha (msg ++ pointStr (sig.add eipi))))
      ringLoop x msg ring signer fuel ((i + 1) % r) es ss

/-- `signature/privatekey.go:30-82`, `PrivateKey.RingSign`. -/
def ringSign (x : Scalar) (msg : Str) (ring : List LExtended) : Out RingSig :=
  match signerIndex ring (publicKey x) with
  | none => .err
  | some signer => do
    let k := genK sha x msg
    let r := ring.length
    let begin := (signer + 1) % r
    let es := (List.replicate r none).set begin (some (createHash sha (msg ++ pointStr (LExtended.mul k.1 lbaseExt))))
    let ss := List.replicate r none
    let (es, ss) ← ringLoop sha x msg ring signer r begin es ss
    let esi ← readSlot es signer
    let ss := ss.set signer (some (sub k (mul esi x)))
    let s ← mapOut nonNil ss
    let e ← readSlot es 0
    return ⟨ring, s, e⟩

/-- `signature/ringsignature.go:37-46`, the loop of `RingSignature.Verify` from index `i` on. -/
def verifyLoop (msg : Str) (s : List Scalar) : Nat → List LExtended → Scalar → Out Scalar
  | _, [], e => .ok e
  | i, p :: rest, e => do
    let si ← index s i
    verifyLoop msg s (i + 1) rest
      (createHash sha (msg ++ pointStr ((LExtended.mul si.1 lbaseExt).add (LExtended.mul e.1 p))))

/-- `signature/ringsignature.go:32-49`, `RingSignature.Verify`. -/
def RingSig.verify (rs : RingSig) (msg : Str) : Out Bool := do
  let e ← verifyLoop sha msg rs.s 0 rs.ring rs.e
  return decide (rs.e = e)

/-- `signature/ringsignature.go:52-65`, `RingSignature.String`. -/
def RingSig.toStr (rs : RingSig) : Str :=
  Codec.b64Encode (Signature.joinElems (rs.ring.map pointStr) ++ Signature.delimiter ::
    (Signature.joinElems (rs.s.map scalarStr) ++ Signature.delimiter :: scalarStr rs.e))

/-- `signature/ringsignature_adapter.go:26-75`, `ToSignature`. -/
def toRingSignature (s : Str) : Out RingSig := do
  let decoded ← Codec.b64Decode s
  match Codec.split Signature.delimiter decoded with
  | [a, b, e] =>
    let ring ← Signature.parseElems toPublicKey a
    let ss ← Signature.parseElems fromStringToScalar b
    let e ← fromStringToScalar e
    return ⟨ring, ss, e⟩
  | _ => .err

end Verif.SigLimb
