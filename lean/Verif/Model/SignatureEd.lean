import Verif.Model.SignatureBytes
import Verif.Model.Edwards

/-!
# `domain/cryptography/keys/signature` on the points of the vendored library

The same functions again, on the coordinates of `Model/Edwards.lean` and the scalars of `Model/Scalar.lean`: nothing of
the library is abstract but SHA-256, the argument `sha` (`signature/helper.go:11-13`).
-/

namespace Verif.SigEd
open Verif Verif.Kyber
open Verif.SigBytes (sub mul oneDiv scalarStr fromStringToScalar setBytes_length readSlot nonNil)

variable (sha : Str → Str)

/-- `signature/helper.go:10-16`, `createHash`. -/
def createHash (msg : Str) : Scalar := ⟨setBytes (sha msg), setBytes_length _⟩

/-- `signature/helper.go:18-20`, `genK`. -/
def genK (x : Scalar) (msg : Str) : Scalar := createHash sha (msg ++ scalarStr x)

/-- `Point.String`: `kyber/group/edwards25519/point.go:34-38`, `signature/publickey.go:30-32`. -/
def pointStr (p : Extended) : Str := Hash.hexEncode p.toBytes

/-- `signature/helper.go:38-51`, `fromStringToPoint`; `signature/publickey_adapter.go:12-19`, `ToPublicKey`. -/
def toPublicKey (s : Str) : Out Extended := do
  let d ← Hash.hexDecode s
  Extended.fromBytes d

/-- `signature/privatekey.go:23-27`, `PrivateKey.PublicKey`. -/
def publicKey (x : Scalar) : Extended := Extended.mul x.1 baseExt

/-- `signature/signature.go:13-16`. -/
structure Sig where
  r : Extended
  s : Scalar

/-- `signature/signature.go:28-40`, `Signature.PublicKey(msg)`. -/
def Sig.publicKey (sig : Sig) (msg : Str) : Extended :=
  let e := createHash sha (msg ++ pointStr sig.r)
  let y := sig.r.sub (Extended.mul sig.s.1 baseExt)
  Extended.mul (oneDiv e).1 y

/-- `signature/signature.go:43-65`, `Signature.Verify`; the random message of line 45 is the argument `rnd`. -/
def Sig.verify (rnd : Str) (sig : Sig) : Bool :=
  let p := sig.publicKey sha rnd
  let e := createHash sha (rnd ++ pointStr sig.r)
  let sGv := sig.r.sub (Extended.mul e.1 p)
  let sG := Extended.mul sig.s.1 baseExt
  sG.equal sGv

/-- `signature/signature.go:18-25`, `createSignature`. -/
def createSignature (rnd : Str) (r : Extended) (s : Scalar) : Out Sig :=
  let out : Sig := ⟨r, s⟩
  if out.verify sha rnd then .ok out else .err

/-- `signature/privatekey.go:85-104`, `PrivateKey.Sign`. -/
def sign (rnd : Str) (x : Scalar) (msg : Str) : Out Sig :=
  let k := genK sha x msg
  let r := Extended.mul k.1 baseExt
  let e := createHash sha (msg ++ pointStr r)
  let s := sub k (mul e x)
  createSignature sha rnd r s

/-- `signature/signature.go:68-71`, `Signature.String`. -/
def Sig.toStr (sig : Sig) : Str :=
  Codec.b64Encode (pointStr sig.r ++ Signature.delimiter :: scalarStr sig.s)

/-- `signature/adapter.go:19-43`, `Adapter.ToSignature`. -/
def toSignature (rnd : Str) (s : Str) : Out Sig := do
  let decoded ← Codec.b64Decode s
  match Codec.split Signature.delimiter decoded with
  | [a, b] =>
    let point ← toPublicKey a
    let scalar ← fromStringToScalar b
    createSignature sha rnd point scalar
  | _ => .err

/-- `signature/ringsignature.go:10-14`. -/
structure RingSig where
  ring : List Extended
  s : List Scalar
  e : Scalar

/-- `signature/privatekey.go:31-40`, the closure `retrieveSignerIndexFn`; `signature/publickey.go:25-27`, `Equals`. -/
def signerIndex (ring : List Extended) (pk : Extended) : Option Nat :=
  match ring with
  | [] => none
  | p :: rest => if p.equal pk then some 0 else (signerIndex rest pk).map (· + 1)

/-- `signature/privatekey.go:65-75`, the loop of `RingSign`. The fuel is the number of turns it can take. -/
def ringLoop (x : Scalar) (msg : Str) (ring : List Extended) (signer : Nat) :
    Nat → Nat → List (Option Scalar) → List (Option Scalar) → Out (List (Option Scalar) × List (Option Scalar))
  | 0, _, _, _ => .panic
  | fuel + 1, i, es, ss =>
    if i = signer then .ok (es, ss)
    else do
      let r := ring.length
      let si := genK sha x (msg ++ itoaNat i)
      let ss := ss.set i (some si)
      let ei ← readSlot es i
      let pi ← index ring i
      let sig := Extended.mul si.1 baseExt
      let eipi := Extended.mul ei.1 pi
      let es := es.set ((i + 1) % r) (some (createHash sha (msg ++ pointStr (sig.add eipi))))
      ringLoop x msg ring signer fuel ((i + 1) % r) es ss

/-- `signature/privatekey.go:30-82`, `PrivateKey.RingSign`. -/
def ringSign (x : Scalar) (msg : Str) (ring : List Extended) : Out RingSig :=
  match signerIndex ring (publicKey x) with
  | none => .err
  | some signer => do
    let k := genK sha x msg
    let r := ring.length
    let begin := (signer + 1) % r
    let es := (List.replicate r none).set begin (some (createHash sha (msg ++ pointStr (Extended.mul k.1 baseExt))))
    let ss := List.replicate r none
    let (es, ss) ← ringLoop sha x msg ring signer r begin es ss
    let esi ← readSlot es signer
    let ss := ss.set signer (some (sub k (mul esi x)))
    let s ← mapOut nonNil ss
    let e ← readSlot es 0
    return ⟨ring, s, e⟩

/-- `signature/ringsignature.go:37-46`, the loop of `RingSignature.Verify` from index `i` on. -/
def verifyLoop (msg : Str) (s : List Scalar) : Nat → List Extended → Scalar → Out Scalar
  | _, [], e => .ok e
  | i, p :: rest, e => do
    let si ← index s i
    verifyLoop msg s (i + 1) rest
      (createHash sha (msg ++ pointStr ((Extended.mul si.1 baseExt).add (Extended.mul e.1 p))))

/-- `signature/ringsignature.go:32-49`, `RingSignature.Verify`. -/
def RingSig.verify (rs : RingSig) (msg : Str) : Out Bool := do
  let e ← verifyLoop sha msg rs.s 0 rs.ring rs.e
  return decide (rs.e = e)

/-- `signature/ringsignature.go:52-65`, `RingSignature.String`. -/
def RingSig.toStr (rs : RingSig) : Str :=
  Codec.b64Encode (Signature.joinElems (rs.ring.map pointStr) ++ Signature.delimiter ::
    (Signature.joinElems (rs.s.map scalarStr) ++ Signature.delimiter :: scalarStr rs.e))

/-- `signature/ringsignature_adapter.go:26-75`, `ToSignature`. -/
def toRingSignature (s : Str) : Out RingSig := do
  let decoded ← Codec.b64Decode s
  match Codec.split Signature.delimiter decoded with
  | [a, b, e] =>
    let ring ← Signature.parseElems toPublicKey a
    let ss ← Signature.parseElems fromStringToScalar b
    let e ← fromStringToScalar e
    return ⟨ring, ss, e⟩
  | _ => .err

end Verif.SigEd
