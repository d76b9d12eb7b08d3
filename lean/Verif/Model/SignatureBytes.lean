import Verif.Model.Signature
import Verif.Model.PointMul

/-!
# `domain/cryptography/keys/signature` on the scalars of the vendored library

The same functions as `Model/Signature.lean`, on the 32 bytes of `Model/Scalar.lean` and with the multiplication of
`Model/PointMul.lean`. What remains abstract of the library is the group of the points, their encoding, and SHA-256.
-/

namespace Verif.SigBytes
open Verif Verif.Kyber

/-- What is not modelled of the curve: the points are any commutative group, with an encoding. `signature/sdk.go:30`. -/
structure Group (P : Type) [AddCommGroup P] where
  /-- `curve.Point().Base()` -/
  G : P
  /-- the base point has an order which divides `primeOrder` -/
  G_order : primeOrder • G = 0
  /-- binary form of a point -/
  encP : P → Str
  /-- `Point.UnmarshalBinary` -/
  decP : Str → Out P
  encP_len : ∀ p, (encP p).length = 32
  decP_encP : ∀ p, decP (encP p) = .ok p
  /-- SHA-256 (`signature/helper.go:11-13`) -/
  sha : Str → Str

variable {P : Type} [AddCommGroup P] [DecidableEq P] (g : Group P)

/-- `Scalar.Sub`: `kyber/group/edwards25519/scalar.go:85-88`. -/
def sub (a b : Scalar) : Scalar := ⟨scSub a.1 b.1, rfl⟩

/-- `Scalar.Mul`: `kyber/group/edwards25519/scalar.go:99-102`. -/
def mul (a b : Scalar) : Scalar := ⟨scMul a.1 b.1, rfl⟩

/-- `curve.Scalar().Div(curve.Scalar().One(), e)`: `kyber/group/edwards25519/scalar.go:105-110`, called at `signature/signature.go:37`. -/
def oneDiv (e : Scalar) : Scalar := ⟨scDiv one e.1, rfl⟩

/-- `Scalar.String`: `kyber/group/edwards25519/scalar.go:147-153`. -/
def scalarStr (a : Scalar) : Str := Hash.hexEncode (marshal a.1)

/-- `Point.String`: `kyber/group/edwards25519/point.go:34-38`. -/
def pointStr (p : P) : Str := Hash.hexEncode (g.encP p)

/-- The length of what `SetBytes` writes. -/
theorem setBytes_length (b : Str) : (setBytes b).length = 32 := rfl

/-- `signature/helper.go:10-16`, `createHash`. -/
def createHash (msg : Str) : Scalar := ⟨setBytes (g.sha msg), setBytes_length _⟩

/-- `signature/helper.go:18-20`, `genK`. -/
def genK (x : Scalar) (msg : Str) : Scalar := createHash g (msg ++ scalarStr x)

/-- `signature/helper.go:22-36`, `fromStringToScalar`. -/
def fromStringToScalar (s : Str) : Out Scalar := do
  let d ← Hash.hexDecode s
  unmarshalFrom d

/-- `signature/helper.go:38-51`, `fromStringToPoint`. -/
def fromStringToPoint (s : Str) : Out P := do
  let d ← Hash.hexDecode s
  g.decP d

/-- `signature/privatekey.go:23-27`, `PrivateKey.PublicKey`. -/
def publicKey (x : Scalar) : P := pointMul x.1 g.G

/-- `signature/signature.go:13-16`. -/
structure Sig (P : Type) where
  r : P
  s : Scalar
  deriving DecidableEq

/-- `signature/signature.go:28-40`, `Signature.PublicKey(msg)`. -/
def Sig.publicKey (sig : Sig P) (msg : Str) : P :=
  let e := createHash g (msg ++ pointStr g sig.r)
  let y := sig.r - pointMul sig.s.1 g.G
  pointMul (oneDiv e).1 y

/-- `signature/signature.go:43-65`, `Signature.Verify`; the random message of line 45 is the argument `rnd`. -/
def Sig.verify (rnd : Str) (sig : Sig P) : Bool :=
  let p := sig.publicKey g rnd
  let e := createHash g (rnd ++ pointStr g sig.r)
  let sGv := sig.r - pointMul e.1 p
  let sG := pointMul sig.s.1 g.G
  sG = sGv

/-- `signature/signature.go:18-25`, `createSignature`. -/
def createSignature (rnd : Str) (r : P) (s : Scalar) : Out (Sig P) :=
  let out : Sig P := ⟨r, s⟩
  if out.verify g rnd then .ok out else .err

/-- `signature/privatekey.go:85-104`, `PrivateKey.Sign`. -/
def sign (rnd : Str) (x : Scalar) (msg : Str) : Out (Sig P) :=
  let k := genK g x msg
  let r := pointMul k.1 g.G
  let e := createHash g (msg ++ pointStr g r)
  let s := sub k (mul e x)
  createSignature g rnd r s

/-- `signature/signature.go:68-71`, `Signature.String`. -/
def Sig.toStr (sig : Sig P) : Str :=
  Codec.b64Encode (pointStr g sig.r ++ Signature.delimiter :: scalarStr sig.s)

/-- `signature/adapter.go:19-43`, `Adapter.ToSignature`. -/
def toSignature (rnd : Str) (s : Str) : Out (Sig P) := do
  let decoded ← Codec.b64Decode s
  match Codec.split Signature.delimiter decoded with
  | [a, b] =>
    let point ← fromStringToPoint g a
    let scalar ← fromStringToScalar b
    createSignature g rnd point scalar
  | _ => .err

/-- `signature/privatekey.go:107-109`, `PrivateKey.String`. -/
def privateKeyStr (x : Scalar) : Str := scalarStr x

/-- `signature/privatekey_adapter.go:12-19`, `ToPrivateKey`. -/
def toPrivateKey (s : Str) : Out Scalar := fromStringToScalar s

/-- `signature/ringsignature.go:10-14`. -/
structure RingSig (P : Type) where
  ring : List P
  s : List Scalar
  e : Scalar
  deriving DecidableEq

/-- Reading a possibly nil entry of a slice of scalars. `signature/privatekey.go:65-82`. -/
def readSlot (l : List (Option Scalar)) (i : Nat) : Out Scalar :=
  match l[i]? with
  | some (some v) => .ok v
  | _ => .panic

/-- `signature/privatekey.go:65-75`, the loop of `RingSign`. The fuel is the number of turns it can take. -/
def ringLoop (x : Scalar) (msg : Str) (ring : List P) (signer : Nat) :
    Nat → Nat → List (Option Scalar) → List (Option Scalar) → Out (List (Option Scalar) × List (Option Scalar))
  | 0, _, _, _ => .panic
  | fuel + 1, i, es, ss =>
    if i = signer then .ok (es, ss)
    else do
      let r := ring.length
      let si := genK g x (msg ++ itoaNat i)
      let ss := ss.set i (some si)
      let ei ← readSlot es i
      let pi ← index ring i
      let sig := pointMul si.1 g.G
      let eipi := pointMul ei.1 pi
      let es := es.set ((i + 1) % r) (some (createHash g (msg ++ pointStr g (sig + eipi))))
      ringLoop x msg ring signer fuel ((i + 1) % r) es ss

/-- Use of a possibly nil scalar. `signature/privatekey.go:65-82`. -/
def nonNil : Option Scalar → Out Scalar
  | some v => .ok v
  | none => .panic

/-- `signature/privatekey.go:30-82`, `PrivateKey.RingSign`. -/
def ringSign (x : Scalar) (msg : Str) (ring : List P) : Out (RingSig P) :=
  match Signature.signerIndex ring (publicKey g x) with
  | none => .err
  | some signer => do
    let k := genK g x msg
    let r := ring.length
    let begin := (signer + 1) % r
    let es := (List.replicate r none).set begin (some (createHash g (msg ++ pointStr g (pointMul k.1 g.G))))
    let ss := List.replicate r none
    let (es, ss) ← ringLoop g x msg ring signer r begin es ss
    let esi ← readSlot es signer
    let ss := ss.set signer (some (sub k (mul esi x)))
    let s ← mapOut nonNil ss
    let e ← readSlot es 0
    return ⟨ring, s, e⟩

/-- `signature/ringsignature.go:37-46`, the loop of `RingSignature.Verify` from index `i` on. -/
def verifyLoop (msg : Str) (s : List Scalar) : Nat → List P → Scalar → Out Scalar
  | _, [], e => .ok e
  | i, p :: rest, e => do
    let si ← index s i
    verifyLoop msg s (i + 1) rest (createHash g (msg ++ pointStr g (pointMul si.1 g.G + pointMul e.1 p)))

/-- `signature/ringsignature.go:32-49`, `RingSignature.Verify`. The comparison is that of the bytes
(`kyber/group/edwards25519/scalar.go:33-37`). -/
def RingSig.verify (rs : RingSig P) (msg : Str) : Out Bool := do
  let e ← verifyLoop g msg rs.s 0 rs.ring rs.e
  return decide (rs.e = e)

/-- `signature/ringsignature.go:52-65`, `RingSignature.String`. -/
def RingSig.toStr (rs : RingSig P) : Str :=
  Codec.b64Encode (Signature.joinElems (rs.ring.map (pointStr g)) ++ Signature.delimiter ::
    (Signature.joinElems (rs.s.map scalarStr) ++ Signature.delimiter :: scalarStr rs.e))

/-- `signature/ringsignature_adapter.go:26-75`, `ToSignature`. -/
def toRingSignature (s : Str) : Out (RingSig P) := do
  let decoded ← Codec.b64Decode s
  match Codec.split Signature.delimiter decoded with
  | [a, b, e] =>
    let ring ← Signature.parseElems (fromStringToPoint g) a
    let ss ← Signature.parseElems fromStringToScalar b
    let e ← fromStringToScalar e
    return ⟨ring, ss, e⟩
  | _ => .err

end Verif.SigBytes
