import Verif.Model.Go
import Verif.Model.Hash
import Verif.Model.Codec
import Mathlib.Data.ZMod.Basic
import Mathlib.Algebra.Field.ZMod

/-!
# `domain/cryptography/keys/signature`

The curve (`go.dedis.ch/kyber/v3`, edwards25519) is a parameter: scalars are the integers modulo the prime
group order `L`, points are the elements of *any* commutative group `P` (so points outside the prime order
subgroup are included), and the encodings and the scalar hash are arbitrary functions with the listed laws.
Only reduced scalars are modelled here; `Model/SignatureBytes.lean` has the same functions on any 32 bytes, and C118 is
the refinement between the two.
-/

namespace Verif.Signature
open Verif

/-- The facts about the third-party curve library that the code relies on. `signature/sdk.go:30`. -/
structure Curve (L : Nat) (P : Type) [AddCommGroup P] where
  /-- `curve.Point().Base()` -/
  G : P
  /-- the base point has order dividing `L` -/
  G_order : L • G = 0
  /-- binary form of a scalar -/
  encS : ZMod L → Str
  /-- `Scalar.UnmarshalFrom` on a byte reader -/
  decS : Str → Out (ZMod L)
  /-- binary form of a point -/
  encP : P → Str
  /-- `Point.UnmarshalBinary` -/
  decP : Str → Out P
  encS_len : ∀ a, (encS a).length = 32
  encP_len : ∀ p, (encP p).length = 32
  decS_encS : ∀ a, decS (encS a) = .ok a
  decP_encP : ∀ p, decP (encP p) = .ok p
  /-- SHA-256 of the text read as a scalar (`signature/helper.go:10-16`) -/
  createHash : Str → ZMod L

variable {L : Nat} {P : Type} [AddCommGroup P] [DecidableEq P] [Fact L.Prime]

/-- `curve.Point().Mul(a, p)`: the scalar is a number below `L`. Called at `signature/privatekey.go:23-104`, `signature/signature.go:28-65`. -/
def smul (a : ZMod L) (p : P) : P := a.val • p

variable (c : Curve L P)

/-- `Scalar.String`: hexadecimal of the binary form. Called at `signature/signature.go:68-71`, `signature/ringsignature.go:52-65`. -/
def scalarStr (a : ZMod L) : Str := Hash.hexEncode (c.encS a)

/-- `Point.String`, hence `signature/publickey.go:30-32`, `PublicKey.String`. -/
def pointStr (p : P) : Str := Hash.hexEncode (c.encP p)

/-- `signature/helper.go:18-20`, `genK`. -/
def genK (x : ZMod L) (msg : Str) : ZMod L := c.createHash (msg ++ scalarStr c x)

/-- `signature/helper.go:22-36`, `fromStringToScalar`. -/
def fromStringToScalar (s : Str) : Out (ZMod L) := do
  let d ← Hash.hexDecode s
  c.decS d

/-- `signature/helper.go:38-51`, `fromStringToPoint`. -/
def fromStringToPoint (s : Str) : Out P := do
  let d ← Hash.hexDecode s
  c.decP d

/-- `signature/privatekey.go:23-27`, `PrivateKey.PublicKey`. -/
def publicKey (x : ZMod L) : P := smul x c.G

/-! ## Plain signatures -/

/-- `signature/signature.go:13-16`. A signature is a point and a scalar. -/
structure Sig (L : Nat) (P : Type) where
  r : P
  s : ZMod L
  deriving DecidableEq

/-- `signature/signature.go:28-40`, `Signature.PublicKey(msg)`. `Div` by the zero scalar gives zero (as the
modular exponentiation in kyber does, and as the inverse in `ZMod L`). -/
def Sig.publicKey (sig : Sig L P) (msg : Str) : P :=
  let e := c.createHash (msg ++ pointStr c sig.r)
  let y := sig.r - smul sig.s c.G
  smul (1 / e) y

/-- `signature/signature.go:43-65`, `Signature.Verify`; the random message of line 45 is the argument `rnd`. -/
def Sig.verify (rnd : Str) (sig : Sig L P) : Bool :=
  let p := sig.publicKey c rnd
  let e := c.createHash (rnd ++ pointStr c sig.r)
  let sGv := sig.r - smul e p
  let sG := smul sig.s c.G
  sG = sGv

/-- `signature/signature.go:18-25`, `createSignature`. -/
def createSignature (rnd : Str) (r : P) (s : ZMod L) : Out (Sig L P) :=
  let out : Sig L P := ⟨r, s⟩
  if out.verify c rnd then .ok out else .err

/-- `signature/privatekey.go:85-104`, `PrivateKey.Sign`. -/
def sign (rnd : Str) (x : ZMod L) (msg : Str) : Out (Sig L P) :=
  let k := genK c x msg
  let r := smul k c.G
  let e := c.createHash (msg ++ pointStr c r)
  let s := k - e * x
  createSignature c rnd r s

/-- `signature/sdk.go:28`, `delimiter`. -/
def delimiter : UInt8 := 35
/-- `signature/sdk.go:29`, `elementDelimiter`. -/
def elementDelimiter : UInt8 := 124

/-- `signature/signature.go:68-71`, `Signature.String`. -/
def Sig.toStr (sig : Sig L P) : Str :=
  Codec.b64Encode (pointStr c sig.r ++ delimiter :: scalarStr c sig.s)

/-- `signature/adapter.go:19-43`, `Adapter.ToSignature`. -/
def toSignature (rnd : Str) (s : Str) : Out (Sig L P) := do
  let decoded ← Codec.b64Decode s
  match Codec.split delimiter decoded with
  | [a, b] =>
    let point ← fromStringToPoint c a
    let scalar ← fromStringToScalar c b
    createSignature c rnd point scalar
  | _ => .err

/-- `signature/privatekey.go:107-109`, `PrivateKey.String`. -/
def privateKeyStr (x : ZMod L) : Str := scalarStr c x

/-- `signature/privatekey_adapter.go:12-19`, `ToPrivateKey`. -/
def toPrivateKey (s : Str) : Out (ZMod L) := fromStringToScalar c s

/-- `signature/publickey_adapter.go:12-19`, `ToPublicKey`. -/
def toPublicKey (s : Str) : Out P := fromStringToPoint c s

/-! ## Ring signatures -/

/-- `signature/ringsignature.go:10-14`. -/
structure RingSig (L : Nat) (P : Type) where
  ring : List P
  s : List (ZMod L)
  e : ZMod L
  deriving DecidableEq

/-- `signature/privatekey.go:31-40`, the closure `retrieveSignerIndexFn`: first index of the key (`none` for -1). -/
def signerIndex (ring : List P) (pk : P) : Option Nat :=
  match ring with
  | [] => none
  | p :: rest => if p = pk then some 0 else (signerIndex rest pk).map (· + 1)

/-- Reading a possibly nil entry of a slice of scalars: out of range and nil both panic when used. `signature/privatekey.go:65-82`, `signature/ringsignature.go:37-46`. -/
def readSlot (l : List (Option (ZMod L))) (i : Nat) : Out (ZMod L) :=
  match l[i]? with
  | some (some v) => .ok v
  | _ => .panic

/-- `signature/privatekey.go:65-75`, the loop of `RingSign`, on the slices `es` and `ss` whose unset entries are nil. The
fuel is only there for the definition to be total; running out of it is reported as `panic`, which C17
excludes. -/
def ringLoop (x : ZMod L) (msg : Str) (ring : List P) (signer : Nat) :
    Nat → Nat → List (Option (ZMod L)) → List (Option (ZMod L)) →
    Out (List (Option (ZMod L)) × List (Option (ZMod L)))
  | 0, _, _, _ => .panic
  | fuel + 1, i, es, ss =>
    if i = signer then .ok (es, ss)
    else do
      let r := ring.length
      let si := genK c x (msg ++ itoaNat i)
      let ss := ss.set i (some si)
      let ei ← readSlot es i
      let pi ← index ring i
      let sig := smul si c.G
      let eipi := smul ei pi
      let es := es.set ((i + 1) % r) (some (c.createHash (msg ++ pointStr c (sig + eipi))))
      ringLoop x msg ring signer fuel ((i + 1) % r) es ss

/-- Use of a possibly nil scalar. `signature/privatekey.go:65-82`. -/
def nonNil : Option (ZMod L) → Out (ZMod L)
  | some v => .ok v
  | none => .panic

/-- `signature/privatekey.go:30-82`, `PrivateKey.RingSign`. The Go signature object would keep nil responses; here a
nil response panics when the object is made (C17 shows there is none). -/
def ringSign (x : ZMod L) (msg : Str) (ring : List P) : Out (RingSig L P) :=
  match signerIndex ring (publicKey c x) with
  | none => .err
  | some signer => do
    let k := genK c x msg
    let r := ring.length
    let begin := (signer + 1) % r
    let es := (List.replicate r none).set begin (some (c.createHash (msg ++ pointStr c (smul k c.G))))
    let ss := List.replicate r none
    let (es, ss) ← ringLoop c x msg ring signer r begin es ss
    let esx ← readSlot es signer
    let ss := ss.set signer (some (k - esx * x))
    let s ← mapOut nonNil ss
    let e ← readSlot es 0
    return ⟨ring, s, e⟩

/-- `signature/ringsignature.go:37-46`, the loop of `RingSignature.Verify` from index `i` on: `s[i]` panics when there
are too few responses. -/
def verifyLoop (msg : Str) (s : List (ZMod L)) : Nat → List P → ZMod L → Out (ZMod L)
  | _, [], e => .ok e
  | i, p :: rest, e => do
    let si ← index s i
    verifyLoop msg s (i + 1) rest (c.createHash (msg ++ pointStr c (smul si c.G + smul e p)))

/-- `signature/ringsignature.go:32-49`, `RingSignature.Verify`. -/
def RingSig.verify (rs : RingSig L P) (msg : Str) : Out Bool := do
  let e ← verifyLoop c msg rs.s 0 rs.ring rs.e
  return decide (rs.e = e)

/-- `signature/ringsignature.go:53-61`, the two loops of `String`. -/
def joinElems (l : List Str) : Str := l.foldl (fun acc s => acc ++ s ++ [elementDelimiter]) []

/-- `signature/ringsignature.go:52-65`, `RingSignature.String`. -/
def RingSig.toStr (rs : RingSig L P) : Str :=
  Codec.b64Encode (joinElems (rs.ring.map (pointStr c)) ++ delimiter ::
    (joinElems (rs.s.map (scalarStr c)) ++ delimiter :: scalarStr c rs.e))

/-- `signature/ringsignature_adapter.go:38-67` and `52-65`: split in elements, skip the empty ones, parse the others. -/
def parseElems {α} (parse : Str → Out α) (s : Str) : Out (List α) :=
  mapOut parse ((Codec.split elementDelimiter s).filter (fun t => t ≠ []))

/-- `signature/ringsignature_adapter.go:26-75`, `ToSignature`. -/
def toRingSignature (s : Str) : Out (RingSig L P) := do
  let decoded ← Codec.b64Decode s
  match Codec.split delimiter decoded with
  | [a, b, e] =>
    let ring ← parseElems (fromStringToPoint c) a
    let ss ← parseElems (fromStringToScalar c) b
    let e ← fromStringToScalar c e
    return ⟨ring, ss, e⟩
  | _ => .err

/-- `signature/ringsignature_adapter.go:89-100`, the loop of `ToVerification`. -/
def checkHashes (sha : Str → Hash) : List P → List Hash → Out Bool
  | [], _ => .ok true
  | _ :: _, [] => .panic
  | p :: ps, h :: hs => do
    let ph ← Hash.fromString sha (pointStr c p)
    if !ph.compare h then .err else checkHashes sha ps hs

/-- `signature/ringsignature_adapter.go:78-103`, `ToVerification`. -/
def toVerification (sha : Str → Hash) (rs : RingSig L P) (msg : Str) (hashes : List Hash) : Out Bool := do
  let ok ← rs.verify c msg
  if !ok then .err
  else if hashes.length ≠ rs.ring.length then .err
  else checkHashes c sha rs.ring hashes

end Verif.Signature
