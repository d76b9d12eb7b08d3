import Mathlib.Data.ZMod.Basic
import Verif.Model.PointMul

/-!
# The points of the curve in coordinates, as the vendored `go.dedis.ch/kyber/v3` computes with them

Simplification: a field element is its residue modulo `2^255 - 19`; the ten limbs of the code are not modelled here.
`kyber/` is `vendor/go.dedis.ch/kyber/v3/`.
-/

namespace Verif.Kyber
open Verif

/-- `kyber/group/edwards25519/const.go:11-12`, `prime`. -/
def fieldPrime : Nat := 57896044618658097711785492504343953926634992332820282019728792003956564819949

/-- `kyber/group/edwards25519/fe.go:18`, `fieldElement`, up to multiples of the prime. -/
abbrev Fe := ZMod fieldPrime

/-- `kyber/group/edwards25519/fe.go:11-17`: the number which ten limbs stand for. -/
def ofLimbs (l : List Int) : Int :=
  l.getD 0 0 + 2 ^ 26 * l.getD 1 0 + 2 ^ 51 * l.getD 2 0 + 2 ^ 77 * l.getD 3 0 + 2 ^ 102 * l.getD 4 0 + 2 ^ 128 * l.getD 5 0 +
    2 ^ 153 * l.getD 6 0 + 2 ^ 179 * l.getD 7 0 + 2 ^ 204 * l.getD 8 0 + 2 ^ 230 * l.getD 9 0

/-- `kyber/group/edwards25519/const.go:33-35`, `d`. -/
def dInt : Int := ofLimbs [-10913610, 13857413, -15372611, 6949391, 114729, -8787816, -6275908, -3247719, -18696448, -12055116]

/-- `kyber/group/edwards25519/const.go:37-39`, `d2`. -/
def d2Int : Int := ofLimbs [-21827239, -5839606, -30745221, 13898782, 229458, 15978800, -12551817, -6495438, 29715968, 9444199]

/-- `kyber/group/edwards25519/const.go:41-43`, `sqrtM1`. -/
def sqrtM1Int : Int := ofLimbs [-32595792, -7943725, 9377950, 3500415, 12389472, -272473, -25146209, -2005654, 326686, 11406482]

/-- `kyber/group/edwards25519/const.go:33-35`, `d`, as a field element. -/
def edD : Fe := (dInt : Fe)
/-- `kyber/group/edwards25519/const.go:37-39`, `d2`, as a field element. -/
def edD2 : Fe := (d2Int : Fe)
/-- `kyber/group/edwards25519/const.go:41-43`, `sqrtM1`, as a field element. -/
def edSqrtM1 : Fe := (sqrtM1Int : Fe)

/-- `kyber/group/edwards25519/ge.go:16-18`. -/
structure Projective where
  X : Fe
  Y : Fe
  Z : Fe

/-- `kyber/group/edwards25519/ge.go:20-22`. -/
structure Extended where
  X : Fe
  Y : Fe
  Z : Fe
  T : Fe

/-- `kyber/group/edwards25519/ge.go:24-26`. -/
structure Completed where
  X : Fe
  Y : Fe
  Z : Fe
  T : Fe

/-- `kyber/group/edwards25519/ge.go:32-34`. -/
structure Cached where
  yPlusX : Fe
  yMinusX : Fe
  Z : Fe
  T2d : Fe

/-- Squaring `n` times: the loops of `kyber/group/edwards25519/fe.go:860-974`. -/
def sqN : Nat → Fe → Fe
  | 0, z => z
  | n + 1, z => sqN n (z * z)

/-- `kyber/group/edwards25519/fe.go:860-913`, `feInvert`. -/
def feInvert (z : Fe) : Fe :=
  let t0 := z * z
  let t1 := sqN 2 t0
  let t1 := z * t1
  let t0 := t0 * t1
  let t2 := t0 * t0
  let t1 := t1 * t2
  let t2 := sqN 5 t1
  let t1 := t2 * t1
  let t2 := sqN 10 t1
  let t2 := t2 * t1
  let t3 := sqN 20 t2
  let t2 := t3 * t2
  let t2 := sqN 10 t2
  let t1 := t2 * t1
  let t2 := sqN 50 t1
  let t2 := t2 * t1
  let t3 := sqN 100 t2
  let t2 := t3 * t2
  let t2 := sqN 50 t2
  let t1 := t2 * t1
  let t1 := sqN 5 t1
  t1 * t0

/-- `kyber/group/edwards25519/fe.go:915-974`, `fePow22523`. -/
def fePow22523 (z : Fe) : Fe :=
  let t0 := z * z
  let t1 := sqN 2 t0
  let t1 := z * t1
  let t0 := t0 * t1
  let t0 := t0 * t0
  let t0 := t1 * t0
  let t1 := sqN 5 t0
  let t0 := t1 * t0
  let t1 := sqN 10 t0
  let t1 := t1 * t0
  let t2 := sqN 20 t1
  let t1 := t2 * t1
  let t1 := sqN 10 t1
  let t0 := t1 * t0
  let t1 := sqN 50 t0
  let t1 := t1 * t0
  let t2 := sqN 100 t1
  let t1 := t2 * t1
  let t1 := sqN 50 t1
  let t0 := t1 * t0
  let t0 := sqN 2 t0
  t0 * z

/-- `kyber/group/edwards25519/fe.go:79-134`, `feFromBytes`, of 32 bytes: the highest bit is ignored (line 89). -/
def feFromBytes (s : Str) : Fe := ((leNat s % 2 ^ 255 : Nat) : Fe)

/-- `kyber/group/edwards25519/fe.go:159-246`, `feToBytes`: the residue below the prime. -/
def feToBytes (h : Fe) : Str := leBytes 32 h.val

/-- `kyber/group/edwards25519/fe.go:248-252`, `feIsNegative`. -/
def feIsNegative (h : Fe) : UInt8 := (feToBytes h).getD 0 0 &&& 1

/-- `kyber/group/edwards25519/ge.go:161-165`. -/
def Completed.toProjective (c : Completed) : Projective := ⟨c.X * c.T, c.Y * c.Z, c.Z * c.T⟩

/-- `kyber/group/edwards25519/ge.go:167-172`. -/
def Completed.toExtended (c : Completed) : Extended := ⟨c.X * c.T, c.Y * c.Z, c.Z * c.T, c.X * c.Y⟩

/-- `kyber/group/edwards25519/ge.go:42-54`, `Double`. -/
def Projective.double (p : Projective) : Completed :=
  let rX := p.X * p.X
  let rZ := p.Y * p.Y
  let rT := 2 * (p.Z * p.Z)
  let rY := p.X + p.Y
  let t0 := rY * rY
  let rY := rZ + rX
  let rZ := rZ - rX
  let rX := t0 - rY
  let rT := rT - rZ
  ⟨rX, rY, rZ, rT⟩

/-- `kyber/group/edwards25519/ge.go:66-71`, `Zero`. -/
def Extended.zero : Extended := ⟨0, 1, 1, 0⟩

/-- `kyber/group/edwards25519/ge.go:73-78`, `Neg`, and `kyber/group/edwards25519/point.go:210-213`. -/
def Extended.neg (s : Extended) : Extended := ⟨-s.X, s.Y, s.Z, -s.T⟩

/-- `kyber/group/edwards25519/ge.go:86-91`, `ToCached`. -/
def Extended.toCached (p : Extended) : Cached := ⟨p.Y + p.X, p.Y - p.X, p.Z, p.T * edD2⟩

/-- `kyber/group/edwards25519/ge.go:180-194`, `Add`. -/
def Completed.add (p : Extended) (q : Cached) : Completed :=
  let cX := p.Y + p.X
  let cY := p.Y - p.X
  let cZ := cX * q.yPlusX
  let cY := cY * q.yMinusX
  let cT := q.T2d * p.T
  let cX := p.Z * q.Z
  let t0 := cX + cX
  let cX := cZ - cY
  let cY := cZ + cY
  let cZ := t0 + cT
  let cT := t0 - cT
  ⟨cX, cY, cZ, cT⟩

/-- `kyber/group/edwards25519/ge.go:196-210`, `Sub`. -/
def Completed.sub (p : Extended) (q : Cached) : Completed :=
  let cX := p.Y + p.X
  let cY := p.Y - p.X
  let cZ := cX * q.yMinusX
  let cY := cY * q.yPlusX
  let cT := q.T2d * p.T
  let cX := p.Z * q.Z
  let t0 := cX + cX
  let cX := cZ - cY
  let cY := cZ + cY
  let cZ := t0 - cT
  let cT := t0 + cT
  ⟨cX, cY, cZ, cT⟩

/-- `kyber/group/edwards25519/ge.go:260-265`, `Zero`. -/
def Cached.zero : Cached := ⟨1, 1, 1, 0⟩

/-- `kyber/group/edwards25519/ge.go:276-281`, `Neg`. -/
def Cached.neg (t : Cached) : Cached := ⟨t.yMinusX, t.yPlusX, t.Z, -t.T2d⟩

/-- `kyber/group/edwards25519/point.go:180-192`, `Add`. -/
def Extended.add (p q : Extended) : Extended := (Completed.add p q.toCached).toExtended

/-- `kyber/group/edwards25519/point.go:194-206`, `Sub`. -/
def Extended.sub (p q : Extended) : Extended := (Completed.sub p q.toCached).toExtended

/-- `kyber/group/edwards25519/ge.go:99-107`, `ToBytes`; `kyber/group/edwards25519/point.go:44-48`, `MarshalBinary`. -/
def Extended.toBytes (p : Extended) : Str :=
  let recip := feInvert p.Z
  let x := p.X * recip
  let y := p.Y * recip
  let s := feToBytes y
  s.set 31 (s.getD 31 0 ^^^ (feIsNegative x <<< 7))

/-- `kyber/group/edwards25519/ge.go:109-149`, `FromBytes`; `kyber/group/edwards25519/point.go:55-60`, `UnmarshalBinary`. -/
def Extended.fromBytes (s : Str) : Out Extended :=
  if s.length ≠ 32 then .err
  else
    let Y := feFromBytes s
    let u := Y * Y
    let v := u * edD
    let u := u - 1
    let v := v + 1
    let v3 := v * v * v
    let X := v3 * v3 * v * u
    let X := fePow22523 X * v3 * u
    let vxx := X * X * v
    let sign (X : Fe) : Out Extended :=
      let X := if feIsNegative X ≠ s.getD 31 0 >>> 7 then -X else X
      .ok ⟨X, Y, 1, X * Y⟩
    if vxx - u ≠ 0 then
      if vxx + u ≠ 0 then .err else sign (X * edSqrtM1)
    else sign X

/-- `kyber/group/edwards25519/ge.go:457-463`: the table `Ai`. -/
def cachedTable (A : Extended) : Nat → Cached
  | 0 => A.toCached
  | i + 1 => (Completed.add A (cachedTable A i)).toExtended.toCached

/-- `kyber/group/edwards25519/ge.go:408-422`, `selectCached`. -/
def selectTable (A : Extended) (b : Int32) : Cached :=
  let bNegative := negative32 b
  let bAbs := b - (((-bNegative) &&& b) <<< 1)
  let c := (List.range 8).foldl
    (fun c i => if equal32 bAbs (Int32.ofNat (i + 1)) = 1 then cachedTable A i else c) Cached.zero
  if bNegative = 1 then c.neg else c

/-- `kyber/group/edwards25519/ge.go:470-486`, one turn of the loop. -/
def multTurn (A : Extended) (t : Completed) (d : Int8) : Completed :=
  let t := t.toProjective.double
  let t := t.toProjective.double
  let t := t.toProjective.double
  let t := t.toProjective.double
  Completed.add t.toExtended (selectTable A d.toInt32)

/-- `kyber/group/edwards25519/ge.go:430-489`, `geScalarMult`; `kyber/group/edwards25519/point.go:216-231`, `Mul`. -/
def Extended.mul (a : Str) (A : Extended) : Extended :=
  match (digits a).reverse with
  | [] => Extended.zero
  | top :: rest => (rest.foldl (multTurn A) (Completed.add Extended.zero (selectTable A top.toInt32))).toExtended

/-- `kyber/group/edwards25519/point.go:71-82`, `Equal`. -/
def Extended.equal (p q : Extended) : Bool := p.toBytes == q.toBytes

/-- `kyber/group/edwards25519/const.go:49-54`, `baseext`: the coordinates. -/
def baseInts : List Int :=
  [ofLimbs [25485296, 5318399, 8791791, -8299916, -14349720, 6939349, -3324311, -7717049, 7287234, -6577708],
   ofLimbs [-758052, -1832720, 13046421, -4857925, 6576754, 14371947, -13139572, 6845540, -2198883, -4003719],
   ofLimbs [-947565, 6097708, -469190, 10704810, -8556274, -15589498, -16424464, -16608899, 14028613, -5004649],
   ofLimbs [6966464, -2456167, 7033433, 6781840, 28785542, 12262365, -2659449, 13959020, -21013759, -5262166]]

/-- `kyber/group/edwards25519/const.go:49-54`, `baseext`; `kyber/group/edwards25519/point.go:102-105`, `Base`. -/
def baseExt : Extended :=
  ⟨(baseInts.getD 0 0 : Int), (baseInts.getD 1 0 : Int), (baseInts.getD 2 0 : Int), (baseInts.getD 3 0 : Int)⟩

end Verif.Kyber
