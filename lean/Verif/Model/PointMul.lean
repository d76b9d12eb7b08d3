import Mathlib.Algebra.Group.Defs
import Verif.Model.Scalar

/-!
# Multiplication of a point by a scalar, as the vendored `go.dedis.ch/kyber/v3` computes it

The additions and doublings of the curve are those of an arbitrary commutative group; the digits of the scalar are
the machine integers of the code. `kyber/` is `vendor/go.dedis.ch/kyber/v3/`.
-/

namespace Verif.Kyber
open Verif

/-- `kyber/group/edwards25519/ge.go:440-444`: the 64 half bytes, lowest first. -/
def nybbles (a : Str) : List Int8 := a.flatMap (fun (v : UInt8) => [(v &&& 15).toInt8, ((v >>> 4) &&& 15).toInt8])

/-- `kyber/group/edwards25519/ge.go:447-453`: the carries. The last digit takes the last carry and keeps its own. -/
def recode : Int8 → List Int8 → List Int8
  | _, [] => []
  | carry, [x] => [x + carry]
  | carry, x :: rest =>
    let x := x + carry
    let carry := (x + 8) >>> 4
    (x - carry <<< 4) :: recode carry rest

/-- `kyber/group/edwards25519/ge.go:440-453`: the digits `e[0]` to `e[63]`. -/
def digits (a : Str) : List Int8 := recode 0 (nybbles a)

/-- `kyber/group/edwards25519/ge.go:332-336`, `equal`. -/
def equal32 (b c : Int32) : Int32 := (((b ^^^ c).toUInt32 - 1) >>> 31).toInt32

/-- `kyber/group/edwards25519/ge.go:339-341`, `negative`. -/
def negative32 (b : Int32) : Int32 := (b >>> 31) &&& 1

variable {P : Type} [AddCommGroup P]

/-- `kyber/group/edwards25519/ge.go:457-463`: the table `Ai` of `A`, `2A`, up to `8A`. -/
def cachedMultiple (A : P) : Nat → P
  | 0 => A
  | i + 1 => A + cachedMultiple A i

/-- `kyber/group/edwards25519/ge.go:408-422`, `selectCached`: one of the eight multiples, or its opposite, or zero. -/
def selectCached (A : P) (b : Int32) : P :=
  let bNegative := negative32 b
  let bAbs := b - (((-bNegative) &&& b) <<< 1)
  let c := (List.range 8).foldl
    (fun c i => if equal32 bAbs (Int32.ofNat (i + 1)) = 1 then cachedMultiple A i else c) (0 : P)
  if bNegative = 1 then -c else c

/-- `kyber/group/edwards25519/ge.go:470-486`, one turn of the loop: four doublings and a digit. -/
def multStep (A : P) (t : P) (d : Int8) : P :=
  let t := t + t
  let t := t + t
  let t := t + t
  let t := t + t
  t + selectCached A d.toInt32

/-- `kyber/group/edwards25519/ge.go:430-489`, `geScalarMult`, hence `Point.Mul` (`kyber/group/edwards25519/point.go:216-231`;
the points of `curve.Point()` do not use the variable time version). -/
def pointMul (a : Str) (A : P) : P :=
  match (digits a).reverse with
  | [] => 0
  | top :: rest => rest.foldl (multStep A) (0 + selectCached A top.toInt32)

end Verif.Kyber
