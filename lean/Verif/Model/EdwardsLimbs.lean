import Verif.Model.FieldLimbs

/-!
# The points of the curve in coordinates of ten limbs, as the vendored `go.dedis.ch/kyber/v3` computes with them

`kyber/` is `vendor/go.dedis.ch/kyber/v3/`. Nothing is simplified but the aliasing of the variables: every assignment makes a new value.
-/

namespace Verif.Kyber
open Verif

/-- `kyber/group/edwards25519/const.go:33-35`, `d`. -/
def dLimbs : FeL := [-10913610, 13857413, -15372611, 6949391, 114729, -8787816, -6275908, -3247719, -18696448, -12055116]

/-- `kyber/group/edwards25519/const.go:37-39`, `d2`. -/
def d2Limbs : FeL := [-21827239, -5839606, -30745221, 13898782, 229458, 15978800, -12551817, -6495438, 29715968, 9444199]

/-- `kyber/group/edwards25519/const.go:41-43`, `sqrtM1`. -/
def sqrtM1Limbs : FeL := [-32595792, -7943725, 9377950, 3500415, 12389472, -272473, -25146209, -2005654, 326686, 11406482]

/-- `kyber/group/edwards25519/ge.go:16-18`. -/
structure LProjective where
  X : FeL
  Y : FeL
  Z : FeL

/-- `kyber/group/edwards25519/ge.go:20-22`. -/
structure LExtended where
  X : FeL
  Y : FeL
  Z : FeL
  T : FeL
  deriving DecidableEq

/-- `kyber/group/edwards25519/ge.go:24-26`. -/
structure LCompleted where
  X : FeL
  Y : FeL
  Z : FeL
  T : FeL

/-- `kyber/group/edwards25519/ge.go:32-34`. -/
structure LCached where
  yPlusX : FeL
  yMinusX : FeL
  Z : FeL
  T2d : FeL

/-- `kyber/group/edwards25519/ge.go:161-165`. -/
def LCompleted.toProjective (c : LCompleted) : LProjective := ⟨Limb.mul c.X c.T, Limb.mul c.Y c.Z, Limb.mul c.Z c.T⟩

/-- `kyber/group/edwards25519/ge.go:167-172`. -/
def LCompleted.toExtended (c : LCompleted) : LExtended := ⟨Limb.mul c.X c.T, Limb.mul c.Y c.Z, Limb.mul c.Z c.T, Limb.mul c.X c.Y⟩

/-- `kyber/group/edwards25519/ge.go:42-54`, `Double`. -/
def LProjective.double (p : LProjective) : LCompleted :=
  let rX := Limb.square p.X
  let rZ := Limb.square p.Y
  let rT := Limb.square2 p.Z
  let rY := Limb.add p.X p.Y
  let t0 := Limb.square rY
  let rY := Limb.add rZ rX
  let rZ := Limb.sub rZ rX
  let rX := Limb.sub t0 rY
  let rT := Limb.sub rT rZ
  ⟨rX, rY, rZ, rT⟩

/-- `kyber/group/edwards25519/ge.go:66-71`, `Zero`. -/
def LExtended.zero : LExtended := ⟨Limb.zero, Limb.one, Limb.one, Limb.zero⟩

/-- `kyber/group/edwards25519/ge.go:73-78`, `Neg`, and `kyber/group/edwards25519/point.go:210-213`. -/
def LExtended.neg (s : LExtended) : LExtended := ⟨Limb.neg s.X, s.Y, s.Z, Limb.neg s.T⟩

/-- `kyber/group/edwards25519/ge.go:86-91`, `ToCached`. -/
def LExtended.toCached (p : LExtended) : LCached := ⟨Limb.add p.Y p.X, Limb.sub p.Y p.X, p.Z, Limb.mul p.T d2Limbs⟩

/-- `kyber/group/edwards25519/ge.go:180-194`, `Add`. -/
def LCompleted.add (p : LExtended) (q : LCached) : LCompleted :=
  let cX := Limb.add p.Y p.X
  let cY := Limb.sub p.Y p.X
  let cZ := Limb.mul cX q.yPlusX
  let cY := Limb.mul cY q.yMinusX
  let cT := Limb.mul q.T2d p.T
  let cX := Limb.mul p.Z q.Z
  let t0 := Limb.add cX cX
  let cX := Limb.sub cZ cY
  let cY := Limb.add cZ cY
  let cZ := Limb.add t0 cT
  let cT := Limb.sub t0 cT
  ⟨cX, cY, cZ, cT⟩

/-- `kyber/group/edwards25519/ge.go:196-210`, `Sub`. -/
def LCompleted.sub (p : LExtended) (q : LCached) : LCompleted :=
  let cX := Limb.add p.Y p.X
  let cY := Limb.sub p.Y p.X
  let cZ := Limb.mul cX q.yMinusX
  let cY := Limb.mul cY q.yPlusX
  let cT := Limb.mul q.T2d p.T
  let cX := Limb.mul p.Z q.Z
  let t0 := Limb.add cX cX
  let cX := Limb.sub cZ cY
  let cY := Limb.add cZ cY
  let cZ := Limb.sub t0 cT
  let cT := Limb.add t0 cT
  ⟨cX, cY, cZ, cT⟩

/-- `kyber/group/edwards25519/ge.go:260-265`, `Zero`. -/
def LCached.zero : LCached := ⟨Limb.one, Limb.one, Limb.one, Limb.zero⟩

/-- `kyber/group/edwards25519/ge.go:268-273`, `CMove`. -/
def LCached.cmove (r u : LCached) (b : Int32) : LCached :=
  ⟨Limb.cmove r.yPlusX u.yPlusX b, Limb.cmove r.yMinusX u.yMinusX b, Limb.cmove r.Z u.Z b, Limb.cmove r.T2d u.T2d b⟩

/-- `kyber/group/edwards25519/ge.go:276-281`, `Neg`. -/
def LCached.neg (t : LCached) : LCached := ⟨t.yMinusX, t.yPlusX, t.Z, Limb.neg t.T2d⟩

/-- `kyber/group/edwards25519/point.go:180-192`, `Add`. -/
def LExtended.add (p q : LExtended) : LExtended := (LCompleted.add p q.toCached).toExtended

/-- `kyber/group/edwards25519/point.go:194-206`, `Sub`. -/
def LExtended.sub (p q : LExtended) : LExtended := (LCompleted.sub p q.toCached).toExtended

/-- `kyber/group/edwards25519/ge.go:99-107`, `ToBytes`; `kyber/group/edwards25519/point.go:44-48`, `MarshalBinary`. -/
def LExtended.toBytes (p : LExtended) : Str :=
  let recip := Limb.invert p.Z
  let x := Limb.mul p.X recip
  let y := Limb.mul p.Y recip
  let s := Limb.toBytes y
  s.set 31 (s.getD 31 0 ^^^ (Limb.isNegative x <<< 7))

/-- `kyber/group/edwards25519/ge.go:143-147`: the end of `FromBytes`. `feIsNegative` writes into its argument. -/
def LExtended.withSign (s : Str) (X Y : FeL) : LExtended :=
  let negative := Limb.isNegative X
  let X := Limb.normal X
  let X := if negative ≠ s.getD 31 0 >>> 7 then Limb.neg X else X
  ⟨X, Y, Limb.one, Limb.mul X Y⟩

/-- `kyber/group/edwards25519/ge.go:109-149`, `FromBytes`; `kyber/group/edwards25519/point.go:55-60`, `UnmarshalBinary`. -/
def LExtended.fromBytes (s : Str) : Out LExtended :=
  if s.length ≠ 32 then .err
  else
    let Y := Limb.fromBytes s
    let Z := Limb.one
    let u := Limb.square Y
    let v := Limb.mul u dLimbs
    let u := Limb.sub u Z
    let v := Limb.add v Z
    let v3 := Limb.square v
    let v3 := Limb.mul v3 v
    let X := Limb.square v3
    let X := Limb.mul X v
    let X := Limb.mul X u
    let X := Limb.pow22523 X
    let X := Limb.mul X v3
    let X := Limb.mul X u
    let vxx := Limb.square X
    let vxx := Limb.mul vxx v
    let check := Limb.sub vxx u
    if Limb.isNonZero check = 1 then
      let check := Limb.add vxx u
      if Limb.isNonZero check = 1 then .err
      else .ok (LExtended.withSign s (Limb.mul X sqrtM1Limbs) Y)
    else .ok (LExtended.withSign s X Y)

/-- `kyber/group/edwards25519/ge.go:457-463`: the table `Ai`. -/
def lcachedTable (A : LExtended) : Nat → LCached
  | 0 => A.toCached
  | i + 1 => (LCompleted.add A (lcachedTable A i)).toExtended.toCached

/-- `kyber/group/edwards25519/ge.go:408-422`, `selectCached`. -/
def lselectTable (A : LExtended) (b : Int32) : LCached :=
  let bNegative := negative32 b
  let bAbs := b - (((-bNegative) &&& b) <<< 1)
  let c := (List.range 8).foldl (fun c i => c.cmove (lcachedTable A i) (equal32 bAbs (Int32.ofNat (i + 1)))) LCached.zero
  c.cmove c.neg bNegative

/-- `kyber/group/edwards25519/ge.go:470-486`, one turn of the loop. -/
def lmultTurn (A : LExtended) (t : LCompleted) (d : Int8) : LCompleted :=
  let t := t.toProjective.double
  let t := t.toProjective.double
  let t := t.toProjective.double
  let t := t.toProjective.double
  LCompleted.add t.toExtended (lselectTable A d.toInt32)

/-- `kyber/group/edwards25519/ge.go:430-489`, `geScalarMult`; `kyber/group/edwards25519/point.go:216-231`, `Mul`. -/
def LExtended.mul (a : Str) (A : LExtended) : LExtended :=
  match (digits a).reverse with
  | [] => LExtended.zero
  | top :: rest => (rest.foldl (lmultTurn A) (LCompleted.add LExtended.zero (lselectTable A top.toInt32))).toExtended

/-- `kyber/group/edwards25519/point.go:71-82`, `Equal`. -/
def LExtended.equal (p q : LExtended) : Bool := p.toBytes == q.toBytes

/-- `kyber/group/edwards25519/const.go:49-54`, `baseext`; `kyber/group/edwards25519/point.go:102-105`, `Base`. -/
def lbaseExt : LExtended :=
  ⟨[25485296, 5318399, 8791791, -8299916, -14349720, 6939349, -3324311, -7717049, 7287234, -6577708],
   [-758052, -1832720, 13046421, -4857925, 6576754, 14371947, -13139572, 6845540, -2198883, -4003719],
   [-947565, 6097708, -469190, 10704810, -8556274, -15589498, -16424464, -16608899, 14028613, -5004649],
   [6966464, -2456167, 7033433, 6781840, 28785542, 12262365, -2659449, 13959020, -21013759, -5262166]⟩

end Verif.Kyber
