import Verif.Model.Edwards

/-!
# The field in ten limbs, as the vendored `go.dedis.ch/kyber/v3` computes with it

`kyber/` is `vendor/go.dedis.ch/kyber/v3/`. Everything is computed with machine integers which wrap around: `int32` limbs, `int64` products.
-/

namespace Verif.Kyber
open Verif

/-- `kyber/group/edwards25519/fe.go:18`, `fieldElement`: ten `int32` limbs. -/
abbrev FeL := List Int32

/-- `kyber/group/edwards25519/fe.go:18`: reading a limb, `f[i]`. -/
def fat (f : FeL) (i : Nat) : Int32 := f.getD i 0

/-- `kyber/group/edwards25519/fe.go:13-17`: the number the limbs stand for. -/
def feVal (f : FeL) : Int := ofLimbs (f.map Int32.toInt)

namespace Limb

/-- `kyber/group/edwards25519/fe.go:20-24`, `feZero`. -/
def zero : FeL := List.replicate 10 0

/-- `kyber/group/edwards25519/fe.go:26-29`, `feOne`. -/
def one : FeL := 1 :: List.replicate 9 0

/-- `kyber/group/edwards25519/fe.go:31-35`, `feAdd`. -/
def add (a b : FeL) : FeL := (List.range 10).map fun i => fat a i + fat b i

/-- `kyber/group/edwards25519/fe.go:37-41`, `feSub`. -/
def sub (a b : FeL) : FeL := (List.range 10).map fun i => fat a i - fat b i

/-- `kyber/group/edwards25519/fe.go:274-278`, `feNeg`. -/
def neg (f : FeL) : FeL := (List.range 10).map fun i => -fat f i

/-- `kyber/group/edwards25519/fe.go:53-62`, `feCMove`: the new `f`. -/
def cmove (f g : FeL) (b : Int32) : FeL :=
  (List.range 10).map fun i => fat f i ^^^ ((-b) &&& (fat f i ^^^ fat g i))

/-- The bits of a limb: `kyber/group/edwards25519/fe.go:13-17`, used in every carry. -/
def width (i : Nat) : Nat := if i % 2 = 0 then 26 else 25

/-- A factor of a product: `a*f[i]` computed in `int32`, times `b*g[j]` computed in `int32`, multiplied in `int64`:
`kyber/group/edwards25519/fe.go:328-441`, `559-625` and `715-781`. -/
def term (f g : FeL) (t : Int32 × Nat × Int32 × Nat) : Int64 :=
  (t.1 * fat f t.2.1).toInt64 * (t.2.2.1 * fat g t.2.2.2).toInt64

/-- A sum of products, in the order of the code (with a zero in front): `kyber/group/edwards25519/fe.go:442-451`. -/
def dot (f g : FeL) (l : List (Int32 × Nat × Int32 × Nat)) : Int64 := l.foldl (fun acc t => acc + term f g t) 0

/-- The products whose sums are `h0` to `h9`, `(a, i, b, j)` for `int64(a*f[i]) * int64(b*g[j])`:
`kyber/group/edwards25519/fe.go:308-451`. -/
def mulTable : List (List (Int32 × Nat × Int32 × Nat)) :=
  [[(1, 0, 1, 0), (2, 1, 19, 9), (1, 2, 19, 8), (2, 3, 19, 7), (1, 4, 19, 6), (2, 5, 19, 5), (1, 6, 19, 4), (2, 7, 19, 3), (1, 8, 19, 2), (2, 9, 19, 1)],
   [(1, 0, 1, 1), (1, 1, 1, 0), (1, 2, 19, 9), (1, 3, 19, 8), (1, 4, 19, 7), (1, 5, 19, 6), (1, 6, 19, 5), (1, 7, 19, 4), (1, 8, 19, 3), (1, 9, 19, 2)],
   [(1, 0, 1, 2), (2, 1, 1, 1), (1, 2, 1, 0), (2, 3, 19, 9), (1, 4, 19, 8), (2, 5, 19, 7), (1, 6, 19, 6), (2, 7, 19, 5), (1, 8, 19, 4), (2, 9, 19, 3)],
   [(1, 0, 1, 3), (1, 1, 1, 2), (1, 2, 1, 1), (1, 3, 1, 0), (1, 4, 19, 9), (1, 5, 19, 8), (1, 6, 19, 7), (1, 7, 19, 6), (1, 8, 19, 5), (1, 9, 19, 4)],
   [(1, 0, 1, 4), (2, 1, 1, 3), (1, 2, 1, 2), (2, 3, 1, 1), (1, 4, 1, 0), (2, 5, 19, 9), (1, 6, 19, 8), (2, 7, 19, 7), (1, 8, 19, 6), (2, 9, 19, 5)],
   [(1, 0, 1, 5), (1, 1, 1, 4), (1, 2, 1, 3), (1, 3, 1, 2), (1, 4, 1, 1), (1, 5, 1, 0), (1, 6, 19, 9), (1, 7, 19, 8), (1, 8, 19, 7), (1, 9, 19, 6)],
   [(1, 0, 1, 6), (2, 1, 1, 5), (1, 2, 1, 4), (2, 3, 1, 3), (1, 4, 1, 2), (2, 5, 1, 1), (1, 6, 1, 0), (2, 7, 19, 9), (1, 8, 19, 8), (2, 9, 19, 7)],
   [(1, 0, 1, 7), (1, 1, 1, 6), (1, 2, 1, 5), (1, 3, 1, 4), (1, 4, 1, 3), (1, 5, 1, 2), (1, 6, 1, 1), (1, 7, 1, 0), (1, 8, 19, 9), (1, 9, 19, 8)],
   [(1, 0, 1, 8), (2, 1, 1, 7), (1, 2, 1, 6), (2, 3, 1, 5), (1, 4, 1, 4), (2, 5, 1, 3), (1, 6, 1, 2), (2, 7, 1, 1), (1, 8, 1, 0), (2, 9, 19, 9)],
   [(1, 0, 1, 9), (1, 1, 1, 8), (1, 2, 1, 7), (1, 3, 1, 6), (1, 4, 1, 5), (1, 5, 1, 4), (1, 6, 1, 3), (1, 7, 1, 2), (1, 8, 1, 1), (1, 9, 1, 0)]]

/-- The same for a square: `kyber/group/edwards25519/fe.go:548-635`, and the same lines again at `704-791`. -/
def squareTable : List (List (Int32 × Nat × Int32 × Nat)) :=
  [[(1, 0, 1, 0), (2, 1, 38, 9), (2, 2, 19, 8), (2, 3, 38, 7), (2, 4, 19, 6), (1, 5, 38, 5)],
   [(2, 0, 1, 1), (1, 2, 38, 9), (2, 3, 19, 8), (1, 4, 38, 7), (2, 5, 19, 6)],
   [(2, 0, 1, 2), (2, 1, 1, 1), (2, 3, 38, 9), (2, 4, 19, 8), (2, 5, 38, 7), (1, 6, 19, 6)],
   [(2, 0, 1, 3), (2, 1, 1, 2), (1, 4, 38, 9), (2, 5, 19, 8), (1, 6, 38, 7)],
   [(2, 0, 1, 4), (2, 1, 2, 3), (1, 2, 1, 2), (2, 5, 38, 9), (2, 6, 19, 8), (1, 7, 38, 7)],
   [(2, 0, 1, 5), (2, 1, 1, 4), (2, 2, 1, 3), (1, 6, 38, 9), (2, 7, 19, 8)],
   [(2, 0, 1, 6), (2, 1, 2, 5), (2, 2, 1, 4), (2, 3, 1, 3), (2, 7, 38, 9), (1, 8, 19, 8)],
   [(2, 0, 1, 7), (2, 1, 1, 6), (2, 2, 1, 5), (2, 3, 1, 4), (1, 8, 38, 9)],
   [(2, 0, 1, 8), (2, 1, 2, 7), (2, 2, 1, 6), (2, 3, 2, 5), (1, 4, 1, 4), (1, 9, 38, 9)],
   [(2, 0, 1, 9), (2, 1, 1, 8), (2, 2, 1, 7), (2, 3, 1, 6), (2, 4, 1, 5)]]

/-- A rounded carry: `kyber/group/edwards25519/fe.go:461-463` (even), `472-474` (odd), `516-518` (the last limb). -/
def carry (h : Limbs) (i : Nat) : Limbs :=
  let w : Int64 := Int64.ofNat (width i)
  let c := (get h i + (1 : Int64) <<< (w - 1)) >>> w
  let h := if i = 9 then upd h 0 (get h 0 + c * 19) else upd h (i + 1) (get h (i + 1) + c)
  upd h i (get h i - c <<< w)

/-- The carries after a product: `kyber/group/edwards25519/fe.go:461-524`, `638-679` and `805-846`. -/
def mulCarries : List Nat := [0, 4, 1, 5, 2, 6, 3, 7, 4, 8, 9, 0]

/-- The carries, and the conversions to `int32`: `kyber/group/edwards25519/fe.go:461-537`, `638-690` and `805-857`. -/
def finish (carries : List Nat) (h : Limbs) : FeL := (carries.foldl carry h).map Int64.toInt32

/-- `kyber/group/edwards25519/fe.go:307-538`, `feMul`. -/
def mul (f g : FeL) : FeL := finish mulCarries (mulTable.map (dot f g))

/-- `kyber/group/edwards25519/fe.go:547-691`, `feSquare`. -/
def square (f : FeL) : FeL := finish mulCarries (squareTable.map (dot f f))

/-- `kyber/group/edwards25519/fe.go:703-858`, `feSquare2`. -/
def square2 (f : FeL) : FeL := finish mulCarries ((squareTable.map (dot f f)).map fun x => x + x)

/-- Squaring `n` times: the loops of `kyber/group/edwards25519/fe.go:860-974`. -/
def squareN : Nat → FeL → FeL
  | 0, z => z
  | n + 1, z => squareN n (square z)

/-- `kyber/group/edwards25519/fe.go:860-913`, `feInvert`. -/
def invert (z : FeL) : FeL :=
  let t0 := square z
  let t1 := squareN 2 t0
  let t1 := mul z t1
  let t0 := mul t0 t1
  let t2 := square t0
  let t1 := mul t1 t2
  let t2 := squareN 5 t1
  let t1 := mul t2 t1
  let t2 := squareN 10 t1
  let t2 := mul t2 t1
  let t3 := squareN 20 t2
  let t2 := mul t3 t2
  let t2 := squareN 10 t2
  let t1 := mul t2 t1
  let t2 := squareN 50 t1
  let t2 := mul t2 t1
  let t3 := squareN 100 t2
  let t2 := mul t3 t2
  let t2 := squareN 50 t2
  let t1 := mul t2 t1
  let t1 := squareN 5 t1
  mul t1 t0

/-- `kyber/group/edwards25519/fe.go:915-974`, `fePow22523`. -/
def pow22523 (z : FeL) : FeL :=
  let t0 := square z
  let t1 := squareN 2 t0
  let t1 := mul z t1
  let t0 := mul t0 t1
  let t0 := square t0
  let t0 := mul t1 t0
  let t1 := squareN 5 t0
  let t0 := mul t1 t0
  let t1 := squareN 10 t0
  let t1 := mul t1 t0
  let t2 := squareN 20 t1
  let t1 := mul t2 t1
  let t1 := squareN 10 t1
  let t0 := mul t1 t0
  let t1 := squareN 50 t0
  let t1 := mul t1 t0
  let t2 := squareN 100 t1
  let t1 := mul t2 t1
  let t1 := squareN 50 t1
  let t0 := mul t1 t0
  let t0 := squareN 2 t0
  mul t0 z

/-- `kyber/group/edwards25519/fe.go:80-89`: the variables `h0` to `h9` read from the bytes. -/
def loads (s : Str) : Limbs :=
  [load4 s 0,
   load3 s 4 <<< 6,
   load3 s 7 <<< 5,
   load3 s 10 <<< 3,
   load3 s 13 <<< 2,
   load4 s 16,
   load3 s 20 <<< 7,
   load3 s 23 <<< 5,
   load3 s 26 <<< 4,
   (load3 s 29 &&& 8388607) <<< 2]

/-- `kyber/group/edwards25519/fe.go:92-122`. -/
def byteCarries : List Nat := [9, 1, 3, 5, 7, 0, 2, 4, 6, 8]

/-- `kyber/group/edwards25519/fe.go:79-134`, `feFromBytes`. Simplification: of 32 bytes (the only caller checks the length, and fewer would panic). -/
def fromBytes (s : Str) : FeL := finish byteCarries (loads s)

/-- `kyber/group/edwards25519/fe.go:162-172`: `q`. -/
def quotient (h : FeL) : Int32 :=
  let q : Int32 := ((19 : Int32) * fat h 9 + (1 : Int32) <<< 24) >>> 25
  let q : Int32 := (fat h 0 + q) >>> 26
  let q : Int32 := (fat h 1 + q) >>> 25
  let q : Int32 := (fat h 2 + q) >>> 26
  let q : Int32 := (fat h 3 + q) >>> 25
  let q : Int32 := (fat h 4 + q) >>> 26
  let q : Int32 := (fat h 5 + q) >>> 25
  let q : Int32 := (fat h 6 + q) >>> 26
  let q : Int32 := (fat h 7 + q) >>> 25
  let q : Int32 := (fat h 8 + q) >>> 26
  (fat h 9 + q) >>> 25

/-- A carry without rounding, in `int32`: `kyber/group/edwards25519/fe.go:178-180`, `205-206`. -/
def exactCarry (h : FeL) (i : Nat) : FeL :=
  let w : Int32 := Int32.ofNat (width i)
  let c := fat h i >>> w
  let h := if i = 9 then h else h.set (i + 1) (fat h (i + 1) + c)
  h.set i (fat h i - c <<< w)

/-- `kyber/group/edwards25519/fe.go:175-206`: what `feToBytes` leaves in the variable it was given. -/
def normal (h : FeL) : FeL := (List.range 10).foldl exactCarry (h.set 0 (fat h 0 + 19 * quotient h))

/-- `byte(x)`: `kyber/group/edwards25519/fe.go:214-245`. -/
def toByte32 (x : Int32) : UInt8 := x.toUInt32.toUInt8

/-- `kyber/group/edwards25519/fe.go:214-245`: the bytes. -/
def pack (h : FeL) : Str :=
  [toByte32 (fat h 0 >>> 0),
   toByte32 (fat h 0 >>> 8),
   toByte32 (fat h 0 >>> 16),
   toByte32 ((fat h 0 >>> 24) ||| (fat h 1 <<< 2)),
   toByte32 (fat h 1 >>> 6),
   toByte32 (fat h 1 >>> 14),
   toByte32 ((fat h 1 >>> 22) ||| (fat h 2 <<< 3)),
   toByte32 (fat h 2 >>> 5),
   toByte32 (fat h 2 >>> 13),
   toByte32 ((fat h 2 >>> 21) ||| (fat h 3 <<< 5)),
   toByte32 (fat h 3 >>> 3),
   toByte32 (fat h 3 >>> 11),
   toByte32 ((fat h 3 >>> 19) ||| (fat h 4 <<< 6)),
   toByte32 (fat h 4 >>> 2),
   toByte32 (fat h 4 >>> 10),
   toByte32 (fat h 4 >>> 18),
   toByte32 (fat h 5 >>> 0),
   toByte32 (fat h 5 >>> 8),
   toByte32 (fat h 5 >>> 16),
   toByte32 ((fat h 5 >>> 24) ||| (fat h 6 <<< 1)),
   toByte32 (fat h 6 >>> 7),
   toByte32 (fat h 6 >>> 15),
   toByte32 ((fat h 6 >>> 23) ||| (fat h 7 <<< 3)),
   toByte32 (fat h 7 >>> 5),
   toByte32 (fat h 7 >>> 13),
   toByte32 ((fat h 7 >>> 21) ||| (fat h 8 <<< 4)),
   toByte32 (fat h 8 >>> 4),
   toByte32 (fat h 8 >>> 12),
   toByte32 ((fat h 8 >>> 20) ||| (fat h 9 <<< 6)),
   toByte32 (fat h 9 >>> 2),
   toByte32 (fat h 9 >>> 10),
   toByte32 (fat h 9 >>> 18)]

/-- `kyber/group/edwards25519/fe.go:159-246`, `feToBytes`: the bytes. The argument is left as `normal h`. -/
def toBytes (h : FeL) : Str := pack (normal h)

/-- `kyber/group/edwards25519/fe.go:248-252`, `feIsNegative`. The argument is left as `normal f`. -/
def isNegative (f : FeL) : UInt8 := (toBytes f).getD 0 0 &&& 1

/-- `kyber/group/edwards25519/fe.go:254-265`, `feIsNonZero`. The argument is left as `normal f`. -/
def isNonZero (f : FeL) : Int32 :=
  let x := (toBytes f).foldl (fun x b => x ||| b) 0
  let x := x ||| (x >>> 4)
  let x := x ||| (x >>> 2)
  let x := x ||| (x >>> 1)
  (x &&& 1).toUInt32.toInt32

end Limb

end Verif.Kyber
