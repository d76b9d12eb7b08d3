import Verif.Model.Go

/-!
# Scalars of the curve, as the bytes and machine integers of `go.dedis.ch/kyber/v3`

`domain/cryptography/keys/signature` computes with `kyber.Scalar` values. The version of the library which is
used is in the repository (`vendor/go.dedis.ch/kyber/v3`, written `kyber/` below), and its scalars are modelled
here as they are written: 32 bytes, operated on in limbs of 21 bits held in `int64` variables whose additions,
multiplications and shifts wrap around. `kyber/` is `vendor/go.dedis.ch/kyber/v3/`.
-/

namespace Verif.Kyber
open Verif

/-- `kyber/group/edwards25519/const.go:15`, `primeOrder`, and `kyber/group/edwards25519/scalar.go:23`. -/
def primeOrder : Nat := 2 ^ 252 + 27742317777372353535851937790883648493

/-- `kyber/group/edwards25519/scalar.go:28-30`. A scalar is any 32 bytes: nothing makes it smaller than the
order. -/
abbrev Scalar := { v : Str // v.length = 32 }

/-- `int64(in[i])`: `kyber/group/edwards25519/fe.go:64-77`. The index is always in range (C116). -/
def byte64 (s : Str) (i : Nat) : Int64 := (s.getD i 0).toUInt64.toInt64

/-- `kyber/group/edwards25519/fe.go:64-69`, `load3(in[o:])`. -/
def load3 (s : Str) (o : Nat) : Int64 :=
  byte64 s o ||| byte64 s (o + 1) <<< 8 ||| byte64 s (o + 2) <<< 16

/-- `kyber/group/edwards25519/fe.go:71-77`, `load4(in[o:])`. -/
def load4 (s : Str) (o : Nat) : Int64 :=
  byte64 s o ||| byte64 s (o + 1) <<< 8 ||| byte64 s (o + 2) <<< 16 ||| byte64 s (o + 3) <<< 24

/-- `kyber/group/edwards25519/scalar.go:206-217`: the variables `a0` to `a11` (the same lines read `b` and `c`, and
are repeated in every operation). -/
def limbs (a : Str) : List Int64 :=
  [(2097151 : Int64) &&& load3 a 0,
   (2097151 : Int64) &&& (load4 a 2 >>> 5),
   (2097151 : Int64) &&& (load3 a 5 >>> 2),
   (2097151 : Int64) &&& (load4 a 7 >>> 7),
   (2097151 : Int64) &&& (load4 a 10 >>> 4),
   (2097151 : Int64) &&& (load3 a 13 >>> 1),
   (2097151 : Int64) &&& (load4 a 15 >>> 6),
   (2097151 : Int64) &&& (load3 a 18 >>> 3),
   (2097151 : Int64) &&& load3 a 21,
   (2097151 : Int64) &&& (load4 a 23 >>> 5),
   (2097151 : Int64) &&& (load3 a 26 >>> 2),
   load4 a 28 >>> 7]

/-- The variable `ai`: zero from `a12` on, which the code does not have. `kyber/group/edwards25519/scalar.go:206-217`. -/
def limb (a : Str) (i : Nat) : Int64 := (limbs a).getD i 0

/-- The variables `s0` to `s23` of `kyber/group/edwards25519/scalar.go:244-267`. -/
abbrev Limbs := List Int64

/-- The value of one of the variables. `kyber/group/edwards25519/scalar.go:244-627`. -/
def get (s : Limbs) (i : Nat) : Int64 := s.getD i 0

/-- An assignment to one of the variables. `kyber/group/edwards25519/scalar.go:269-594`. -/
def upd (s : Limbs) (i : Nat) (v : Int64) : Limbs := s.set i v

/-- `kyber/group/edwards25519/scalar.go:244-267` and `1524-1547`: the products, `s_k = c_k + a_0 b_k + ... + a_k b_0`.
(From `s12` on the code has no `c_k`, which is zero here.) -/
def product (a b c : Nat → Int64) (k : Nat) : Int64 :=
  ((List.range 12).filter (fun i => decide (i ≤ k ∧ k - i < 12))).foldl (fun acc i => acc + a i * b (k - i)) (c k)

/-- The 24 variables at the start. `kyber/group/edwards25519/scalar.go:244-267`. -/
def start (f : Nat → Int64) : Limbs := (List.range 24).map f

/-- The three statements the reduction is made of: `kyber/group/edwards25519/scalar.go:269-594`. -/
inductive Step where
  /-- `carry[i] = (si + (1 << 20)) >> 21` and the two lines after it -/
  | round (i : Nat)
  /-- `carry[i] = si >> 21` and the two lines after it -/
  | carry (i : Nat)
  /-- `s(j-12) += sj * 666643` and the six lines after it -/
  | fold (j : Nat)
  deriving DecidableEq

/-- `kyber/group/edwards25519/scalar.go:269-271` (round), `kyber/group/edwards25519/scalar.go:517-519` (carry),
`kyber/group/edwards25519/scalar.go:340-346` (fold). -/
def Step.run : Step → Limbs → Limbs
  | .round i, s =>
    let c := (get s i + (1 : Int64) <<< 20) >>> 21
    let s := upd s (i + 1) (get s (i + 1) + c)
    upd s i (get s i - c <<< 21)
  | .carry i, s =>
    let c := get s i >>> 21
    let s := upd s (i + 1) (get s (i + 1) + c)
    upd s i (get s i - c <<< 21)
  | .fold j, s =>
    let s := upd s (j - 12) (get s (j - 12) + get s j * 666643)
    let s := upd s (j - 11) (get s (j - 11) + get s j * 470296)
    let s := upd s (j - 10) (get s (j - 10) + get s j * 654183)
    let s := upd s (j - 9) (get s (j - 9) - get s j * 997805)
    let s := upd s (j - 8) (get s (j - 8) + get s j * 136657)
    let s := upd s (j - 7) (get s (j - 7) - get s j * 683901)
    upd s j 0

/-- `kyber/group/edwards25519/scalar.go:269-338`: the even and then the odd variables are rounded. -/
def firstCarries : List Step :=
  [.round 0, .round 2, .round 4, .round 6, .round 8, .round 10, .round 12, .round 14, .round 16, .round 18,
   .round 20, .round 22, .round 1, .round 3, .round 5, .round 7, .round 9, .round 11, .round 13, .round 15,
   .round 17, .round 19, .round 21]

/-- `kyber/group/edwards25519/scalar.go:340-387`. -/
def highFolds : List Step := [.fold 23, .fold 22, .fold 21, .fold 20, .fold 19, .fold 18]

/-- `kyber/group/edwards25519/scalar.go:388-422`. -/
def middleCarries : List Step :=
  [.round 6, .round 8, .round 10, .round 12, .round 14, .round 16, .round 7, .round 9, .round 11, .round 13,
   .round 15]

/-- `kyber/group/edwards25519/scalar.go:423-470`. -/
def lowFolds : List Step := [.fold 17, .fold 16, .fold 15, .fold 14, .fold 13, .fold 12]

/-- `kyber/group/edwards25519/scalar.go:471-516`, with the fold of `s12` which ends it. -/
def roundedPass : List Step :=
  [.round 0, .round 2, .round 4, .round 6, .round 8, .round 10, .round 1, .round 3, .round 5, .round 7, .round 9,
   .round 11, .fold 12]

/-- `kyber/group/edwards25519/scalar.go:517-553`: carries without rounding, up to `s12`. -/
def exactPass : List Step :=
  [.carry 0, .carry 1, .carry 2, .carry 3, .carry 4, .carry 5, .carry 6, .carry 7, .carry 8, .carry 9, .carry 10,
   .carry 11]

/-- `kyber/group/edwards25519/scalar.go:554-594`: the last fold and the last carries. -/
def lastPass : List Step :=
  [.fold 12, .carry 0, .carry 1, .carry 2, .carry 3, .carry 4, .carry 5, .carry 6, .carry 7, .carry 8, .carry 9,
   .carry 10]

/-- `kyber/group/edwards25519/scalar.go:269-594`. The same statements are in `scAdd` (`692-1017`), `scSub`
(`1115-1440`) and `scMul` (`1549-1874`). -/
def reduction : List Step :=
  firstCarries ++ highFolds ++ middleCarries ++ lowFolds ++ roundedPass ++ exactPass ++ lastPass

/-- A list of statements: `kyber/group/edwards25519/scalar.go:269-594`. -/
def runSteps (l : List Step) (s : Limbs) : Limbs := l.foldl (fun s st => st.run s) s

/-- `byte(x)`: `kyber/group/edwards25519/scalar.go:596-627`. -/
def toByte (x : Int64) : UInt8 := x.toUInt64.toUInt8

/-- `kyber/group/edwards25519/scalar.go:596-627`: the 32 bytes of the result. -/
def store (s : Limbs) : Str :=
  [toByte (get s 0 >>> 0), toByte (get s 0 >>> 8), toByte (get s 0 >>> 16 ||| get s 1 <<< 5),
   toByte (get s 1 >>> 3), toByte (get s 1 >>> 11), toByte (get s 1 >>> 19 ||| get s 2 <<< 2),
   toByte (get s 2 >>> 6), toByte (get s 2 >>> 14 ||| get s 3 <<< 7),
   toByte (get s 3 >>> 1), toByte (get s 3 >>> 9), toByte (get s 3 >>> 17 ||| get s 4 <<< 4),
   toByte (get s 4 >>> 4), toByte (get s 4 >>> 12), toByte (get s 4 >>> 20 ||| get s 5 <<< 1),
   toByte (get s 5 >>> 7), toByte (get s 5 >>> 15 ||| get s 6 <<< 6),
   toByte (get s 6 >>> 2), toByte (get s 6 >>> 10), toByte (get s 6 >>> 18 ||| get s 7 <<< 3),
   toByte (get s 7 >>> 5), toByte (get s 7 >>> 13),
   toByte (get s 8 >>> 0), toByte (get s 8 >>> 8), toByte (get s 8 >>> 16 ||| get s 9 <<< 5),
   toByte (get s 9 >>> 3), toByte (get s 9 >>> 11), toByte (get s 9 >>> 19 ||| get s 10 <<< 2),
   toByte (get s 10 >>> 6), toByte (get s 10 >>> 14 ||| get s 11 <<< 7),
   toByte (get s 11 >>> 1), toByte (get s 11 >>> 9), toByte (get s 11 >>> 17)]

/-- `kyber/group/edwards25519/scalar.go:205-628`, `scMulAdd`. -/
def scMulAdd (a b c : Str) : Str := store (runSteps reduction (start (product (limb a) (limb b) (limb c))))

/-- `kyber/group/edwards25519/scalar.go:640-1051`, `scAdd`. -/
def scAdd (a c : Str) : Str := store (runSteps reduction (start (fun i => limb c i + limb a i)))

/-- `kyber/group/edwards25519/scalar.go:1090-1113`: 16 times the order, in limbs. -/
def subConst : Nat → Int64
  | 0 => 1916624 | 1 => 863866 | 2 => 18828 | 3 => 1284811 | 4 => 2007799 | 5 => 456654 | 6 => 5 | 12 => 16 | _ => 0

/-- `kyber/group/edwards25519/scalar.go:1063-1474`, `scSub`: `a - c`, to which 16 times the order is added. -/
def scSub (a c : Str) : Str := store (runSteps reduction (start (fun i => subConst i - limb c i + limb a i)))

/-- `kyber/group/edwards25519/scalar.go:1485-1908`, `scMul`. -/
def scMul (a b : Str) : Str := store (runSteps reduction (start (product (limb a) (limb b) (fun _ => 0))))

/-- The number 32 (or fewer, or more) bytes stand for, lowest byte first: `big.Int.SetBytes` of the reversed
bytes, `kyber/group/mod/int.go:385-392`. -/
def leNat : Str → Nat
  | [] => 0
  | b :: rest => b.toNat + 256 * leNat rest

/-- The `n` lowest bytes of a number, lowest first: `kyber/group/mod/int.go:397-414`, `LittleEndian(n, n)` for a number
which fits. -/
def leBytes : Nat → Nat → Str
  | 0, _ => []
  | n + 1, x => UInt8.ofNat x :: leBytes n (x / 256)

/-- `kyber/group/edwards25519/scalar.go:51-55` and `62-64`: `setInt` of a `mod.Int`, which is reduced
(`kyber/group/mod/int.go:95-100`, `385-392`). `kyber/group/edwards25519/scalar.go:142-144`, `SetBytes`. -/
def setBytes (b : Str) : Str := leBytes 32 (leNat b % primeOrder)

/-- `kyber/group/edwards25519/scalar.go:161-163`, `MarshalBinary` (`kyber/group/mod/int.go:315-330`), and the bytes of
`String` (`kyber/group/edwards25519/scalar.go:147-153`). -/
def marshal (v : Str) : Str := leBytes 32 (leNat v % primeOrder)

/-- `kyber/group/edwards25519/const.go:20`, `lMinus2`. -/
def lMinus2 : Nat := primeOrder - 2

/-- `kyber/group/edwards25519/scalar.go:73-76`, `One`. -/
def one : Str := 1 :: List.replicate 31 0

/-- `kyber/group/edwards25519/scalar.go:67-70`, `Zero`. -/
def zero : Str := List.replicate 32 0

/-- `kyber/group/edwards25519/scalar.go:122-130`, the loop of `Inv` on the bits below `n`. -/
def invLoop (a : Str) : Nat → Str → Str
  | 0, res => res
  | n + 1, res =>
    let res := scMul res res
    invLoop a n (if lMinus2.testBit n then scMul res a else res)

/-- `kyber/group/edwards25519/scalar.go:113-133`, `Inv`. -/
def scInv (a : Str) : Str := invLoop a 256 one

/-- `kyber/group/edwards25519/scalar.go:105-110`, `Div`. -/
def scDiv (a b : Str) : Str := scMul a (scInv b)

/-- `kyber/group/edwards25519/scalar.go:91-96`, `Neg`. -/
def scNeg (a : Str) : Str := scSub zero a

/-- `kyber/group/internal/marshalling/marshal.go:54-65`, `ScalarUnmarshalFrom` of a byte reader, with
`kyber/group/edwards25519/scalar.go:171-177`, `UnmarshalBinary`: the first 32 bytes are taken as they are, what is after them
is not read, and fewer than 32 bytes are an error. -/
def unmarshalFrom (d : Str) : Out Scalar :=
  if h : 32 ≤ d.length then .ok ⟨d.take 32, by simp [h]⟩ else .err

end Verif.Kyber
