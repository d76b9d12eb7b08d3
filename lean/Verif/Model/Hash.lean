import Verif.Model.Go

/-!
# `domain/hash`

SHA-512 is a parameter `sha : Str → Hash`: all theorems hold for every function with 64-byte
output.
-/

namespace Verif

/-- `domain/hash/sdk.go`, `type Hash [64]byte`. -/
abbrev Hash := { b : Str // b.length = 64 }

namespace Hash

/-- `domain/hash/hash.go:24-31`, `Hash.Bytes`. -/
def bytes (h : Hash) : Str := h.1

/-- Lower-case hexadecimal digit of a number below 16 (`fmt` verb `%x`). Go library; called at `hash/hash.go:36`. -/
def hexDigit (n : Nat) : UInt8 := UInt8.ofNat (if n < 10 then 48 + n else 87 + n)

/-- `fmt.Sprintf("%x", b)` on a byte slice: two lower-case digits per byte. Go library; called at `hash/hash.go:36`. -/
def hexEncode : Str → Str
  | [] => []
  | b :: l => hexDigit (b.toNat / 16) :: hexDigit (b.toNat % 16) :: hexEncode l

/-- `domain/hash/hash.go:34-37`, `Hash.String`. -/
def toStr (h : Hash) : Str := hexEncode h.bytes

/-- `encoding/hex.fromHexChar`: digits of both cases. Go library; called at `hash/adapter.go:48`, `signature/helper.go:23,39`. -/
def unhexDigit (c : UInt8) : Option Nat :=
  if 48 ≤ c.toNat ∧ c.toNat ≤ 57 then some (c.toNat - 48)
  else if 97 ≤ c.toNat ∧ c.toNat ≤ 102 then some (c.toNat - 87)
  else if 65 ≤ c.toNat ∧ c.toNat ≤ 70 then some (c.toNat - 55)
  else none

/-- `encoding/hex.DecodeString`: an error on a bad digit or an odd length. Go library; called at `hash/adapter.go:48`, `signature/helper.go:23,39`. -/
def hexDecode : Str → Out Str
  | [] => .ok []
  | [_] => .err
  | a :: b :: l =>
    match unhexDigit a, unhexDigit b with
    | some x, some y => do
      let r ← hexDecode l
      return UInt8.ofNat (16 * x + y) :: r
    | _, _ => .err

variable (sha : Str → Hash)

/-- `domain/hash/adapter.go:17-34`, `FromBytes`: hashes unless the input has 64 bytes already.
(`h.Write` of SHA-512 never fails, so the error branch is unreachable.) -/
def fromBytes (input : Str) : Hash :=
  if h : input.length = 64 then ⟨input, h⟩ else sha input

/-- `domain/hash/adapter.go:37-44`, `FromMultiBytes`: the loop appends every row. -/
def fromMultiBytes (input : List Str) : Hash :=
  fromBytes sha (input.foldl (fun merged row => merged ++ row) [])

/-- `domain/hash/adapter.go:47-59`, `FromString`. -/
def fromString (input : Str) : Out Hash := do
  let bytes ← hexDecode input
  return fromBytes sha bytes

/-- `bytes.Compare` of the Go standard library: lexicographic order (`lt`, `eq`, `gt`). Called at `hash/hash.go:20`. -/
def bytesCompare : Str → Str → Ordering
  | [], [] => .eq
  | [], _ :: _ => .lt
  | _ :: _, [] => .gt
  | a :: l, b :: m => if a < b then .lt else if b < a then .gt else bytesCompare l m

/-- `domain/hash/hash.go:9-21`, `Hash.Compare`. -/
def compare (a b : Hash) : Bool := bytesCompare a.bytes b.bytes == .eq

end Hash
end Verif
