import Verif.Model.Go

/-!
# Base64 (`encoding/base64.StdEncoding`) and `strings` helpers used by the text formats
-/

namespace Verif.Codec
open Verif

/-- The standard alphabet `A-Za-z0-9+/`. Go library; called at `cryptography/encryption.go:41,47`, `signature/ringsignature_adapter.go:27`. -/
def b64Char (n : Nat) : UInt8 :=
  UInt8.ofNat (if n < 26 then 65 + n else if n < 52 then 71 + n else if n < 62 then n - 4
    else if n = 62 then 43 else 47)

/-- Inverse of the alphabet. Go library; called at `cryptography/encryption.go:41,47`, `signature/ringsignature_adapter.go:27`. -/
def b64Val (c : UInt8) : Option Nat :=
  let n := c.toNat
  if 65 ≤ n ∧ n ≤ 90 then some (n - 65)
  else if 97 ≤ n ∧ n ≤ 122 then some (n - 71)
  else if 48 ≤ n ∧ n ≤ 57 then some (n + 4)
  else if n = 43 then some 62
  else if n = 47 then some 63
  else none

/-- The padding character `=`. Go library; called at `cryptography/encryption.go:41,47`, `signature/ringsignature_adapter.go:27`. -/
def pad : UInt8 := 61

/-- `base64.StdEncoding.EncodeToString`. Go library; called at `cryptography/encryption.go:41,47`, `signature/ringsignature_adapter.go:27`. -/
def b64Encode : Str → Str
  | a :: b :: c :: rest =>
    let v := a.toNat * 65536 + b.toNat * 256 + c.toNat
    b64Char (v / 262144) :: b64Char (v / 4096 % 64) :: b64Char (v / 64 % 64) :: b64Char (v % 64) ::
      b64Encode rest
  | [a, b] =>
    let v := a.toNat * 65536 + b.toNat * 256
    [b64Char (v / 262144), b64Char (v / 4096 % 64), b64Char (v / 64 % 64), pad]
  | [a] =>
    let v := a.toNat * 65536
    [b64Char (v / 262144), b64Char (v / 4096 % 64), pad, pad]
  | [] => []

/-- Decoding of text without line breaks: whole quanta, padding only at the end. As in Go's non-strict mode
left-over bits of the last quantum are ignored. Go library; called at `cryptography/encryption.go:41,47`, `signature/ringsignature_adapter.go:27`. -/
def b64Quanta : Str → Out Str
  | [] => .ok []
  | a :: b :: c :: d :: rest =>
    match b64Val a, b64Val b, b64Val c, b64Val d with
    | some w, some x, some y, some z => do
      let r ← b64Quanta rest
      let v := w * 262144 + x * 4096 + y * 64 + z
      return UInt8.ofNat (v / 65536) :: UInt8.ofNat (v / 256 % 256) :: UInt8.ofNat (v % 256) :: r
    | some w, some x, some y, none =>
      if d = pad ∧ rest = [] then
        let v := w * 262144 + x * 4096 + y * 64
        .ok [UInt8.ofNat (v / 65536), UInt8.ofNat (v / 256 % 256)]
      else .err
    | some w, some x, none, none =>
      if c = pad ∧ d = pad ∧ rest = [] then
        .ok [UInt8.ofNat ((w * 262144 + x * 4096) / 65536)]
      else .err
    | _, _, _, _ => .err
  | _ => .err

/-- `base64.StdEncoding.DecodeString`: carriage returns and line feeds are skipped. Go library; called at `cryptography/encryption.go:41,47`, `signature/ringsignature_adapter.go:27`. -/
def b64Decode (s : Str) : Out Str := b64Quanta (s.filter (fun c => c ≠ 10 ∧ c ≠ 13))

/-- `strings.Split(s, sep)` for a one-byte separator. Go library; called at `signature/adapter.go:25`, `signature/ringsignature_adapter.go:32,39,55`, `peers/peer_builder.go:58`. -/
def split (sep : UInt8) : Str → List Str
  | [] => [[]]
  | c :: rest =>
    if c = sep then [] :: split sep rest
    else
      match split sep rest with
      | [] => [[c]]
      | h :: t => (c :: h) :: t

end Verif.Codec
