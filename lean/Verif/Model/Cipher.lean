import Verif.Model.Codec

/-!
# `domain/cryptography` (password based encryption)
-/

namespace Verif.Cipher
open Verif Codec

/-- A 16-byte block (`aes.BlockSize`, `cryptography/encryption.go:32`). -/
abbrev Block := Fin 16 → UInt8

/-- The primitives: `sha256` is `curve.Hash()` (SHA-256), `aes key` the AES block function. CFB never uses the inverse
block function. Used at `cryptography/builder.go:31-33` and `cryptography/encryption.go:27,52`. -/
structure Prims where
  sha256 : Str → Str
  aes : Str → Str → Block

/-- `crypto/cipher` CFB `XORKeyStream` with the stream state (`next`, `out`, `outUsed`): a new key-stream block is
computed from the last 16 ciphertext bytes whenever the present one is used up. Called at `cryptography/encryption.go:39,67`. -/
def cfb (E : Str → Block) (decrypt : Bool) : Str → Block → Nat → Str → Str
  | _, _, _, [] => []
  | next, out, used, b :: rest =>
    if h : used < 16 then
      let c := b ^^^ out ⟨used, h⟩
      c :: cfb E decrypt (next ++ [if decrypt then b else c]) out (used + 1) rest
    else
      let out := E next
      let c := b ^^^ out 0
      c :: cfb E decrypt [if decrypt then b else c] out 1 rest

/-- `cipher.NewCFBEncrypter(block, iv)` / `NewCFBDecrypter` followed by `XORKeyStream`. Called at `cryptography/encryption.go:38-39,66-67`. -/
def cfbRun (E : Str → Block) (decrypt : Bool) (iv msg : Str) : Str :=
  cfb E decrypt iv (fun _ => 0) 16 msg

/-- `cryptography/builder.go:26-35`, `Now`: the key is the SHA-256 of the password; a nil
password is an error. The `Encryption` instance is its key. -/
def build (p : Prims) (password : Option Str) : Out Str :=
  match password with
  | some pw => .ok (p.sha256 pw)
  | none => .err

/-- `cryptography/encryption.go:25-41`, `Encrypt`; `iv` are the 16 bytes read from `rand.Reader`. (`aes.NewCipher`
cannot fail on a 32-byte key.) -/
def encrypt (p : Prims) (key : Str) (iv : Str) (message : Str) : Str :=
  b64Encode (iv ++ cfbRun (p.aes key) false iv message)

/-- `cryptography/encryption.go:44-69`, `Decrypt`. -/
def decrypt (p : Prims) (key : Str) (text : Str) : Out Str := do
  let cipherText ← b64Decode text
  if cipherText.length < 16 then .err
  else
    let iv := cipherText.take 16
    .ok (cfbRun (p.aes key) true iv (cipherText.drop 16))

end Verif.Cipher
