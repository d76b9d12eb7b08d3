import Verif.Lemmas.CodecBits
import Verif.Model.Cipher
import Verif.Lemmas.Codec
import Verif.Lemmas.Hash

/-!
# Properties C12–C14 (`domain/cryptography`, encodings)
-/

namespace Verif.Cipher
open Verif Codec

/-- A concrete choice of primitives, for showing that hypotheses can be met. -/
def toyPrims : Prims where
  sha256 := fun s => (s ++ List.replicate 32 0).take 32
  aes := fun k s i => k.foldl (· + ·) 7 + s.foldl (fun a b => a * 3 + b) 1 + UInt8.ofNat i.1

/-! ## C14 -/

/-- C14: decoding inverts encoding. -/
theorem C14_base64_roundtrip (s : Str) : b64Decode (b64Encode s) = .ok s := b64Decode_encode s

/-- C14: the base64 text has 4 characters per started group of 3 bytes. -/
theorem C14_base64_length (s : Str) : (b64Encode s).length = 4 * ((s.length + 2) / 3) := by
  fun_induction b64Encode s with
  | case1 a b c rest v ih => simp [ih]; omega
  | case2 => simp
  | case3 => simp
  | case4 => simp

/-- C14: the hexadecimal encoding is lossless. -/
theorem C14_hex_roundtrip (s : Str) : Hash.hexDecode (Hash.hexEncode s) = .ok s :=
  hexDecode_hexEncode s

/-- C14: the base64 text is the one of RFC 4648: its characters are those of the standard alphabet for the groups of six bits of the bytes, in order, filled up with
`=` to groups of four; nothing else is in it. -/
theorem C14_base64_text (s : Str) (j : Nat) : (b64Encode s)[j]? =
    if j < (4 * s.length + 2) / 3 then base64Alphabet[sextet s j]? else if j < 4 * ((s.length + 2) / 3) then some 61 else none := b64_at s j

/-- C14: the hexadecimal text consists of the digits of the groups of four bits, in order. -/
theorem C14_hex_text (s : Str) (j : Nat) : (Hash.hexEncode s)[j]? = if j < 2 * s.length then hexAlphabet[nibble s j]? else none := hex_at s j

/-- C14: only characters of the alphabets are used, and `=` only as one of the last two characters. -/
theorem C14_alphabet (s : Str) : (∀ c ∈ b64Encode s, c ∈ base64Alphabet ∨ c = 61) ∧ (∀ c ∈ (b64Encode s).dropLast.dropLast, c ∈ base64Alphabet) ∧
    ∀ c ∈ Hash.hexEncode s, c ∈ hexAlphabet := by
  refine ⟨?_, ?_, ?_⟩
  · intro c hc
    obtain ⟨j, hj⟩ := List.mem_iff_getElem?.mp hc
    rw [C14_base64_text] at hj
    split at hj
    · exact .inl (List.mem_of_getElem? hj)
    · split at hj
      · right; simpa using hj.symm
      · cases hj
  · intro c hc
    obtain ⟨j, hj⟩ := List.mem_iff_getElem?.mp hc
    have hlen := C14_base64_length s
    have hlt : j < (b64Encode s).length - 2 := by
      obtain ⟨h1, _⟩ := List.getElem?_eq_some_iff.mp hj
      simp at h1
      omega
    rw [List.dropLast_eq_take, List.dropLast_eq_take, List.getElem?_take_of_lt (by simp; omega), List.getElem?_take_of_lt (by omega), C14_base64_text,
      if_pos (by omega)] at hj
    exact List.mem_of_getElem? hj
  · intro c hc
    obtain ⟨j, hj⟩ := List.mem_iff_getElem?.mp hc
    rw [C14_hex_text] at hj
    split at hj
    · exact List.mem_of_getElem? hj
    · cases hj

example : b64Encode (lit "light w") = lit "bGlnaHQgdw==" ∧ Hash.hexEncode (lit "J~") = lit "4a7e" := by decide +kernel

/-! ## C12 -/

theorem cfb_roundtrip (E : Str → Block) (next : Str) (out : Block) (used : Nat) (msg : Str) :
    cfb E true next out used (cfb E false next out used msg) = msg := by
  induction msg generalizing next out used with
  | nil => rfl
  | cons b rest ih =>
    simp only [cfb]
    split
    · rename_i h
      simp only [cfb, h, dif_pos, Bool.false_eq_true, if_false, if_true, ih]
      simp [UInt8.xor_assoc]
    · rename_i h
      simp only [cfb, h, dif_neg, not_false_eq_true, Bool.false_eq_true, if_false, if_true, ih]
      simp [UInt8.xor_assoc]

theorem cfb_length (E : Str → Block) (d : Bool) (next : Str) (out : Block) (used : Nat) (msg : Str) :
    (cfb E d next out used msg).length = msg.length := by
  induction msg generalizing next out used with
  | nil => rfl
  | cons b rest ih =>
    simp only [cfb]
    split <;> simp [ih]

/-- C12: with one password, `Decrypt(Encrypt(m)) = m`, for every 16-byte initialization vector. -/
theorem C12_decrypt_encrypt (p : Prims) (password key iv message : Str) (hiv : iv.length = 16)
    (hkey : build p (some password) = .ok key) :
    decrypt p key (encrypt p key iv message) = .ok message := by
  have _ := hkey
  have h : ¬ (iv ++ cfbRun (p.aes key) false iv message).length < 16 := by simp [hiv]
  simp only [decrypt, encrypt, b64Decode_encode, Out.bind_ok]
  rw [if_neg h]
  have h1 : (iv ++ cfbRun (p.aes key) false iv message).take 16 = iv := by
    rw [← hiv]; simp
  have h2 : (iv ++ cfbRun (p.aes key) false iv message).drop 16 = cfbRun (p.aes key) false iv message := by
    rw [← hiv]; simp
  rw [h1, h2]
  simp [cfbRun, cfb_roundtrip]

/-- C12: an instance is built for every password that is set; its key is the digest of the password, so two passwords give
the same key exactly when their digests are equal. -/
theorem C12_build_ok (p : Prims) (password : Option Str) :
    (build p password = .err ↔ password = none) ∧ build p password ≠ .panic ∧
      (∀ key, build p password = .ok key ↔ ∃ pw, password = some pw ∧ key = p.sha256 pw) := by
  cases password <;> simp [build, eq_comm]

example : ∃ key, build toyPrims (some (lit "pw")) = .ok key ∧ (List.replicate 16 (5 : UInt8)).length = 16 :=
  ⟨_, rfl, by decide⟩

/-! ## C13 -/

/-- C13: `Decrypt` fails only on malformed base64 or fewer than 16 bytes; it never looks at the password. -/
theorem C13_decrypt_ok_iff (p : Prims) (key text : Str) :
    (∃ m, decrypt p key text = .ok m) ↔ ∃ b, b64Decode text = .ok b ∧ 16 ≤ b.length := by
  simp only [decrypt, Out.bind_eq_ok]
  constructor
  · rintro ⟨m, b, hb, h⟩
    split at h
    · cases h
    · exact ⟨b, hb, by omega⟩
  · rintro ⟨b, hb, h⟩
    exact ⟨_, b, hb, by rw [if_neg (by omega)]⟩

/-- C13 (violation of "a wrong password is detected"): a text encrypted with any password decrypts without error
with every other password. -/
theorem C13_wrong_password_accepted (p : Prims) (pw pw' key key' iv message : Str) (hiv : iv.length = 16)
    (hk : build p (some pw) = .ok key) (hk' : build p (some pw') = .ok key') :
    ∃ m, m.length = message.length ∧ decrypt p key' (encrypt p key iv message) = .ok m := by
  have _ := hk; have _ := hk'
  have h : ¬ (iv ++ cfbRun (p.aes key) false iv message).length < 16 := by simp [hiv]
  simp only [decrypt, encrypt, b64Decode_encode, Out.bind_ok]
  rw [if_neg h]
  exact ⟨_, by simp [cfbRun, cfb_length, hiv], rfl⟩

theorem cfb_append (E : Str → Block) (next : Str) (out : Block) (used : Nat) (a : Str) :
    ∃ next' out' used', ∀ b, cfb E true next out used (a ++ b) =
      cfb E true next out used a ++ cfb E true next' out' used' b := by
  induction a generalizing next out used with
  | nil => exact ⟨next, out, used, fun b => rfl⟩
  | cons x a ih =>
    by_cases h : used < 16
    · obtain ⟨n, o, u, e⟩ := ih (next ++ [x]) out (used + 1)
      exact ⟨n, o, u, fun b => by simp [cfb, h, e]⟩
    · obtain ⟨n, o, u, e⟩ := ih [x] (E next) 1
      exact ⟨n, o, u, fun b => by simp [cfb, h, e]⟩

/-- C13 (violation of integrity): an attacker without the password who flips bits `δ` of the last byte of a
ciphertext flips exactly these bits of the last byte of the plaintext and nothing else. -/
theorem C13_last_byte_malleable (p : Prims) (key iv body m : Str) (c δ : UInt8) (hiv : iv.length = 16)
    (h : decrypt p key (b64Encode (iv ++ (body ++ [c]))) = .ok m) :
    ∃ m' x, m = m' ++ [x] ∧
      decrypt p key (b64Encode (iv ++ (body ++ [c ^^^ δ]))) = .ok (m' ++ [x ^^^ δ]) := by
  have key' : ∀ d, decrypt p key (b64Encode (iv ++ (body ++ [d]))) =
      .ok (cfbRun (p.aes key) true iv (body ++ [d])) := by
    intro d
    have h : ¬ (iv ++ (body ++ [d])).length < 16 := by simp [hiv]
    simp only [decrypt, b64Decode_encode, Out.bind_ok]
    rw [if_neg h]
    rw [show (iv ++ (body ++ [d])).take 16 = iv by rw [← hiv]; simp,
      show (iv ++ (body ++ [d])).drop 16 = body ++ [d] by rw [← hiv]; simp]
  rw [key'] at h
  obtain ⟨n, o, u, e⟩ := cfb_append (p.aes key) iv (fun _ => 0) 16 body
  simp only [cfbRun, e, Out.ok.injEq] at h
  subst h
  rw [key']
  simp only [cfbRun, e]
  have : ∃ k : UInt8, ∀ d, cfb (p.aes key) true n o u [d] = [d ^^^ k] := by
    by_cases hu : u < 16
    · exact ⟨o ⟨u, hu⟩, fun d => by simp [cfb, hu]⟩
    · exact ⟨p.aes key n 0, fun d => by simp [cfb, hu]⟩
  obtain ⟨k, hk⟩ := this
  refine ⟨_, c ^^^ k, by rw [hk], ?_⟩
  rw [hk, UInt8.xor_assoc, UInt8.xor_comm δ k, ← UInt8.xor_assoc]

example : ∃ m, decrypt toyPrims [] (b64Encode (List.replicate 16 5 ++ ([1, 2] ++ [3]))) = .ok m :=
  (C13_decrypt_ok_iff _ _ _).mpr ⟨_, b64Decode_encode _, by decide⟩

end Verif.Cipher
