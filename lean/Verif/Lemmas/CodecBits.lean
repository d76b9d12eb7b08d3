import Verif.Model.Codec
import Verif.Model.Hash
import Verif.Spec.Codec

/-!
# Bits of encoded texts
-/

namespace Verif.Codec

theorem alphabet_get : ∀ n < 64, base64Alphabet[n]? = some (b64Char n) := by decide +kernel
theorem hexAlphabet_get : ∀ n < 16, hexAlphabet[n]? = some (Hash.hexDigit n) := by decide +kernel

theorem bitAt_shift3 (a b c : UInt8) (s : Str) (k : Nat) : bitAt (a :: b :: c :: s) (k + 24) = bitAt s k := by
  unfold bitAt
  rw [show (k + 24) / 8 = k / 8 + 3 by omega, show (k + 24) % 8 = k % 8 by omega]
  rfl

theorem bitAt_shift1 (a : UInt8) (s : Str) (k : Nat) : bitAt (a :: s) (k + 8) = bitAt s k := by
  unfold bitAt
  rw [show (k + 8) / 8 = k / 8 + 1 by omega, show (k + 8) % 8 = k % 8 by omega]
  rfl

theorem sextet_shift (a b c : UInt8) (s : Str) (j : Nat) : sextet (a :: b :: c :: s) (j + 4) = sextet s j := by
  unfold sextet
  rw [show 6 * (j + 4) = 6 * j + 24 by omega, show 6 * j + 24 + 1 = 6 * j + 1 + 24 by omega, show 6 * j + 24 + 2 = 6 * j + 2 + 24 by omega,
    show 6 * j + 24 + 3 = 6 * j + 3 + 24 by omega, show 6 * j + 24 + 4 = 6 * j + 4 + 24 by omega, show 6 * j + 24 + 5 = 6 * j + 5 + 24 by omega]
  simp only [bitAt_shift3]

theorem nibble_shift (a : UInt8) (s : Str) (j : Nat) : nibble (a :: s) (j + 2) = nibble s j := by
  unfold nibble
  rw [show 4 * (j + 2) = 4 * j + 8 by omega, show 4 * j + 8 + 1 = 4 * j + 1 + 8 by omega, show 4 * j + 8 + 2 = 4 * j + 2 + 8 by omega,
    show 4 * j + 8 + 3 = 4 * j + 3 + 8 by omega]
  simp only [bitAt_shift1]

theorem b64_at (s : Str) : ∀ j, (b64Encode s)[j]? =
    if j < (4 * s.length + 2) / 3 then base64Alphabet[sextet s j]? else if j < 4 * ((s.length + 2) / 3) then some pad else none := by
  fun_induction b64Encode s with
  | case1 a b c rest v ih =>
    intro j
    have ha := a.toNat_lt; have hb := b.toNat_lt; have hc := c.toNat_lt
    match j with
    | 0 =>
      rw [if_pos (by simp; omega), alphabet_get _ (by simp only [sextet, bitAt]; omega)]
      simp [sextet, bitAt]; congr 1; simp only [v]; omega
    | 1 =>
      rw [if_pos (by simp; omega), alphabet_get _ (by simp only [sextet, bitAt]; omega)]
      simp [sextet, bitAt]; congr 1; simp only [v]; omega
    | 2 =>
      rw [if_pos (by simp; omega), alphabet_get _ (by simp only [sextet, bitAt]; omega)]
      simp [sextet, bitAt]; congr 1; simp only [v]; omega
    | 3 =>
      rw [if_pos (by simp; omega), alphabet_get _ (by simp only [sextet, bitAt]; omega)]
      simp [sextet, bitAt]; congr 1; simp only [v]; omega
    | j + 4 =>
      rw [sextet_shift]
      have := ih j
      simp only [List.getElem?_cons_succ, List.length_cons]
      rw [this]
      simp only [show (j + 4 < (4 * (rest.length + 1 + 1 + 1) + 2) / 3) ↔ (j < (4 * rest.length + 2) / 3) by omega,
        show (j + 4 < 4 * ((rest.length + 1 + 1 + 1 + 2) / 3)) ↔ (j < 4 * ((rest.length + 2) / 3)) by omega]
  | case2 a b v =>
    intro j
    have ha := a.toNat_lt; have hb := b.toNat_lt
    match j with
    | 0 =>
      rw [if_pos (by simp), alphabet_get _ (by simp only [sextet, bitAt]; omega)]
      simp [sextet, bitAt]; congr 1; simp only [v]; omega
    | 1 =>
      rw [if_pos (by simp), alphabet_get _ (by simp only [sextet, bitAt]; omega)]
      simp [sextet, bitAt]; congr 1; simp only [v]; omega
    | 2 =>
      rw [if_pos (by simp), alphabet_get _ (by simp only [sextet, bitAt]; omega)]
      simp [sextet, bitAt]; congr 1; simp only [v]; omega
    | 3 => simp
    | j + 4 => rw [if_neg (by simp), if_neg (by simp)]; simp
  | case3 a v =>
    intro j
    have ha := a.toNat_lt
    match j with
    | 0 =>
      rw [if_pos (by simp), alphabet_get _ (by simp only [sextet, bitAt]; omega)]
      simp [sextet, bitAt]; congr 1; simp only [v]; omega
    | 1 =>
      rw [if_pos (by simp), alphabet_get _ (by simp only [sextet, bitAt]; omega)]
      simp [sextet, bitAt]; congr 1; simp only [v]; omega
    | 2 => simp
    | 3 => simp
    | j + 4 => rw [if_neg (by simp), if_neg (by simp)]; simp
  | case4 => intro j; simp

theorem hex_at (s : Str) : ∀ j, (Hash.hexEncode s)[j]? = if j < 2 * s.length then hexAlphabet[nibble s j]? else none := by
  induction s with
  | nil => intro j; simp [Hash.hexEncode]
  | cons a s ih =>
    intro j
    have ha := a.toNat_lt
    match j with
    | 0 =>
      rw [if_pos (by simp), hexAlphabet_get _ (by simp only [nibble, bitAt]; omega)]
      simp [nibble, bitAt, Hash.hexEncode]; congr 1; omega
    | 1 =>
      rw [if_pos (by simp; omega), hexAlphabet_get _ (by simp only [nibble, bitAt]; omega)]
      simp [nibble, bitAt, Hash.hexEncode]; congr 1; omega
    | j + 2 =>
      rw [nibble_shift]
      simp only [Hash.hexEncode, List.getElem?_cons_succ, List.length_cons]
      rw [ih j]
      simp only [show (j + 2 < 2 * (s.length + 1)) ↔ j < 2 * s.length by omega]

end Verif.Codec
