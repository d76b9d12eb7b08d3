import Verif.Lemmas.FieldLimbsBytes

/-! # The limbs of a field element: writing bytes -/

namespace Verif.Kyber
open Verif

/-! ## `int32` which are not negative -/

/-- The number of the bits. -/
def bits32 (x : Int32) : Nat := x.toBitVec.toNat

theorem toInt_of_bits32 {x : Int32} (h : bits32 x < 2 ^ 31) : x.toInt = bits32 x := by
  show x.toBitVec.toInt = _
  rw [BitVec.toInt_eq_toNat_of_lt (by show 2 * bits32 x < 2 ^ 32; omega)]
  rfl

theorem bits32_of_toInt {x : Int32} (h : 0 ≤ x.toInt) : (bits32 x : Int) = x.toInt := by
  have h' : 0 ≤ x.toBitVec.toInt := h
  have hlt : bits32 x < 2 ^ 32 := x.toBitVec.isLt
  by_cases hb : bits32 x < 2 ^ 31
  · exact (toInt_of_bits32 hb).symm
  · exfalso
    have h2 : x.toBitVec.toInt = (bits32 x : Int) - 2 ^ 32 := by
      rw [BitVec.toInt_eq_toNat_cond]
      have : ¬ 2 * x.toBitVec.toNat < 2 ^ 32 := by show ¬ 2 * bits32 x < 2 ^ 32; omega
      rw [if_neg this]; rfl
    omega

theorem bits32_shr (x k : Int32) (n : Nat) (hk : k.toBitVec.smod 32 = BitVec.ofNat 32 n) (hn : n < 32)
    (h : bits32 x < 2 ^ 31) : bits32 (x >>> k) = bits32 x / 2 ^ n := by
  have h1 := toInt_shr32 x k n hk hn
  rw [toInt_of_bits32 h] at h1
  have h2 : (0 : Int) ≤ (x >>> k).toInt := by rw [h1]; positivity
  have h3 := bits32_of_toInt h2
  rw [h1] at h3
  exact_mod_cast h3

theorem bits32_shl (x k : Int32) (n : Nat) (hk : k.toBitVec.smod 32 = BitVec.ofNat 32 n) (hn : n < 32)
    (h : bits32 x * 2 ^ n < 2 ^ 32) : bits32 (x <<< k) = bits32 x * 2 ^ n := by
  unfold bits32 at *
  rw [Int32.toBitVec_shiftLeft, hk, BitVec.shiftLeft_eq']
  have : (BitVec.ofNat 32 n).toNat = n := by simp; omega
  rw [this, BitVec.toNat_shiftLeft, Nat.shiftLeft_eq, Nat.mod_eq_of_lt h]

theorem bits32_or_add (x y : Int32) (n : Nat) (h1 : bits32 x < 2 ^ n) (h2 : 2 ^ n ∣ bits32 y) :
    bits32 (x ||| y) = bits32 x + bits32 y := by
  obtain ⟨m, hm⟩ := h2
  have := Nat.shiftLeft_add_eq_or_of_lt h1 m
  rw [Nat.shiftLeft_eq, Nat.mul_comm m] at this
  have ho : bits32 (x ||| y) = bits32 x ||| bits32 y := by unfold bits32; rw [Int32.toBitVec_or, BitVec.toNat_or]
  rw [ho, hm, Nat.or_comm, ← this, Nat.add_comm]

theorem toNat_toByte32 (x : Int32) : (Limb.toByte32 x).toNat = bits32 x % 256 := by
  unfold Limb.toByte32 bits32
  rw [UInt32.toNat_toUInt8]
  rfl

theorem byte_one32 (x k : Int32) (n : Nat) (hk : k.toBitVec.smod 32 = BitVec.ofNat 32 n) (hn : n < 32)
    (h : bits32 x < 2 ^ 26) : (Limb.toByte32 (x >>> k)).toNat = bits32 x / 2 ^ n % 256 := by
  rw [toNat_toByte32, bits32_shr x k n hk hn (by omega)]

theorem byte_two32 (x y k l : Int32) (n m w : Nat) (hk : k.toBitVec.smod 32 = BitVec.ofNat 32 n) (hn : n < 32)
    (hl : l.toBitVec.smod 32 = BitVec.ofNat 32 m) (hm : m < 7) (hnm : n + m = w)
    (h : bits32 x < 2 ^ w) (hx : bits32 x < 2 ^ 26) (h' : bits32 y < 2 ^ 26) :
    (Limb.toByte32 (x >>> k ||| y <<< l)).toNat = bits32 x / 2 ^ n + 2 ^ m * (bits32 y % 2 ^ (8 - m)) := by
  have e1 := bits32_shr x k n hk hn (by omega)
  have h2m : 2 ^ m ≤ 2 ^ 6 := Nat.pow_le_pow_right (by omega) (by omega)
  have e2 := bits32_shl y l m hl (by omega) (by
    have := Nat.mul_le_mul (show bits32 y ≤ 2 ^ 26 - 1 by omega) h2m
    omega)
  have h3 : bits32 x / 2 ^ n < 2 ^ m := by
    rw [Nat.div_lt_iff_lt_mul (by positivity), ← Nat.pow_add, show m + n = w by omega]
    exact h
  rw [toNat_toByte32, bits32_or_add _ _ m (by rw [e1]; exact h3) (by rw [e2]; exact Dvd.intro_left _ rfl), e1, e2]
  have h256 : 256 = 2 ^ m * 2 ^ (8 - m) := by
    rw [← Nat.pow_add, show m + (8 - m) = 8 by omega]
  rw [Nat.mul_comm (bits32 y), h256, Nat.mod_mul, Nat.add_mul_div_left _ _ (by positivity), Nat.add_mul_mod_self_left,
    Nat.mod_eq_of_lt h3, Nat.div_eq_of_lt h3, Nat.zero_add]

/-- The bytes stand for the digits. -/
theorem leNat_pack (h : FeL) (hd : ∀ i < 10, bits32 (fat h i) < 2 ^ Limb.width i) :
    leNat (Limb.pack h) = bits32 (fat h 0) + 2 ^ 26 * bits32 (fat h 1) + 2 ^ 51 * bits32 (fat h 2) + 2 ^ 77 * bits32 (fat h 3) +
      2 ^ 102 * bits32 (fat h 4) + 2 ^ 128 * bits32 (fat h 5) + 2 ^ 153 * bits32 (fat h 6) + 2 ^ 179 * bits32 (fat h 7) +
      2 ^ 204 * bits32 (fat h 8) + 2 ^ 230 * bits32 (fat h 9) := by
  have h0 : bits32 (fat h 0) < 2 ^ 26 := hd 0 (by omega)
  have h1 : bits32 (fat h 1) < 2 ^ 25 := hd 1 (by omega)
  have h2 : bits32 (fat h 2) < 2 ^ 26 := hd 2 (by omega)
  have h3 : bits32 (fat h 3) < 2 ^ 25 := hd 3 (by omega)
  have h4 : bits32 (fat h 4) < 2 ^ 26 := hd 4 (by omega)
  have h5 : bits32 (fat h 5) < 2 ^ 25 := hd 5 (by omega)
  have h6 : bits32 (fat h 6) < 2 ^ 26 := hd 6 (by omega)
  have h7 : bits32 (fat h 7) < 2 ^ 25 := hd 7 (by omega)
  have h8 : bits32 (fat h 8) < 2 ^ 26 := hd 8 (by omega)
  have h9 : bits32 (fat h 9) < 2 ^ 25 := hd 9 (by omega)
  have b0 := byte_one32 (fat h 0) 0 0 (by decide) (by decide) (by omega)
  have b1 := byte_one32 (fat h 0) 8 8 (by decide) (by decide) (by omega)
  have b2 := byte_one32 (fat h 0) 16 16 (by decide) (by decide) (by omega)
  have b3 := byte_two32 (fat h 0) (fat h 1) 24 2 24 2 26 (by decide) (by decide) (by decide) (by decide) (by decide) (by omega) (by omega) (by omega)
  have b4 := byte_one32 (fat h 1) 6 6 (by decide) (by decide) (by omega)
  have b5 := byte_one32 (fat h 1) 14 14 (by decide) (by decide) (by omega)
  have b6 := byte_two32 (fat h 1) (fat h 2) 22 3 22 3 25 (by decide) (by decide) (by decide) (by decide) (by decide) (by omega) (by omega) (by omega)
  have b7 := byte_one32 (fat h 2) 5 5 (by decide) (by decide) (by omega)
  have b8 := byte_one32 (fat h 2) 13 13 (by decide) (by decide) (by omega)
  have b9 := byte_two32 (fat h 2) (fat h 3) 21 5 21 5 26 (by decide) (by decide) (by decide) (by decide) (by decide) (by omega) (by omega) (by omega)
  have b10 := byte_one32 (fat h 3) 3 3 (by decide) (by decide) (by omega)
  have b11 := byte_one32 (fat h 3) 11 11 (by decide) (by decide) (by omega)
  have b12 := byte_two32 (fat h 3) (fat h 4) 19 6 19 6 25 (by decide) (by decide) (by decide) (by decide) (by decide) (by omega) (by omega) (by omega)
  have b13 := byte_one32 (fat h 4) 2 2 (by decide) (by decide) (by omega)
  have b14 := byte_one32 (fat h 4) 10 10 (by decide) (by decide) (by omega)
  have b15 := byte_one32 (fat h 4) 18 18 (by decide) (by decide) (by omega)
  have b16 := byte_one32 (fat h 5) 0 0 (by decide) (by decide) (by omega)
  have b17 := byte_one32 (fat h 5) 8 8 (by decide) (by decide) (by omega)
  have b18 := byte_one32 (fat h 5) 16 16 (by decide) (by decide) (by omega)
  have b19 := byte_two32 (fat h 5) (fat h 6) 24 1 24 1 25 (by decide) (by decide) (by decide) (by decide) (by decide) (by omega) (by omega) (by omega)
  have b20 := byte_one32 (fat h 6) 7 7 (by decide) (by decide) (by omega)
  have b21 := byte_one32 (fat h 6) 15 15 (by decide) (by decide) (by omega)
  have b22 := byte_two32 (fat h 6) (fat h 7) 23 3 23 3 26 (by decide) (by decide) (by decide) (by decide) (by decide) (by omega) (by omega) (by omega)
  have b23 := byte_one32 (fat h 7) 5 5 (by decide) (by decide) (by omega)
  have b24 := byte_one32 (fat h 7) 13 13 (by decide) (by decide) (by omega)
  have b25 := byte_two32 (fat h 7) (fat h 8) 21 4 21 4 25 (by decide) (by decide) (by decide) (by decide) (by decide) (by omega) (by omega) (by omega)
  have b26 := byte_one32 (fat h 8) 4 4 (by decide) (by decide) (by omega)
  have b27 := byte_one32 (fat h 8) 12 12 (by decide) (by decide) (by omega)
  have b28 := byte_two32 (fat h 8) (fat h 9) 20 6 20 6 26 (by decide) (by decide) (by decide) (by decide) (by decide) (by omega) (by omega) (by omega)
  have b29 := byte_one32 (fat h 9) 2 2 (by decide) (by decide) (by omega)
  have b30 := byte_one32 (fat h 9) 10 10 (by decide) (by decide) (by omega)
  have b31 := byte_one32 (fat h 9) 18 18 (by decide) (by decide) (by omega)
  simp only [Limb.pack, leNat]
  rw [b0, b1, b2, b3, b4, b5, b6, b7, b8, b9, b10, b11, b12, b13, b14, b15, b16, b17, b18, b19, b20, b21, b22, b23, b24, b25, b26, b27, b28, b29, b30, b31]
  clear b0 b1 b2 b3 b4 b5 b6 b7 b8 b9 b10 b11 b12 b13 b14 b15 b16 b17 b18 b19 b20 b21 b22 b23 b24 b25 b26 b27 b28 b29 b30 b31 hd
  generalize bits32 (fat h 0) = x0 at *
  generalize bits32 (fat h 1) = x1 at *
  generalize bits32 (fat h 2) = x2 at *
  generalize bits32 (fat h 3) = x3 at *
  generalize bits32 (fat h 4) = x4 at *
  generalize bits32 (fat h 5) = x5 at *
  generalize bits32 (fat h 6) = x6 at *
  generalize bits32 (fat h 7) = x7 at *
  generalize bits32 (fat h 8) = x8 at *
  generalize bits32 (fat h 9) = x9 at *
  have d0 : x0 = 2 ^ 0 * (x0 / 2 ^ 0 % 256) + 2 ^ 8 * (x0 / 2 ^ 8 % 256) + 2 ^ 16 * (x0 / 2 ^ 16 % 256) + 2 ^ 24 * (x0 / 2 ^ 24) := by omega
  have d1 : x1 = x1 % 2 ^ 6 + 2 ^ 6 * (x1 / 2 ^ 6 % 256) + 2 ^ 14 * (x1 / 2 ^ 14 % 256) + 2 ^ 22 * (x1 / 2 ^ 22) := by omega
  have d2 : x2 = x2 % 2 ^ 5 + 2 ^ 5 * (x2 / 2 ^ 5 % 256) + 2 ^ 13 * (x2 / 2 ^ 13 % 256) + 2 ^ 21 * (x2 / 2 ^ 21) := by omega
  have d3 : x3 = x3 % 2 ^ 3 + 2 ^ 3 * (x3 / 2 ^ 3 % 256) + 2 ^ 11 * (x3 / 2 ^ 11 % 256) + 2 ^ 19 * (x3 / 2 ^ 19) := by omega
  have d4 : x4 = x4 % 2 ^ 2 + 2 ^ 2 * (x4 / 2 ^ 2 % 256) + 2 ^ 10 * (x4 / 2 ^ 10 % 256) + 2 ^ 18 * (x4 / 2 ^ 18 % 256) := by omega
  have d5 : x5 = 2 ^ 0 * (x5 / 2 ^ 0 % 256) + 2 ^ 8 * (x5 / 2 ^ 8 % 256) + 2 ^ 16 * (x5 / 2 ^ 16 % 256) + 2 ^ 24 * (x5 / 2 ^ 24) := by omega
  have d6 : x6 = x6 % 2 ^ 7 + 2 ^ 7 * (x6 / 2 ^ 7 % 256) + 2 ^ 15 * (x6 / 2 ^ 15 % 256) + 2 ^ 23 * (x6 / 2 ^ 23) := by omega
  have d7 : x7 = x7 % 2 ^ 5 + 2 ^ 5 * (x7 / 2 ^ 5 % 256) + 2 ^ 13 * (x7 / 2 ^ 13 % 256) + 2 ^ 21 * (x7 / 2 ^ 21) := by omega
  have d8 : x8 = x8 % 2 ^ 4 + 2 ^ 4 * (x8 / 2 ^ 4 % 256) + 2 ^ 12 * (x8 / 2 ^ 12 % 256) + 2 ^ 20 * (x8 / 2 ^ 20) := by omega
  have d9 : x9 = x9 % 2 ^ 2 + 2 ^ 2 * (x9 / 2 ^ 2 % 256) + 2 ^ 10 * (x9 / 2 ^ 10 % 256) + 2 ^ 18 * (x9 / 2 ^ 18 % 256) := by omega
  clear h0 h1 h2 h3 h4 h5 h6 h7 h8 h9
  simp only [Nat.reduceSub] at *
  generalize x0 / 2 ^ 0 % 256 = y0 at *
  generalize x0 / 2 ^ 8 % 256 = y1 at *
  generalize x0 / 2 ^ 16 % 256 = y2 at *
  generalize x0 / 2 ^ 24 = y3 at *
  generalize x1 % 2 ^ 6 = y4 at *
  generalize x1 / 2 ^ 6 % 256 = y5 at *
  generalize x1 / 2 ^ 14 % 256 = y6 at *
  generalize x1 / 2 ^ 22 = y7 at *
  generalize x2 % 2 ^ 5 = y8 at *
  generalize x2 / 2 ^ 5 % 256 = y9 at *
  generalize x2 / 2 ^ 13 % 256 = y10 at *
  generalize x2 / 2 ^ 21 = y11 at *
  generalize x3 % 2 ^ 3 = y12 at *
  generalize x3 / 2 ^ 3 % 256 = y13 at *
  generalize x3 / 2 ^ 11 % 256 = y14 at *
  generalize x3 / 2 ^ 19 = y15 at *
  generalize x4 % 2 ^ 2 = y16 at *
  generalize x4 / 2 ^ 2 % 256 = y17 at *
  generalize x4 / 2 ^ 10 % 256 = y18 at *
  generalize x4 / 2 ^ 18 % 256 = y19 at *
  generalize x5 / 2 ^ 0 % 256 = y20 at *
  generalize x5 / 2 ^ 8 % 256 = y21 at *
  generalize x5 / 2 ^ 16 % 256 = y22 at *
  generalize x5 / 2 ^ 24 = y23 at *
  generalize x6 % 2 ^ 7 = y24 at *
  generalize x6 / 2 ^ 7 % 256 = y25 at *
  generalize x6 / 2 ^ 15 % 256 = y26 at *
  generalize x6 / 2 ^ 23 = y27 at *
  generalize x7 % 2 ^ 5 = y28 at *
  generalize x7 / 2 ^ 5 % 256 = y29 at *
  generalize x7 / 2 ^ 13 % 256 = y30 at *
  generalize x7 / 2 ^ 21 = y31 at *
  generalize x8 % 2 ^ 4 = y32 at *
  generalize x8 / 2 ^ 4 % 256 = y33 at *
  generalize x8 / 2 ^ 12 % 256 = y34 at *
  generalize x8 / 2 ^ 20 = y35 at *
  generalize x9 % 2 ^ 2 = y36 at *
  generalize x9 / 2 ^ 2 % 256 = y37 at *
  generalize x9 / 2 ^ 10 % 256 = y38 at *
  generalize x9 / 2 ^ 18 % 256 = y39 at *
  subst d0 d1 d2 d3 d4 d5 d6 d7 d8 d9
  ring

/-! ## The quotient -/

theorem qstep26 (x q : Int32) (hx : |x.toInt| ≤ 2 ^ 27) (hq : |q.toInt| ≤ 2 ^ 10) :
    ((x + q) >>> 26).toInt = (x.toInt + q.toInt) / 2 ^ 26 ∧ |((x + q) >>> 26).toInt| ≤ 2 ^ 10 := by
  have hx' := abs_le.1 hx
  have hq' := abs_le.1 hq
  have e : ((x + q) >>> 26).toInt = (x.toInt + q.toInt) / 2 ^ 26 := by
    rw [toInt_shr32 _ _ 26 (by decide) (by decide), toInt_add32 _ _ (by omega) (by omega)]
  exact ⟨e, by rw [e]; exact abs_le.2 ⟨by omega, by omega⟩⟩

theorem qstep25 (x q : Int32) (hx : |x.toInt| ≤ 2 ^ 27) (hq : |q.toInt| ≤ 2 ^ 10) :
    ((x + q) >>> 25).toInt = (x.toInt + q.toInt) / 2 ^ 25 ∧ |((x + q) >>> 25).toInt| ≤ 2 ^ 10 := by
  have hx' := abs_le.1 hx
  have hq' := abs_le.1 hq
  have e : ((x + q) >>> 25).toInt = (x.toInt + q.toInt) / 2 ^ 25 := by
    rw [toInt_shr32 _ _ 25 (by decide) (by decide), toInt_add32 _ _ (by omega) (by omega)]
  exact ⟨e, by rw [e]; exact abs_le.2 ⟨by omega, by omega⟩⟩

theorem fi_le27 {h : FeL} (hb : Bd 3 h) {i : Nat} (hi : i < 10) : |(fat h i).toInt| ≤ 2 ^ 27 := by
  have h1 := hb.low i hi
  have h2 := hb.high i hi
  have := tight_le i
  exact abs_le.2 ⟨by omega, by omega⟩

/-- `q` is the quotient of the number by the prime, and the remainder is right. -/
theorem quotient_sound {h : FeL} (hb : Bd 3 h) :
    0 ≤ feVal h - (Limb.quotient h).toInt * (2 ^ 255 - 19) ∧ feVal h - (Limb.quotient h).toInt * (2 ^ 255 - 19) < 2 ^ 255 - 19 ∧
      |(Limb.quotient h).toInt| ≤ 2 ^ 10 := by
  have b9 := fi_bounds hb (i := 9) (by omega)
  have b0 := fi_bounds hb (i := 0) (by omega)
  have b1 := fi_bounds hb (i := 1) (by omega)
  have b2 := fi_bounds hb (i := 2) (by omega)
  have b3 := fi_bounds hb (i := 3) (by omega)
  have b4 := fi_bounds hb (i := 4) (by omega)
  have b5 := fi_bounds hb (i := 5) (by omega)
  have b6 := fi_bounds hb (i := 6) (by omega)
  have b7 := fi_bounds hb (i := 7) (by omega)
  have b8 := fi_bounds hb (i := 8) (by omega)
  simp only [show tight 0 = 33889976 from rfl, show tight 1 = 16944988 from rfl, show tight 2 = 33889976 from rfl, show tight 3 = 16944988 from rfl,
    show tight 4 = 33889976 from rfl, show tight 5 = 16944988 from rfl, show tight 6 = 33889976 from rfl, show tight 7 = 16944988 from rfl,
    show tight 8 = 33889976 from rfl, show tight 9 = 16944988 from rfl] at b0 b1 b2 b3 b4 b5 b6 b7 b8 b9
  have m19 : ((19 : Int32) * fat h 9).toInt = 19 * fi h 9 := by
    have e : Int32.toInt 19 = 19 := rfl
    rw [toInt_mul32, e]
    · rfl
    · rw [e]; show _ ≤ 19 * fi h 9; omega
    · rw [e]; show 19 * fi h 9 < _; omega
  have e24 : ((1 : Int32) <<< 24).toInt = 2 ^ 24 := by decide
  have q0 : (((19 : Int32) * fat h 9 + (1 : Int32) <<< 24) >>> 25).toInt = (19 * fi h 9 + 2 ^ 24) / 2 ^ 25 := by
    rw [toInt_shr32 _ _ 25 (by decide) (by decide), toInt_add32, m19, e24]
    · rw [m19, e24]; omega
    · rw [m19, e24]; omega
  unfold Limb.quotient
  simp only
  generalize (((19 : Int32) * fat h 9 + (1 : Int32) <<< 24) >>> 25) = Q0 at *
  obtain ⟨e0, l0⟩ := qstep26 (fat h 0) Q0 (fi_le27 hb (by omega)) (by rw [q0]; exact abs_le.2 ⟨by omega, by omega⟩)
  generalize ((fat h 0 + Q0) >>> 26) = Q1 at *
  obtain ⟨e1, l1⟩ := qstep25 (fat h 1) Q1 (fi_le27 hb (by omega)) l0
  generalize ((fat h 1 + Q1) >>> 25) = Q2 at *
  obtain ⟨e2, l2⟩ := qstep26 (fat h 2) Q2 (fi_le27 hb (by omega)) l1
  generalize ((fat h 2 + Q2) >>> 26) = Q3 at *
  obtain ⟨e3, l3⟩ := qstep25 (fat h 3) Q3 (fi_le27 hb (by omega)) l2
  generalize ((fat h 3 + Q3) >>> 25) = Q4 at *
  obtain ⟨e4, l4⟩ := qstep26 (fat h 4) Q4 (fi_le27 hb (by omega)) l3
  generalize ((fat h 4 + Q4) >>> 26) = Q5 at *
  obtain ⟨e5, l5⟩ := qstep25 (fat h 5) Q5 (fi_le27 hb (by omega)) l4
  generalize ((fat h 5 + Q5) >>> 25) = Q6 at *
  obtain ⟨e6, l6⟩ := qstep26 (fat h 6) Q6 (fi_le27 hb (by omega)) l5
  generalize ((fat h 6 + Q6) >>> 26) = Q7 at *
  obtain ⟨e7, l7⟩ := qstep25 (fat h 7) Q7 (fi_le27 hb (by omega)) l6
  generalize ((fat h 7 + Q7) >>> 25) = Q8 at *
  obtain ⟨e8, l8⟩ := qstep26 (fat h 8) Q8 (fi_le27 hb (by omega)) l7
  generalize ((fat h 8 + Q8) >>> 26) = Q9 at *
  obtain ⟨e9, l9⟩ := qstep25 (fat h 9) Q9 (fi_le27 hb (by omega)) l8
  generalize ((fat h 9 + Q9) >>> 25) = Q10 at *
  change Q1.toInt = (fi h 0 + _) / _ at e0
  change Q2.toInt = (fi h 1 + _) / _ at e1
  change Q3.toInt = (fi h 2 + _) / _ at e2
  change Q4.toInt = (fi h 3 + _) / _ at e3
  change Q5.toInt = (fi h 4 + _) / _ at e4
  change Q6.toInt = (fi h 5 + _) / _ at e5
  change Q7.toInt = (fi h 6 + _) / _ at e6
  change Q8.toInt = (fi h 7 + _) / _ at e7
  change Q9.toInt = (fi h 8 + _) / _ at e8
  change Q10.toInt = (fi h 9 + _) / _ at e9
  have hlow : |fi h 0 + 2 ^ 26 * fi h 1 + 2 ^ 51 * fi h 2 + 2 ^ 77 * fi h 3 + 2 ^ 102 * fi h 4 + 2 ^ 128 * fi h 5 +
      2 ^ 153 * fi h 6 + 2 ^ 179 * fi h 7 + 2 ^ 204 * fi h 8| ≤ 2 ^ 232 := abs_le.2 ⟨by omega, by omega⟩
  have hq : 2 ^ 255 * Q10.toInt ≤ feVal h + Q0.toInt ∧ feVal h + Q0.toInt < 2 ^ 255 * Q10.toInt + 2 ^ 255 := by
    rw [feVal_eq]
    omega
  have hv : feVal h = (fi h 0 + 2 ^ 26 * fi h 1 + 2 ^ 51 * fi h 2 + 2 ^ 77 * fi h 3 + 2 ^ 102 * fi h 4 + 2 ^ 128 * fi h 5 +
      2 ^ 153 * fi h 6 + 2 ^ 179 * fi h 7 + 2 ^ 204 * fi h 8) + 2 ^ 230 * fi h 9 := feVal_eq h
  refine ⟨?_, ?_, l9⟩
  all_goals
    clear e0 e1 e2 e3 e4 e5 e6 e7 e8 e9 l0 l1 l2 l3 l4 l5 l6 l7 l8 b0 b1 b2 b3 b4 b5 b6 b7 b8
    generalize (fi h 0 + 2 ^ 26 * fi h 1 + 2 ^ 51 * fi h 2 + 2 ^ 77 * fi h 3 + 2 ^ 102 * fi h 4 + 2 ^ 128 * fi h 5 +
      2 ^ 153 * fi h 6 + 2 ^ 179 * fi h 7 + 2 ^ 204 * fi h 8) = L at *
    have hL := abs_le.1 hlow
    have h9 := abs_le.1 l9
    omega

/-! ## The digits -/

theorem fi_set (h : FeL) (i j : Nat) (v : Int32) (hi : i < h.length) :
    fi (h.set i v) j = if j = i then v.toInt else fi h j := by
  unfold fi fat
  by_cases hh : j = i
  · subst hh; simp [List.getD_eq_getElem?_getD, hi]
  · simp [List.getD_eq_getElem?_getD, hh, Ne.symm hh, List.getElem?_set_ne]

theorem feVal_set (h : FeL) (i : Nat) (v : Int32) (hl : h.length = 10) (hi : i < 10) :
    feVal (h.set i v) = feVal h + (v.toInt - fi h i) * 2 ^ expo i := by
  have hu : ∀ j, fi (h.set i v) j = if j = i then v.toInt else fi h j := fun j => fi_set h i j v (by omega)
  rw [feVal_eq, feVal_eq]
  simp only [hu]
  clear hu
  interval_cases i <;> simp only [expo] <;> norm_num <;> ring

/-- The number in a limb after a carry without rounding. -/
theorem exact_num (x : Int32) (i : Nat) (hx : |x.toInt| ≤ 2 ^ 28) :
    (x >>> Int32.ofNat (Limb.width i)).toInt = x.toInt / 2 ^ Limb.width i ∧
      (x - (x >>> Int32.ofNat (Limb.width i)) <<< Int32.ofNat (Limb.width i)).toInt = x.toInt % 2 ^ Limb.width i ∧
      |x.toInt / 2 ^ Limb.width i| ≤ 9 := by
  have hx' := abs_le.1 hx
  rcases Nat.mod_two_eq_zero_or_one i with hp | hp
  · have hw : Limb.width i = 26 := by simp [Limb.width, hp]
    rw [hw]
    have e1 : (x >>> Int32.ofNat 26).toInt = x.toInt / 2 ^ 26 := toInt_shr32 _ _ 26 (by decide) (by decide)
    have e2 : ((x >>> Int32.ofNat 26) <<< Int32.ofNat 26).toInt = x.toInt / 2 ^ 26 * 2 ^ 26 := by
      rw [shl_eq_mul32 _ _ 26 (by decide) (by decide), e1, bmod32 (by omega) (by omega)]
    refine ⟨e1, ?_, abs_le.2 ⟨by omega, by omega⟩⟩
    rw [toInt_sub32, e2] <;> try rw [e2]
    all_goals omega
  · have hw : Limb.width i = 25 := by simp [Limb.width, hp]
    rw [hw]
    have e1 : (x >>> Int32.ofNat 25).toInt = x.toInt / 2 ^ 25 := toInt_shr32 _ _ 25 (by decide) (by decide)
    have e2 : ((x >>> Int32.ofNat 25) <<< Int32.ofNat 25).toInt = x.toInt / 2 ^ 25 * 2 ^ 25 := by
      rw [shl_eq_mul32 _ _ 25 (by decide) (by decide), e1, bmod32 (by omega) (by omega)]
    refine ⟨e1, ?_, abs_le.2 ⟨by omega, by omega⟩⟩
    rw [toInt_sub32, e2] <;> try rw [e2]
    all_goals omega

/-- The limbs below `k` are digits, those above it are small. -/
structure HalfDone (k : Nat) (h : FeL) : Prop where
  len : h.length = 10
  done : ∀ i < k, i < 10 → 0 ≤ fi h i ∧ fi h i < 2 ^ Limb.width i
  here : k < 10 → |fi h k| ≤ 2 ^ 28
  above : ∀ i, k < i → i < 10 → |fi h i| ≤ 2 ^ 27

theorem exactCarry_sound {k : Nat} {h : FeL} (hk : k < 10) (hh : HalfDone k h) :
    HalfDone (k + 1) (Limb.exactCarry h k) ∧ ∃ c : Int, feVal (Limb.exactCarry h k) = feVal h - c * 2 ^ 255 ∧ (k < 9 → c = 0) := by
  obtain ⟨hl, hd, hx, ha⟩ := hh
  obtain ⟨c1, c2, c3⟩ := exact_num (fat h k) k (hx hk)
  have hpos : (0 : Int) < 2 ^ Limb.width k := by positivity
  have hmod1 := Int.emod_nonneg (fi h k) (ne_of_gt hpos)
  have hmod2 := Int.emod_lt_of_pos (fi h k) hpos
  have hdm := Int.emod_add_mul_ediv (fi h k) (2 ^ Limb.width k)
  change _ = fi h k / _ at c1
  change _ = fi h k % _ at c2
  change |fi h k / _| ≤ _ at c3
  have hc3 := abs_le.1 c3
  rcases Nat.lt_or_ge k 9 with h9 | h9
  · have hne : k ≠ 9 := by omega
    have e : Limb.exactCarry h k = (h.set (k + 1) (fat h (k + 1) + fat h k >>> Int32.ofNat (Limb.width k))).set k
        (fat h k - (fat h k >>> Int32.ofNat (Limb.width k)) <<< Int32.ofNat (Limb.width k)) := by
      have hg : ∀ v, fat (h.set (k + 1) v) k = fat h k := by
        intro v
        unfold fat
        rw [List.getD_eq_getElem?_getD, List.getElem?_set_ne (by omega), ← List.getD_eq_getElem?_getD]
      simp only [Limb.exactCarry, if_neg hne]
      rw [hg]
    have hn := abs_le.1 (ha (k + 1) (by omega) (by omega))
    have e2 : (fat h (k + 1) + fat h k >>> Int32.ofNat (Limb.width k)).toInt = fi h (k + 1) + fi h k / 2 ^ Limb.width k := by
      rw [toInt_add32, c1]
      · rfl
      · rw [c1]; show _ ≤ fi h (k + 1) + _; omega
      · rw [c1]; show fi h (k + 1) + _ < _; omega
    have hget : ∀ j, fi (Limb.exactCarry h k) j = if j = k then fi h k % 2 ^ Limb.width k else
        if j = k + 1 then fi h (k + 1) + fi h k / 2 ^ Limb.width k else fi h j := by
      intro j
      rw [e, fi_set _ _ _ _ (by rw [List.length_set]; omega), fi_set _ _ _ _ (by omega), c2, e2]
    refine ⟨⟨by rw [e]; simp [hl], fun i hi hi' => ?_, fun _ => ?_, fun i hi hi' => ?_⟩, 0, ?_, fun _ => rfl⟩
    · rw [hget]
      by_cases hik : i = k
      · subst hik; rw [if_pos rfl]; exact ⟨hmod1, hmod2⟩
      · rw [if_neg hik, if_neg (by omega)]; exact hd i (by omega) hi'
    · rw [hget, if_neg (by omega), if_pos rfl]; exact abs_le.2 ⟨by omega, by omega⟩
    · rw [hget, if_neg (by omega), if_neg (by omega)]; exact ha i (by omega) hi'
    · rw [e, feVal_set _ k _ (by simp [hl]) hk, feVal_set _ (k + 1) _ hl (by omega), fi_set _ _ _ _ (by omega), if_neg (by omega), e2, c2]
      have hp : (2 : Int) ^ expo (k + 1) = 2 ^ Limb.width k * 2 ^ expo k := by
        rw [← pow_add]; congr 1; unfold expo Limb.width; split <;> omega
      rw [hp]
      linear_combination 2 ^ expo k * hdm
  · obtain rfl : k = 9 := by omega
    have e : Limb.exactCarry h 9 = h.set 9 (fat h 9 - (fat h 9 >>> Int32.ofNat (Limb.width 9)) <<< Int32.ofNat (Limb.width 9)) := by
      simp only [Limb.exactCarry, if_true]
    have hget : ∀ j, fi (Limb.exactCarry h 9) j = if j = 9 then fi h 9 % 2 ^ Limb.width 9 else fi h j := by
      intro j
      rw [e, fi_set _ _ _ _ (by omega), c2]
    refine ⟨⟨by rw [e]; simp [hl], fun i hi hi' => ?_, fun h => by omega, fun i hi hi' => by omega⟩, fi h 9 / 2 ^ 25, ?_, fun h => by omega⟩
    · rw [hget]
      by_cases hik : i = 9
      · subst hik; rw [if_pos rfl]; exact ⟨hmod1, hmod2⟩
      · rw [if_neg hik]; exact hd i (by omega) hi'
    · rw [e, feVal_set _ 9 _ hl hk, c2]
      have hp : expo 9 = 230 := rfl
      have hw : Limb.width 9 = 25 := rfl
      rw [hp]
      rw [hw] at hdm ⊢
      linear_combination 2 ^ 230 * hdm

theorem exactCarries_sound (n k : Nat) (hnk : k + n ≤ 10) {h : FeL} (hh : HalfDone k h) :
    HalfDone (k + n) ((List.range' k n).foldl Limb.exactCarry h) ∧ ∃ c : Int, feVal ((List.range' k n).foldl Limb.exactCarry h) = feVal h - c * 2 ^ 255 := by
  induction n generalizing k h with
  | zero => exact ⟨hh, 0, by simp⟩
  | succ n ih =>
    obtain ⟨w1, c1, e1, _⟩ := exactCarry_sound (by omega) hh
    obtain ⟨w2, c2, e2⟩ := ih (k + 1) (by omega) w1
    rw [List.range'_succ, List.foldl_cons]
    refine ⟨by rw [show k + (n + 1) = k + 1 + n by omega]; exact w2, c1 + c2, ?_⟩
    rw [e2, e1]; ring

/-- What is left in the variable: the digits of the residue. -/
theorem normal_sound {h : FeL} (hb : Bd 3 h) :
    (Limb.normal h).length = 10 ∧ (∀ i < 10, 0 ≤ fi (Limb.normal h) i ∧ fi (Limb.normal h) i < 2 ^ Limb.width i) ∧
      feVal (Limb.normal h) = feVal h % (2 ^ 255 - 19) := by
  obtain ⟨q1, q2, q3⟩ := quotient_sound hb
  have hq := abs_le.1 q3
  have h0 := abs_le.1 (fi_le27 hb (i := 0) (by omega))
  have m19 : ((19 : Int32) * Limb.quotient h).toInt = 19 * (Limb.quotient h).toInt := by
    have e : Int32.toInt 19 = 19 := rfl
    rw [toInt_mul32, e] <;> rw [e] <;> omega
  have e0 : (fat h 0 + 19 * Limb.quotient h).toInt = fi h 0 + 19 * (Limb.quotient h).toInt := by
    rw [toInt_add32, m19]
    · rfl
    · rw [m19]; omega
    · rw [m19]; omega
  have hg : ∀ j, fi (h.set 0 (fat h 0 + 19 * Limb.quotient h)) j = if j = 0 then fi h 0 + 19 * (Limb.quotient h).toInt else fi h j := by
    intro j; rw [fi_set _ _ _ _ (by have := hb.len; omega), e0]
  have hh : HalfDone 0 (h.set 0 (fat h 0 + 19 * Limb.quotient h)) := by
    refine ⟨by simp [hb.len], fun i hi => by omega, fun _ => ?_, fun i hi hi' => ?_⟩
    · rw [hg, if_pos rfl]
      change _ ≤ fi h 0 ∧ fi h 0 ≤ _ at h0
      exact abs_le.2 ⟨by omega, by omega⟩
    · rw [hg, if_neg (by omega)]; exact fi_le27 hb hi'
  obtain ⟨w, c, e⟩ := exactCarries_sound 10 0 (by omega) hh
  have hn : (List.range' 0 10).foldl Limb.exactCarry (h.set 0 (fat h 0 + 19 * Limb.quotient h)) = Limb.normal h := rfl
  rw [hn] at w e
  have hd : ∀ i < 10, 0 ≤ fi (Limb.normal h) i ∧ fi (Limb.normal h) i < 2 ^ Limb.width i := fun i hi => w.done i (by omega) hi
  refine ⟨w.len, hd, ?_⟩
  rw [feVal_set _ 0 _ hb.len (by omega), e0, show expo 0 = 0 from rfl] at e
  have d0 := hd 0 (by omega)
  have d1 := hd 1 (by omega)
  have d2 := hd 2 (by omega)
  have d3 := hd 3 (by omega)
  have d4 := hd 4 (by omega)
  have d5 := hd 5 (by omega)
  have d6 := hd 6 (by omega)
  have d7 := hd 7 (by omega)
  have d8 := hd 8 (by omega)
  have d9 := hd 9 (by omega)
  simp only [show Limb.width 0 = 26 from rfl, show Limb.width 1 = 25 from rfl, show Limb.width 2 = 26 from rfl, show Limb.width 3 = 25 from rfl,
    show Limb.width 4 = 26 from rfl, show Limb.width 5 = 25 from rfl, show Limb.width 6 = 26 from rfl, show Limb.width 7 = 25 from rfl,
    show Limb.width 8 = 26 from rfl, show Limb.width 9 = 25 from rfl] at d0 d1 d2 d3 d4 d5 d6 d7 d8 d9
  have hr : 0 ≤ feVal (Limb.normal h) ∧ feVal (Limb.normal h) < 2 ^ 255 := by
    rw [feVal_eq]; omega
  have hv : feVal (Limb.normal h) = feVal h - (Limb.quotient h).toInt * (2 ^ 255 - 19) := by
    omega
  rw [hv]
  have := Int.add_mul_emod_self_right (feVal h - (Limb.quotient h).toInt * (2 ^ 255 - 19)) (Limb.quotient h).toInt (2 ^ 255 - 19)
  rw [sub_add_cancel] at this
  rw [this, Int.emod_eq_of_lt q1 q2]

theorem length_pack (h : FeL) : (Limb.pack h).length = 32 := rfl

/-- The bytes of the residue. -/
theorem toBytes_sound {h : FeL} (hb : Bd 3 h) : (leNat (Limb.toBytes h) : Int) = feVal h % (2 ^ 255 - 19) := by
  obtain ⟨n1, n2, n3⟩ := normal_sound hb
  have hbit : ∀ i < 10, (bits32 (fat (Limb.normal h) i) : Int) = fi (Limb.normal h) i := fun i hi => bits32_of_toInt (n2 i hi).1
  have hlt : ∀ i < 10, bits32 (fat (Limb.normal h) i) < 2 ^ Limb.width i := by
    intro i hi
    have h1 := hbit i hi
    have h2 := (n2 i hi).2
    rw [← h1] at h2
    exact_mod_cast h2
  rw [Limb.toBytes, leNat_pack _ hlt, ← n3, feVal_eq]
  push_cast
  rw [hbit 0 (by omega), hbit 1 (by omega), hbit 2 (by omega), hbit 3 (by omega), hbit 4 (by omega), hbit 5 (by omega), hbit 6 (by omega),
    hbit 7 (by omega), hbit 8 (by omega), hbit 9 (by omega)]

end Verif.Kyber
