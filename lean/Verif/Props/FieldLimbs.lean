import Verif.Lemmas.EdwardsLimbs
import Mathlib.Data.Int.ModEq

/-!
# C126: the field, in ten machine words

`feVal` is the number which ten limbs stand for, and `Bd k` says that none of them is larger than `k` times a little more than 25 (24) bits. Products are computed
in 64 bits, sums in 32 bits; both wrap around. The theorems say that they never do: the results are those of the integers modulo `2^255 - 19`.
-/

namespace Verif.Kyber
open Verif

theorem modEq_of_eq {a b k : Int} (h : a = b + k * (2 ^ 255 - 19)) : a ≡ b [ZMOD 2 ^ 255 - 19] := by
  rw [h]
  exact Int.modEq_iff_dvd.2 ⟨-k, by ring⟩

theorem modEq_of_lim {k : Int} {f : FeL} {x : Int} (h : Lim k f (x : Fe)) : feVal f ≡ x [ZMOD 2 ^ 255 - 19] := by
  have := (ZMod.intCast_eq_intCast_iff _ _ _).1 h.val
  rwa [fieldPrime_int] at this

/-- C126: products. The factors may be sums of three reduced elements, the result is reduced: no `int32` and no `int64` overflows on the way. -/
theorem C126_mul {f g : FeL} (hf : Bd 3 f) (hg : Bd 3 g) :
    Bd 1 (Limb.mul f g) ∧ feVal (Limb.mul f g) ≡ feVal f * feVal g [ZMOD 2 ^ 255 - 19] :=
  ⟨(mul_sound hf hg).1, modEq_of_eq (mul_sound hf hg).2.choose_spec⟩

/-- C126: squares, and twice a square. -/
theorem C126_square {f : FeL} (hf : Bd 3 f) :
    Bd 1 (Limb.square f) ∧ feVal (Limb.square f) ≡ feVal f ^ 2 [ZMOD 2 ^ 255 - 19] ∧
    Bd 1 (Limb.square2 f) ∧ feVal (Limb.square2 f) ≡ 2 * feVal f ^ 2 [ZMOD 2 ^ 255 - 19] := by
  refine ⟨(square_sound hf).1, ?_, (square2_sound hf).1, ?_⟩ <;> rw [pow_two]
  · exact modEq_of_eq (square_sound hf).2.choose_spec
  · exact modEq_of_eq (square2_sound hf).2.choose_spec

/-- C126: sums, differences and opposites are exact, and the sizes add up. -/
theorem C126_linear {a b : Int} {f g : FeL} (hf : Bd a f) (hg : Bd b g) (ha : 0 ≤ a) (hb : 0 ≤ b) (hab : a + b ≤ 3) :
    (Bd (a + b) (Limb.add f g) ∧ feVal (Limb.add f g) = feVal f + feVal g) ∧
    (Bd (a + b) (Limb.sub f g) ∧ feVal (Limb.sub f g) = feVal f - feVal g) ∧
    (Bd a (Limb.neg f) ∧ feVal (Limb.neg f) = -feVal f) ∧
    feVal Limb.zero = 0 ∧ feVal Limb.one = 1 :=
  ⟨add_sound hf hg hab, sub_sound hf hg hab, neg_sound hf (by omega), by decide +kernel, by decide +kernel⟩

/-- C126: the choice without a branch: the first or the second element, for every limbs. -/
theorem C126_choice (f g : FeL) (hf : f.length = 10) (hg : g.length = 10) : Limb.cmove f g 0 = f ∧ Limb.cmove f g 1 = g :=
  ⟨cmove_zero f g hf, cmove_one f g hg⟩

/-- C126: the inverse is one, for every element but zero, whose inverse is zero; the other power is the one which the square roots need. -/
theorem C126_powers {f : FeL} (hf : Bd 3 f) :
    (Bd 1 (Limb.invert f) ∧ (¬ (2 ^ 255 - 19 : Int) ∣ feVal f → feVal f * feVal (Limb.invert f) ≡ 1 [ZMOD 2 ^ 255 - 19]) ∧
      ((2 ^ 255 - 19 : Int) ∣ feVal f → (2 ^ 255 - 19 : Int) ∣ feVal (Limb.invert f))) ∧
    (Bd 1 (Limb.pow22523 f) ∧ feVal (Limb.pow22523 f) ≡ feVal f ^ (2 ^ 252 - 3) [ZMOD 2 ^ 255 - 19]) := by
  have hl : Lim 3 f ((feVal f : Int) : Fe) := ⟨hf, rfl⟩
  have hi := hl.invert
  have hp := hl.pow22523
  have hd : ∀ x : Int, ((x : Fe) = 0 ↔ (2 ^ 255 - 19 : Int) ∣ x) := fun x => by
    rw [← fieldPrime_int]; exact ZMod.intCast_zmod_eq_zero_iff_dvd _ _
  refine ⟨⟨hi.bd, fun h0 => ?_, fun h0 => ?_⟩, hp.bd, ?_⟩
  · have h1 : (((feVal f * feVal (Limb.invert f) : Int)) : Fe) = ((1 : Int) : Fe) := by
      rw [Int.cast_mul, hi.val, Int.cast_one]
      exact feInvert_mul fun h => h0 ((hd _).1 h)
    have := (ZMod.intCast_eq_intCast_iff _ _ _).1 h1
    rwa [fieldPrime_int] at this
  · rw [← hd, hi.val, (hd _).2 h0, feInvert_zero]
  · have h1 : ((feVal (Limb.pow22523 f) : Int) : Fe) = ((feVal f ^ (2 ^ 252 - 3) : Int) : Fe) := by
      rw [hp.val, fePow22523_pow, Int.cast_pow, show (fieldPrime - 5) / 8 = 2 ^ 252 - 3 by decide +kernel]
    have := (ZMod.intCast_eq_intCast_iff _ _ _).1 h1
    rwa [fieldPrime_int] at this

/-- C126: reading bytes: the low 255 bits, whatever the bytes are. -/
theorem C126_read (s : Str) : Bd 1 (Limb.fromBytes s) ∧ feVal (Limb.fromBytes s) ≡ (leNat s % 2 ^ 255 : Nat) [ZMOD 2 ^ 255 - 19] :=
  ⟨(fromBytes_sound s).1, modEq_of_eq (fromBytes_sound s).2.choose_spec⟩

/-- C126: writing bytes: 32 bytes which are the residue, below the prime, the same for all limbs which stand for the same element of the field. The
argument of the function is overwritten: it is left with the digits of the residue, which are no larger than twice a reduced element. -/
theorem C126_write {f : FeL} (hf : Bd 3 f) :
    (Limb.toBytes f).length = 32 ∧ (leNat (Limb.toBytes f) : Int) = feVal f % (2 ^ 255 - 19) ∧
    (∀ g, Bd 3 g → (Limb.toBytes f = Limb.toBytes g ↔ feVal f ≡ feVal g [ZMOD 2 ^ 255 - 19])) ∧
    Bd 2 (Limb.normal f) ∧ feVal (Limb.normal f) = feVal f % (2 ^ 255 - 19) := by
  refine ⟨length_pack _, toBytes_sound hf, fun g hg => ?_, (Lim.normal (x := ((feVal f : Int) : Fe)) ⟨hf, rfl⟩).bd, (normal_sound hf).2.2⟩
  constructor
  · intro h
    have := toBytes_sound hf
    rw [h, toBytes_sound hg] at this
    exact this.symm
  · intro h
    have h1 : leNat (Limb.toBytes f) = leNat (Limb.toBytes g) := by
      have : (leNat (Limb.toBytes f) : Int) = leNat (Limb.toBytes g) := by rw [toBytes_sound hf, toBytes_sound hg]; exact h
      exact_mod_cast this
    have h2 := leBytes_leNat (Limb.toBytes f)
    have h3 := leBytes_leNat (Limb.toBytes g)
    rw [show (Limb.toBytes f).length = 32 from length_pack _] at h2
    rw [show (Limb.toBytes g).length = 32 from length_pack _] at h3
    rw [← h2, ← h3, h1]

/-- C126: the tests: the parity of the residue, and whether it is zero. -/
theorem C126_tests {f : FeL} (hf : Bd 3 f) :
    ((Limb.isNegative f).toNat : Int) = feVal f % (2 ^ 255 - 19) % 2 ∧
    (Limb.isNonZero f = 1 ↔ ¬ (2 ^ 255 - 19 : Int) ∣ feVal f) ∧ (Limb.isNonZero f = 0 ∨ Limb.isNonZero f = 1) := by
  have hl : Lim 3 f ((feVal f : Int) : Fe) := ⟨hf, rfl⟩
  refine ⟨?_, ?_, ?_⟩
  · rw [hl.isNegative, ← hl.val_eq, feIsNegative_val]; exact_mod_cast rfl
  · rw [hl.isNonZero, Ne, ← fieldPrime_int, ← ZMod.intCast_zmod_eq_zero_iff_dvd]
  · have key : ∀ n : Fin 256, ((UInt8.ofNat n &&& 1).toUInt32.toInt32 = 0) ∨ ((UInt8.ofNat n &&& 1).toUInt32.toInt32 = 1) := by decide +kernel
    have hk : ∀ x : UInt8, ((x &&& 1).toUInt32.toInt32 = 0) ∨ ((x &&& 1).toUInt32.toInt32 = 1) := fun x => by
      simpa using key ⟨x.toNat, x.toNat_lt⟩
    exact hk _

/-- C126: the bound on the factors is needed: with limbs four times as large as reduced ones, `19*g[8]` wraps around, and the product is wrong. -/
theorem C126_limit : ∃ f g : FeL, Bd 1 f ∧ Bd 4 g ∧ ¬ feVal (Limb.mul f g) ≡ feVal f * feVal g [ZMOD 2 ^ 255 - 19] := by
  refine ⟨[0, 0, 1, 0, 0, 0, 0, 0, 0, 0], [0, 0, 0, 0, 0, 0, 0, 0, 130000000, 0], Bd.of_check 1 (by decide), Bd.of_check 4 (by decide), ?_⟩
  decide +kernel

/-- Limbs near the bounds, of both signs, in no normal form; and the prime itself, in limbs, whose bytes are zero. -/
example : Bd 3 [-100000000, 50000000, -99999999, 50834962, 7, -50000000, 101669928, 0, -101669928, 50834964] ∧
    Limb.mul [-100000000, 50000000, -99999999, 50834962, 7, -50000000, 101669928, 0, -101669928, 50834964]
      [-100000000, 50000000, -99999999, 50834962, 7, -50000000, 101669928, 0, -101669928, 50834964] ≠ Limb.zero ∧
    Bd 2 [67108845, 33554431, 67108863, 33554431, 67108863, 33554431, 67108863, 33554431, 67108863, 33554431] ∧
    feVal [67108845, 33554431, 67108863, 33554431, 67108863, 33554431, 67108863, 33554431, 67108863, 33554431] = 2 ^ 255 - 19 ∧
    Limb.toBytes [67108845, 33554431, 67108863, 33554431, 67108863, 33554431, 67108863, 33554431, 67108863, 33554431] = List.replicate 32 0 :=
  ⟨Bd.of_check 3 (by decide), by decide +kernel, Bd.of_check 2 (by decide), by decide +kernel, by decide +kernel⟩

end Verif.Kyber
