import Mathlib.FieldTheory.Finite.Basic
import Verif.Model.Edwards
import Verif.Spec.EdwardsGroup
import Verif.Lemmas.PrimeField

/-!
# The curve of the library

`-x² + y² = 1 + d x² y²` over the integers modulo `2^255 - 19`, as a group (`Spec/EdwardsGroup`), and when coordinates stand for a point.
-/

namespace Verif.Kyber
open Verif

/-- Two integers are the same element of the field. -/
theorem fe_int_eq {a b : Int} (h : (b - a) % (fieldPrime : Int) = 0) : ((a : Int) : Fe) = ((b : Int) : Fe) := by
  rw [ZMod.intCast_eq_intCast_iff_dvd_sub]
  exact Int.dvd_of_emod_eq_zero h

theorem edD_nat : edD = ((37095705934669439343138083508754565189542113879843219016388785533085940283555 : Nat) : Fe) := by
  rw [← Int.cast_natCast]
  exact fe_int_eq (by decide +kernel)

theorem edD2_eq : edD2 = 2 * edD := by
  have : edD2 = ((2 * dInt : Int) : Fe) := fe_int_eq (by decide +kernel)
  rw [this, Int.cast_mul]
  rfl

theorem edSqrtM1_sq : edSqrtM1 ^ 2 = -1 := by
  have : ((sqrtM1Int ^ 2 : Int) : Fe) = ((-1 : Int) : Fe) := fe_int_eq (by decide +kernel)
  rw [Int.cast_pow] at this
  simpa [edSqrtM1] using this

theorem edD_nonsquare (z : Fe) : z ^ 2 ≠ edD := by
  intro h
  have hpow : edD ^ ((fieldPrime - 1) / 2) = -1 := by
    have h1 := powModAux_eq fieldPrime 256 37095705934669439343138083508754565189542113879843219016388785533085940283555 ((fieldPrime - 1) / 2) 1
      (by decide +kernel)
    have h2 : powModAux fieldPrime 256 37095705934669439343138083508754565189542113879843219016388785533085940283555 ((fieldPrime - 1) / 2) 1 = fieldPrime - 1 := by
      decide +kernel
    rw [h2, ← edD_nat] at h1
    have h3 : ((fieldPrime - 1 : Nat) : Fe) = -1 := by
      rw [Nat.cast_sub (by decide)]
      simp
    rw [h3] at h1
    simpa using h1.symm
  rw [← h, ← pow_mul, show 2 * ((fieldPrime - 1) / 2) = fieldPrime - 1 by decide +kernel] at hpow
  by_cases hz : z = 0
  · subst hz
    rw [zero_pow (by decide)] at hpow
    have : (1 : Fe) = 0 := by linear_combination hpow
    exact one_ne_zero this
  · rw [ZMod.pow_card_sub_one_eq_one hz] at hpow
    have h2 : ((2 : Nat) : Fe) = ((0 : Nat) : Fe) := by push_cast; linear_combination hpow
    rw [ZMod.natCast_eq_natCast_iff'] at h2
    exact absurd h2 (by decide +kernel)

instance : EdComplete Fe edD where
  nonsquare := edD_nonsquare
  root := ⟨edSqrtM1, edSqrtM1_sq⟩
  two := by
    intro h
    have h2 : ((2 : Nat) : Fe) = ((0 : Nat) : Fe) := by push_cast; exact h
    rw [ZMod.natCast_eq_natCast_iff'] at h2
    exact absurd h2 (by decide +kernel)

/-- The points of the curve. -/
abbrev EdP := EdPoint Fe edD

instance : DecidableEq EdP := fun P Q => decidable_of_iff (P.x = Q.x ∧ P.y = Q.y) ⟨fun h => EdPoint.ext h.1 h.2, by rintro rfl; exact ⟨rfl, rfl⟩⟩

/-- The extended coordinates stand for the point: `x = X/Z`, `y = Y/Z`, `xy = T/Z`. -/
structure Rep (e : Extended) (P : EdP) : Prop where
  Z : e.Z ≠ 0
  X : e.X = P.x * e.Z
  Y : e.Y = P.y * e.Z
  T : e.T = P.x * P.y * e.Z

/-- The text form of a point (RFC 8032, 5.1.2): `y` on 255 bits, lowest byte first, then the parity of `x`. -/
def encodePoint (P : EdP) : Str := leBytes 32 (P.y.val + 2 ^ 255 * (P.x.val % 2))

/-- The bytes stand for the point: their low 255 bits are `y` modulo the prime, and the highest bit is the parity of `x` unless `x` is zero. -/
structure DecodesTo (s : Str) (P : EdP) : Prop where
  len : s.length = 32
  y : P.y = ((leNat s % 2 ^ 255 : Nat) : Fe)
  x : P.x = 0 ∨ P.x.val % 2 = leNat s / 2 ^ 255

end Verif.Kyber
