import Verif.Lemmas.Edwards

/-! # The base point of the library and its order, computed -/

namespace Verif.Kyber
open Verif

/-- Coordinates as natural numbers, for the computation in the kernel. -/
structure NExt where
  X : Nat
  Y : Nat
  Z : Nat
  T : Nat

def NExt.cast (n : NExt) : Extended := ⟨(n.X : Fe), (n.Y : Fe), (n.Z : Fe), (n.T : Fe)⟩

def d2Nat : Nat := 16295367250680780974490674513165176452449235426866156013048779062215315747161

/-- The sum of two points, in natural numbers below the prime `p`. -/
def NExt.addM (p d2 : Nat) (a b : NExt) : NExt :=
  let A := (a.Y + (p - a.X)) * (b.Y + (p - b.X)) % p
  let B := (a.Y + a.X) * (b.Y + b.X) % p
  let C := a.T * d2 % p * b.T % p
  let D := 2 * a.Z * b.Z % p
  let E := (B + (p - A)) % p
  let F := (D + (p - C)) % p
  let G := (D + C) % p
  let H := (B + A) % p
  ⟨E * F % p, G * H % p, F * G % p, E * H % p⟩

/-- `k` times a point, plus another one, by doubling. -/
def NExt.mulM (p d2 : Nat) : Nat → Nat → NExt → NExt → NExt
  | 0, _, _, acc => acc
  | fuel + 1, k, a, acc =>
    NExt.mulM p d2 fuel (k / 2) (NExt.addM p d2 a a) (if k % 2 = 0 then acc else NExt.addM p d2 acc a)

theorem d2Nat_eq : edD2 = ((d2Nat : Nat) : Fe) := by
  rw [← Int.cast_natCast]
  exact fe_int_eq (by decide +kernel)

def baseN : NExt := ⟨(baseInts.getD 0 0 % fieldPrime).toNat, (baseInts.getD 1 0 % fieldPrime).toNat, (baseInts.getD 2 0 % fieldPrime).toNat,
  (baseInts.getD 3 0 % fieldPrime).toNat⟩

set_option maxRecDepth 10000 in
theorem base_order_num : (let r := NExt.mulM fieldPrime d2Nat 253 primeOrder baseN ⟨0, 1, 1, 0⟩; r.X = 0 ∧ r.Y = r.Z) := by decide +kernel

theorem cast_modP (n : Nat) : ((n % fieldPrime : Nat) : Fe) = (n : Fe) := ZMod.natCast_mod n fieldPrime

theorem cast_subP {n : Nat} (h : n ≤ fieldPrime) : ((fieldPrime - n : Nat) : Fe) = -(n : Fe) := by
  rw [Nat.cast_sub h, CharP.cast_eq_zero, zero_sub]

theorem modP_le (n : Nat) : n % fieldPrime ≤ fieldPrime := Nat.le_of_lt (Nat.mod_lt _ (by decide +kernel))

theorem NExt.cast_add {a b : NExt} (ha : a.X ≤ fieldPrime) (hb : b.X ≤ fieldPrime) :
    (NExt.addM fieldPrime d2Nat a b).cast = a.cast.add b.cast := by
  simp only [NExt.addM, NExt.cast, Extended.add, Completed.add, Completed.toExtended, Extended.toCached, Extended.mk.injEq, cast_modP, Nat.cast_mul,
    Nat.cast_add, cast_subP (modP_le _), cast_subP ha, cast_subP hb, ← d2Nat_eq, Nat.cast_ofNat]
  refine ⟨?_, ?_, ?_, ?_⟩ <;> ring

theorem NExt.addM_le (a b : NExt) : (NExt.addM fieldPrime d2Nat a b).X ≤ fieldPrime := modP_le _

theorem NExt.mulM_rep (fuel : Nat) : ∀ (k : Nat) (a acc : NExt) (P A : EdP), k < 2 ^ fuel → a.X ≤ fieldPrime → acc.X ≤ fieldPrime → Rep a.cast P →
    Rep acc.cast A → Rep (NExt.mulM fieldPrime d2Nat fuel k a acc).cast (k • P + A) := by
  induction fuel with
  | zero =>
    intro k a acc P A hk _ _ _ h
    have : k = 0 := by simpa using hk
    subst this
    simpa [NExt.mulM] using h
  | succ fuel ih =>
    intro k a acc P A hk ha hacc hP hA
    rw [NExt.mulM]
    have h2 : Rep (NExt.addM fieldPrime d2Nat a a).cast (P + P) := by rw [NExt.cast_add ha ha]; exact hP.add hP
    rw [pow_succ] at hk
    by_cases h0 : k % 2 = 0
    · rw [if_pos h0]
      have := ih (k / 2) _ acc _ A (by omega) (NExt.addM_le a a) hacc h2 hA
      have e : (k / 2) • (P + P) = k • P := by
        rw [← two_nsmul, smul_smul]; congr 1; omega
      rwa [e] at this
    · rw [if_neg h0]
      have h3 : Rep (NExt.addM fieldPrime d2Nat acc a).cast (A + P) := by rw [NExt.cast_add hacc ha]; exact hA.add hP
      have := ih (k / 2) _ _ _ _ (by omega) (NExt.addM_le a a) (NExt.addM_le acc a) h2 h3
      have e : (k / 2) • (P + P) + (A + P) = k • P + A := by
        rw [← two_nsmul, smul_smul]
        conv_rhs => rw [show k = k / 2 * 2 + 1 by omega, succ_nsmul]
        abel
      rwa [e] at this

theorem baseN_cast : baseN.cast = baseExt := by
  have h : ∀ z : Int, (((z % (fieldPrime : Int)).toNat : Nat) : Fe) = (z : Fe) := by
    intro z
    rw [← Int.cast_natCast, Int.toNat_of_nonneg (Int.emod_nonneg _ (by decide +kernel)), ZMod.intCast_mod]
  simp only [NExt.cast, baseN, h]
  rfl

/-- The base point of the curve: `y` is 4/5 (RFC 8032, 5.1). -/
def basePoint : EdP where
  x := ((15112221349535400772501151409588531511454012693041857206046113283949847762202 : Nat) : Fe)
  y := ((46316835694926478169428394003475163141307993866256225615783033603165251855960 : Nat) : Fe)
  on := by
    have : ((-15112221349535400772501151409588531511454012693041857206046113283949847762202 ^ 2 +
      46316835694926478169428394003475163141307993866256225615783033603165251855960 ^ 2 : Int) : Fe) =
      ((1 + dInt * 15112221349535400772501151409588531511454012693041857206046113283949847762202 ^ 2 *
      46316835694926478169428394003475163141307993866256225615783033603165251855960 ^ 2 : Int) : Fe) := fe_int_eq (by decide +kernel)
    push_cast at this
    push_cast
    exact this

theorem basePoint_y : basePoint.y * 5 = 4 := by
  have : ((46316835694926478169428394003475163141307993866256225615783033603165251855960 * 5 : Int) : Fe) = ((4 : Int) : Fe) :=
    fe_int_eq (by decide +kernel)
  rw [Int.cast_mul] at this
  exact_mod_cast this

theorem fe_int_ne {a b : Int} (h : (b - a) % (fieldPrime : Int) ≠ 0) : ((a : Int) : Fe) ≠ ((b : Int) : Fe) := by
  rw [Ne, ZMod.intCast_eq_intCast_iff_dvd_sub]
  exact fun h' => h (Int.emod_eq_zero_of_dvd h')

theorem rep_base : Rep baseExt basePoint where
  Z := by
    have : ((baseInts.getD 2 0 : Int) : Fe) ≠ ((0 : Int) : Fe) := fe_int_ne (by decide +kernel)
    simpa [baseExt] using this
  X := by
    have : ((baseInts.getD 0 0 : Int) : Fe) =
      ((15112221349535400772501151409588531511454012693041857206046113283949847762202 * baseInts.getD 2 0 : Int) : Fe) := fe_int_eq (by decide +kernel)
    rw [Int.cast_mul] at this
    exact_mod_cast this
  Y := by
    have : ((baseInts.getD 1 0 : Int) : Fe) =
      ((46316835694926478169428394003475163141307993866256225615783033603165251855960 * baseInts.getD 2 0 : Int) : Fe) := fe_int_eq (by decide +kernel)
    rw [Int.cast_mul] at this
    exact_mod_cast this
  T := by
    have : ((baseInts.getD 3 0 : Int) : Fe) =
      ((15112221349535400772501151409588531511454012693041857206046113283949847762202 *
        46316835694926478169428394003475163141307993866256225615783033603165251855960 * baseInts.getD 2 0 : Int) : Fe) := fe_int_eq (by decide +kernel)
    rw [Int.cast_mul, Int.cast_mul] at this
    exact_mod_cast this

theorem basePoint_order : primeOrder • basePoint = 0 := by
  have h := NExt.mulM_rep 253 primeOrder baseN ⟨0, 1, 1, 0⟩ basePoint 0 (by decide +kernel) (by decide +kernel) (by decide +kernel)
    (by rw [baseN_cast]; exact rep_base) (by
      have : (⟨0, 1, 1, 0⟩ : NExt).cast = Extended.zero := by simp [NExt.cast, Extended.zero]
      rw [this]; exact Rep.zero)
  rw [add_zero] at h
  have hn := base_order_num
  dsimp only at hn
  generalize NExt.mulM fieldPrime d2Nat 253 primeOrder baseN ⟨0, 1, 1, 0⟩ = r at h hn
  obtain ⟨hx, hy⟩ := hn
  ext
  · have := h.X
    simp only [NExt.cast, hx, Nat.cast_zero] at this
    exact (mul_eq_zero.1 this.symm).resolve_right h.Z
  · have h1 := h.Y
    have h2 := h.Z
    simp only [NExt.cast, hy] at h1 h2
    exact mul_right_cancel₀ h2 (h1.symm.trans (one_mul _).symm)

theorem basePoint_ne : basePoint ≠ 0 := by
  intro h
  have h1 : basePoint.y = 1 := by rw [h]; rfl
  have h2 := basePoint_y
  rw [h1] at h2
  have : (1 : Fe) = 0 := by linear_combination h2
  exact one_ne_zero this

end Verif.Kyber
