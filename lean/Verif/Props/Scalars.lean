import Verif.Lemmas.ScalarOps
import Verif.Spec.SignatureBytes

/-!
# C116: the arithmetic of the scalars

`leNat` reads bytes as a number, lowest byte first; `primeOrder` is `2^252 + 27742317777372353535851937790883648493`.
Every operation takes any 32 bytes, reduced or not, and gives the 32 bytes of the number below the order.
-/

namespace Verif.Kyber
open Verif

/-- C116: the order is a prime, so the residues are a field. -/
theorem C116_prime : primeOrder = 2 ^ 252 + 27742317777372353535851937790883648493 ∧ primeOrder.Prime :=
  ⟨rfl, prime_primeOrder⟩

/-- C116: addition. -/
theorem C116_add (a b : Scalar) :
    (scAdd a.1 b.1).length = 32 ∧ leNat (scAdd a.1 b.1) = (leNat a.1 + leNat b.1) % primeOrder :=
  ⟨rfl, leNat_scAdd a.1 b.1 a.2 b.2⟩

/-- C116: subtraction. -/
theorem C116_sub (a b : Scalar) :
    (scSub a.1 b.1).length = 32 ∧ (leNat (scSub a.1 b.1) : Int) = ((leNat a.1 : Int) - leNat b.1) % primeOrder :=
  ⟨rfl, leNat_scSub a.1 b.1 a.2 b.2⟩

/-- C116: negation. -/
theorem C116_neg (a : Scalar) :
    (scNeg a.1).length = 32 ∧ (leNat (scNeg a.1) : Int) = (-(leNat a.1 : Int)) % primeOrder := by
  refine ⟨rfl, ?_⟩
  have h := leNat_scSub zero a.1 rfl a.2
  rw [leNat_zero, Int.natCast_zero, Int.zero_sub] at h
  exact h

/-- C116: multiplication. -/
theorem C116_mul (a b : Scalar) :
    (scMul a.1 b.1).length = 32 ∧ leNat (scMul a.1 b.1) = leNat a.1 * leNat b.1 % primeOrder :=
  ⟨rfl, leNat_scMul a.1 b.1 a.2 b.2⟩

/-- C116: multiplication and addition in one go. -/
theorem C116_mulAdd (a b c : Scalar) :
    (scMulAdd a.1 b.1 c.1).length = 32 ∧
      leNat (scMulAdd a.1 b.1 c.1) = (leNat a.1 * leNat b.1 + leNat c.1) % primeOrder :=
  ⟨rfl, leNat_scMulAdd a.1 b.1 c.1 a.2 b.2 c.2⟩

/-- The result of `Inv` is reduced. -/
theorem scInv_lt (a : Scalar) : leNat (scInv a.1) < primeOrder := by
  have h0 : lMinus2.testBit 0 = true := by decide +kernel
  have hstep : ∀ n res, (invLoop a.1 (n + 1) res) = invLoop a.1 n (if lMinus2.testBit n then scMul (scMul res res) a.1 else scMul res res) := fun _ _ => rfl
  have key : ∀ n res, res.length = 32 → leNat (invLoop a.1 (n + 1) res) < primeOrder := by
    intro n
    induction n with
    | zero =>
      intro res hr
      rw [hstep, h0, if_pos rfl]
      show leNat (scMul (scMul res res) a.1) < _
      rw [leNat_scMul _ _ (length_scMul _ _) a.2]
      exact Nat.mod_lt _ (Nat.Prime.pos prime_primeOrder)
    | succ n ih =>
      intro res hr
      rw [hstep]
      apply ih
      split <;> exact length_scMul _ _
  exact key 255 one rfl

/-- C116: the inverse of every scalar which is not a multiple of the order; that of a multiple of it is zero. -/
theorem C116_inv (a : Scalar) :
    (scInv a.1).length = 32 ∧ leNat (scInv a.1) < primeOrder ∧
      (¬ primeOrder ∣ leNat a.1 → leNat a.1 * leNat (scInv a.1) % primeOrder = 1) ∧
      (primeOrder ∣ leNat a.1 → scInv a.1 = zero) := by
  have hz := toZ_scInv a.1 a.2
  unfold toZ at hz
  refine ⟨length_scInv a.1 a.2, scInv_lt a, fun h => ?_, fun h => ?_⟩
  · have hne : (leNat a.1 : ZMod primeOrder) ≠ 0 := fun h' => h ((ZMod.natCast_eq_zero_iff _ _).1 h')
    have h1 : ((leNat a.1 * leNat (scInv a.1) : Nat) : ZMod primeOrder) = ((1 : Nat) : ZMod primeOrder) := by
      rw [Nat.cast_mul, hz, mul_inv_cancel₀ hne, Nat.cast_one]
    have h2 := (ZMod.natCast_eq_natCast_iff _ _ _).1 h1
    rw [Nat.ModEq, Nat.mod_eq_of_lt (Nat.Prime.one_lt prime_primeOrder)] at h2
    exact h2
  · have h0 : (leNat a.1 : ZMod primeOrder) = 0 := (ZMod.natCast_eq_zero_iff _ _).2 h
    rw [h0, inv_zero] at hz
    have h1 := (ZMod.natCast_eq_zero_iff _ _).1 hz
    apply leNat_inj
    · rw [length_scInv a.1 a.2]; rfl
    · rw [leNat_zero]
      exact Nat.eq_zero_of_dvd_of_lt h1 (scInv_lt a)

/-- C116: division is multiplication by the inverse. -/
theorem C116_div (a b : Scalar) :
    (scDiv a.1 b.1).length = 32 ∧ leNat (scDiv a.1 b.1) < primeOrder ∧
      (¬ primeOrder ∣ leNat b.1 → leNat (scDiv a.1 b.1) * leNat b.1 % primeOrder = leNat a.1 % primeOrder) ∧
      (primeOrder ∣ leNat b.1 → scDiv a.1 b.1 = zero) := by
  obtain ⟨h1, h2, h3, h4⟩ := C116_inv b
  have hm := leNat_scMul a.1 (scInv b.1) a.2 h1
  refine ⟨rfl, ?_, fun h => ?_, fun h => ?_⟩
  · show leNat (scMul a.1 (scInv b.1)) < _
    rw [hm]; exact Nat.mod_lt _ (Nat.Prime.pos prime_primeOrder)
  · show leNat (scMul a.1 (scInv b.1)) * _ % _ = _
    rw [hm, Nat.mod_mul_mod, mul_assoc, mul_comm (leNat (scInv b.1)), Nat.mul_mod, h3 h, mul_one, Nat.mod_mod]
  · apply leNat_inj ((length_scMul a.1 (scInv b.1)).trans (List.length_replicate (n := 32)).symm)
    show leNat (scMul a.1 (scInv b.1)) = _
    rw [hm, h4 h, leNat_zero, Nat.mul_zero, Nat.zero_mod]
    exact leNat_zero.symm

/-- C116: reading a hash (`SetBytes`, of bytes of any length) and writing a scalar (`MarshalBinary`, and `String` in
hexadecimal) reduce; the written form depends on the residue only and tells it. -/
theorem C116_bytes (b : Str) (a a' : Scalar) :
    ((setBytes b).length = 32 ∧ leNat (setBytes b) = leNat b % primeOrder) ∧
    ((marshal a.1).length = 32 ∧ leNat (marshal a.1) = leNat a.1 % primeOrder) ∧
    (marshal a.1 = marshal a'.1 ↔ leNat a.1 % primeOrder = leNat a'.1 % primeOrder) := by
  have hp : primeOrder < 256 ^ 32 := by decide +kernel
  have hb : ∀ n, leNat (leBytes 32 (n % primeOrder)) = n % primeOrder := by
    intro n
    rw [leNat_leBytes, Nat.mod_eq_of_lt (lt_trans (Nat.mod_lt _ (Nat.Prime.pos prime_primeOrder)) hp)]
  refine ⟨⟨length_leBytes _ _, hb _⟩, ⟨length_leBytes _ _, hb _⟩, fun h => ?_, fun h => ?_⟩
  · rw [← hb (leNat a.1), ← hb (leNat a'.1)]
    exact congrArg leNat h
  · unfold marshal; rw [h]

/-- C116: reading a scalar (`UnmarshalFrom`) takes the first 32 bytes as they are, reduced or not, never looks at what is
after them, and fails exactly on fewer than 32 bytes. -/
theorem C116_read (d : Str) :
    (d.length < 32 → unmarshalFrom d = .err) ∧
    (∀ a : Scalar, ∀ more, d = a.1 ++ more → unmarshalFrom d = .ok a) := by
  refine ⟨fun h => ?_, fun a more h => ?_⟩
  · unfold unmarshalFrom; rw [dif_neg (by omega)]
  · subst h
    unfold unmarshalFrom
    rw [dif_pos (by rw [List.length_append, a.2]; omega)]
    congr 1
    apply Subtype.ext
    show (a.1 ++ more).take 32 = a.1
    rw [List.take_append_of_le_length (by rw [a.2]), List.take_of_length_le (by rw [a.2])]

/-- Non-vacuity: the largest 32 bytes are a scalar, above the order; adding one to it gives the residue of `2^256`. -/
example : leNat (scAdd (List.replicate 32 255) one) = 2 ^ 256 % primeOrder := by
  have h := (C116_add ⟨List.replicate 32 255, rfl⟩ ⟨one, rfl⟩).2
  rw [leNat_one] at h
  have h2 : leNat (List.replicate 32 255) + 1 = 2 ^ 256 := by decide +kernel
  rw [← h2]
  exact h

end Verif.Kyber
