import Verif.Lemmas.ScalarBytes
import Verif.Lemmas.PrimeOrder
import Mathlib.FieldTheory.Finite.Basic

/-! # The operations on scalars -/

namespace Verif.Kyber
open Verif

theorem store_reduce {s : Limbs} (hw : Within startBox s) :
    (leNat (store (runSteps reduction s)) : Int) = value s % primeOrder := by
  obtain ⟨h1, h2, h3, h4⟩ := reduction_sound hw
  have hb : ∀ i < 11, bits (get (runSteps reduction s) i) < 2 ^ 21 := by
    intro i hi
    obtain ⟨h5, h6⟩ := h1 i hi
    have := bits_of_toInt h5
    unfold igt at h6
    omega
  have hb11 : bits (get (runSteps reduction s) 11) ≤ 2 ^ 21 := by
    have := bits_of_toInt h2
    unfold igt at h3
    omega
  rw [leNat_store _ hb hb11, ← h4]
  push_cast
  apply Finset.sum_congr rfl
  intro i hi
  have hi' : i < 12 := by simpa using hi
  have : (bits (get (runSteps reduction s) i) : Int) = igt (runSteps reduction s) i := by
    apply bits_of_toInt
    by_cases h : i < 11
    · exact (h1 i h).1
    · have : i = 11 := by omega
      subst this; exact h2
  rw [this]

theorem igt_start (f : Nat → Int64) (i : Nat) (hi : i < 24) : igt (start f) i = (f i).toInt := by
  unfold igt get start
  rw [List.getD_eq_getElem?_getD, List.getElem?_map, List.getElem?_range hi]
  rfl

theorem value_start (f : Nat → Int64) : value (start f) = ∑ i ∈ Finset.range 24, (f i).toInt * 2 ^ (21 * i) := by
  unfold value
  apply Finset.sum_congr rfl
  intro i hi
  rw [igt_start f i (by simpa using hi)]

theorem ivGet_start_low {i : Nat} (h : i < 12) : ivGet startBox i = (-2 ^ 26, 2 ^ 54) := by
  interval_cases i <;> decide

theorem ivGet_start_high {i : Nat} (h : 12 ≤ i) (h' : i < 23) : ivGet startBox i = (0, 2 ^ 54) := by
  interval_cases i <;> decide

theorem within_start (f : Nat → Int64) (h1 : ∀ i < 12, -2 ^ 26 ≤ (f i).toInt ∧ (f i).toInt ≤ 2 ^ 54)
    (h2 : ∀ i, 12 ≤ i → i < 23 → 0 ≤ (f i).toInt ∧ (f i).toInt ≤ 2 ^ 54) (h3 : (f 23).toInt = 0) :
    Within startBox (start f) := by
  refine ⟨by decide, by simp [start], fun i hi => ?_⟩
  rw [igt_start f i hi]
  by_cases hi1 : i < 12
  · rw [ivGet_start_low hi1]; exact h1 i hi1
  · by_cases hi2 : i < 23
    · rw [ivGet_start_high (by omega) hi2]; exact h2 i (by omega) hi2
    · have : i = 23 := by omega
      subst this
      have : ivGet startBox 23 = (0, 0) := by decide
      rw [this, h3]; simp

theorem limb_bound (a : Str) (ha : a.length = 32) (i : Nat) : 0 ≤ (limb a i).toInt ∧ (limb a i).toInt < 2 ^ 25 := by
  obtain ⟨h1, h2, h3, _⟩ := limb_spec a ha
  by_cases hi : i < 11
  · have := h1 i hi; omega
  · by_cases hi2 : i = 11
    · subst hi2; exact h2
    · rw [h3 i (by omega)]; decide

theorem limb_sum (a : Str) (ha : a.length = 32) (n : Nat) (hn : 12 ≤ n) :
    ∑ i ∈ Finset.range n, (limb a i).toInt * 2 ^ (21 * i) = leNat a := by
  obtain ⟨_, _, h3, h4⟩ := limb_spec a ha
  rw [← h4]
  symm
  apply Finset.sum_subset (fun i hi => by simp at hi ⊢; omega)
  intro i _ hni
  rw [h3 i (by simpa using hni)]
  have : (0 : Int64).toInt = 0 := by decide
  simp [this]

/-! ## Addition and subtraction -/

theorem leNat_scAdd (a c : Str) (ha : a.length = 32) (hc : c.length = 32) :
    leNat (scAdd a c) = (leNat a + leNat c) % primeOrder := by
  have hs : ∀ i, (limb c i + limb a i).toInt = (limb c i).toInt + (limb a i).toInt := by
    intro i
    have h1 := limb_bound a ha i
    have h2 := limb_bound c hc i
    exact toInt_add64 _ _ (by omega) (by omega)
  have h0 : ∀ i, 12 ≤ i → (limb c i + limb a i).toInt = 0 := by
    intro i hi
    rw [(limb_spec a ha).2.2.1 i hi, (limb_spec c hc).2.2.1 i hi]; decide
  have hw : Within startBox (start (fun i => limb c i + limb a i)) := by
    apply within_start
    · intro i _
      have h1 := limb_bound a ha i
      have h2 := limb_bound c hc i
      rw [hs]; omega
    · intro i h1 h2; rw [h0 i h1]; omega
    · exact h0 23 (by omega)
  have := store_reduce hw
  rw [value_start] at this
  simp only [hs, add_mul, Finset.sum_add_distrib] at this
  rw [limb_sum a ha 24 (by omega), limb_sum c hc 24 (by omega)] at this
  unfold scAdd
  rw [Nat.add_comm]
  exact_mod_cast this

theorem subConst_sum : ∑ i ∈ Finset.range 24, (subConst i).toInt * 2 ^ (21 * i) = 16 * (primeOrder : Int) := by
  decide +kernel

theorem leNat_scSub (a c : Str) (ha : a.length = 32) (hc : c.length = 32) :
    (leNat (scSub a c) : Int) = ((leNat a : Int) - leNat c) % primeOrder := by
  have hk : ∀ i, 0 ≤ (subConst i).toInt ∧ (subConst i).toInt ≤ 2 ^ 21 := by
    intro i; unfold subConst; split <;> decide
  have hs : ∀ i, (subConst i - limb c i + limb a i).toInt =
      (subConst i).toInt - (limb c i).toInt + (limb a i).toInt := by
    intro i
    have h1 := limb_bound a ha i
    have h2 := limb_bound c hc i
    have h3 := hk i
    have h4 : (subConst i - limb c i).toInt = (subConst i).toInt - (limb c i).toInt :=
      toInt_sub64 _ _ (by omega) (by omega)
    rw [toInt_add64, h4] <;> rw [h4] <;> omega
  have h0 : ∀ i, 12 ≤ i → (subConst i - limb c i + limb a i).toInt = (subConst i).toInt := by
    intro i hi
    rw [hs, (limb_spec a ha).2.2.1 i hi, (limb_spec c hc).2.2.1 i hi]
    have : (0 : Int64).toInt = 0 := by decide
    omega
  have hw : Within startBox (start (fun i => subConst i - limb c i + limb a i)) := by
    apply within_start
    · intro i _
      have h1 := limb_bound a ha i
      have h2 := limb_bound c hc i
      have h3 := hk i
      rw [hs]; omega
    · intro i h1 h2; rw [h0 i h1]
      have h3 := hk i
      omega
    · rw [h0 23 (by omega)]; decide
  have := store_reduce hw
  rw [value_start] at this
  simp only [hs, add_mul, sub_mul, Finset.sum_add_distrib, Finset.sum_sub_distrib] at this
  rw [limb_sum a ha 24 (by omega), limb_sum c hc 24 (by omega), subConst_sum] at this
  unfold scSub
  rw [this]
  have : 16 * (primeOrder : Int) - leNat c + leNat a = (leNat a - leNat c) + primeOrder * 16 := by ring
  rw [this, Int.add_mul_emod_self_left]

/-! ## Products -/

theorem product_exact (a b c : Nat → Int64) (k : Nat) (ha : ∀ i, 0 ≤ (a i).toInt ∧ (a i).toInt < 2 ^ 25)
    (hb : ∀ i, 0 ≤ (b i).toInt ∧ (b i).toInt < 2 ^ 25) (hc : 0 ≤ (c k).toInt ∧ (c k).toInt < 2 ^ 25) :
    (product a b c k).toInt = (c k).toInt +
      (((List.range 12).filter (fun i => decide (i ≤ k ∧ k - i < 12))).map
        (fun i => (a i).toInt * (b (k - i)).toInt)).sum ∧
    0 ≤ (product a b c k).toInt ∧ (product a b c k).toInt ≤ 2 ^ 54 := by
  have key : ∀ (l : List Nat) (acc : Int64) (m : Nat), m + l.length ≤ 12 → 0 ≤ acc.toInt →
      acc.toInt ≤ 2 ^ 25 + m * 2 ^ 50 →
      (l.foldl (fun acc i => acc + a i * b (k - i)) acc).toInt =
        acc.toInt + (l.map (fun i => (a i).toInt * (b (k - i)).toInt)).sum ∧
      0 ≤ (l.foldl (fun acc i => acc + a i * b (k - i)) acc).toInt ∧
      (l.foldl (fun acc i => acc + a i * b (k - i)) acc).toInt ≤ 2 ^ 54 := by
    intro l
    induction l with
    | nil => intro acc m hm h1 h2
             simp at hm
             refine ⟨by simp, h1, ?_⟩
             show acc.toInt ≤ _
             omega
    | cons i l ih =>
      intro acc m hm h1 h2
      simp only [List.length_cons] at hm
      have h3 := ha i
      have h4 := hb (k - i)
      have h5 : 0 ≤ (a i).toInt * (b (k - i)).toInt := mul_nonneg h3.1 h4.1
      have h6 : (a i).toInt * (b (k - i)).toInt ≤ 2 ^ 25 * 2 ^ 25 :=
        mul_le_mul (le_of_lt h3.2) (le_of_lt h4.2) h4.1 (by norm_num)
      have e1 : (a i * b (k - i)).toInt = (a i).toInt * (b (k - i)).toInt :=
        toInt_mul64 _ _ (by omega) (by omega)
      have e2 : (acc + a i * b (k - i)).toInt = acc.toInt + (a i).toInt * (b (k - i)).toInt := by
        rw [toInt_add64, e1] <;> rw [e1] <;> omega
      obtain ⟨r1, r2, r3⟩ := ih (acc + a i * b (k - i)) (m + 1) (by omega) (by omega) (by rw [e2]; push_cast; omega)
      refine ⟨?_, r2, r3⟩
      rw [List.foldl_cons, r1, e2, List.map_cons, List.sum_cons]; ring
  apply key _ _ 0
  · have := List.length_filter_le (fun i => decide (i ≤ k ∧ k - i < 12)) (List.range 12)
    simp only [List.length_range] at this
    omega
  · exact hc.1
  · omega

theorem product_value (a b c : Nat → Int) :
    ∑ k ∈ Finset.range 24, (c k + (((List.range 12).filter (fun i => decide (i ≤ k ∧ k - i < 12))).map
        (fun i => a i * b (k - i))).sum) * 2 ^ (21 * k) =
    ∑ k ∈ Finset.range 24, c k * 2 ^ (21 * k) +
      (∑ i ∈ Finset.range 12, a i * 2 ^ (21 * i)) * ∑ i ∈ Finset.range 12, b i * 2 ^ (21 * i) := by
  simp only [add_mul, Finset.sum_add_distrib]
  congr 1
  simp only [pow_mul]
  generalize (2 : Int) ^ 21 = T
  simp [Finset.sum_range_succ, List.range_succ, List.filter_cons]
  ring

theorem leNat_product (a b : Str) (c : Nat → Int64) (ha : a.length = 32) (hb : b.length = 32)
    (hc : ∀ i, 0 ≤ (c i).toInt ∧ (c i).toInt < 2 ^ 25) (hc0 : ∀ i, 12 ≤ i → c i = 0) (C : Nat)
    (hC : ∑ k ∈ Finset.range 24, (c k).toInt * 2 ^ (21 * k) = C) :
    leNat (store (runSteps reduction (start (product (limb a) (limb b) c)))) =
      (leNat a * leNat b + C) % primeOrder := by
  have hp := fun k => product_exact (limb a) (limb b) c k (limb_bound a ha) (limb_bound b hb) (hc k)
  have hw : Within startBox (start (product (limb a) (limb b) c)) := by
    apply within_start
    · intro i _; have := (hp i).2; omega
    · intro i _ _; have := (hp i).2; omega
    · have : product (limb a) (limb b) c 23 = c 23 := by
        unfold product
        have : (List.range 12).filter (fun i => decide (i ≤ 23 ∧ 23 - i < 12)) = [] := by decide
        rw [this]; rfl
      rw [this, hc0 23 (by omega)]; decide
  have := store_reduce hw
  rw [value_start] at this
  simp only [(hp _).1] at this
  rw [product_value (fun i => (limb a i).toInt) (fun i => (limb b i).toInt) (fun i => (c i).toInt), hC,
    limb_sum a ha 12 (by omega), limb_sum b hb 12 (by omega)] at this
  rw [Nat.add_comm]
  exact_mod_cast this

theorem leNat_scMul (a b : Str) (ha : a.length = 32) (hb : b.length = 32) :
    leNat (scMul a b) = leNat a * leNat b % primeOrder := by
  have := leNat_product a b (fun _ => 0) ha hb (fun _ => by decide) (fun _ _ => rfl) 0 (by decide +kernel)
  simpa [scMul] using this

theorem leNat_scMulAdd (a b c : Str) (ha : a.length = 32) (hb : b.length = 32) (hc : c.length = 32) :
    leNat (scMulAdd a b c) = (leNat a * leNat b + leNat c) % primeOrder :=
  leNat_product a b (limb c) ha hb (limb_bound c hc) (limb_spec c hc).2.2.1 _ (limb_sum c hc 24 (by omega))

theorem length_store (s : Limbs) : (store s).length = 32 := rfl

theorem length_scMul (a b : Str) : (scMul a b).length = 32 := rfl
theorem length_scAdd (a b : Str) : (scAdd a b).length = 32 := rfl
theorem length_scSub (a b : Str) : (scSub a b).length = 32 := rfl

/-! ## Inverse -/

theorem leNat_one : leNat one = 1 := by decide
theorem leNat_zero : leNat zero = 0 := by decide

/-- The number of a scalar, modulo the order. -/
def toZ (v : Str) : ZMod primeOrder := (leNat v : ZMod primeOrder)

theorem toZ_scMul (a b : Str) (ha : a.length = 32) (hb : b.length = 32) : toZ (scMul a b) = toZ a * toZ b := by
  unfold toZ; rw [leNat_scMul a b ha hb]; simp

theorem invLoop_spec (a : Str) (ha : a.length = 32) (n : Nat) : ∀ (res : Str), res.length = 32 →
    (invLoop a n res).length = 32 ∧ toZ (invLoop a n res) = toZ res ^ 2 ^ n * toZ a ^ (lMinus2 % 2 ^ n) := by
  induction n with
  | zero => intro res h; exact ⟨h, by simp [invLoop, Nat.mod_one]⟩
  | succ n ih =>
    intro res h
    rw [invLoop]
    have hmod : lMinus2 % 2 ^ (n + 1) = lMinus2 % 2 ^ n + 2 ^ n * (lMinus2.testBit n).toNat := by
      rw [Nat.pow_succ, Nat.mod_mul, Nat.toNat_testBit]
    have hm := toZ_scMul res res h h
    by_cases hb : lMinus2.testBit n = true
    · simp only [hb, if_true]
      obtain ⟨h1, h2⟩ := ih (scMul (scMul res res) a) (length_scMul _ _)
      refine ⟨h1, ?_⟩
      rw [h2, toZ_scMul _ _ (length_scMul _ _) ha, hm, hmod, hb]
      simp only [Bool.toNat_true, Nat.mul_one, pow_succ, pow_mul, pow_add, mul_pow, pow_one]
      ring
    · simp only [hb]
      obtain ⟨h1, h2⟩ := ih (scMul res res) (length_scMul _ _)
      refine ⟨h1, ?_⟩
      have hb' : lMinus2.testBit n = false := by simpa using hb
      show toZ (invLoop a n (scMul res res)) = _
      rw [h2, hm, hmod, hb']
      simp only [Bool.toNat_false, Nat.mul_zero, Nat.add_zero, pow_succ, pow_mul, mul_pow]
      ring

theorem length_scInv (a : Str) (ha : a.length = 32) : (scInv a).length = 32 := (invLoop_spec a ha 256 one rfl).1

theorem toZ_scInv (a : Str) (ha : a.length = 32) : toZ (scInv a) = (toZ a)⁻¹ := by
  have h := (invLoop_spec a ha 256 one rfl).2
  have h1 : toZ one = 1 := by simp [toZ, leNat_one]
  have h2 : lMinus2 % 2 ^ 256 = primeOrder - 2 := by decide +kernel
  rw [h1, one_pow, one_mul, h2] at h
  show toZ (invLoop a 256 one) = _
  rw [h]
  by_cases h0 : toZ a = 0
  · rw [h0, inv_zero, zero_pow (by decide +kernel)]
  · have hf := ZMod.pow_card_sub_one_eq_one h0
    have e : primeOrder - 1 = primeOrder - 2 + 1 := by decide +kernel
    rw [e, pow_succ] at hf
    exact eq_inv_of_mul_eq_one_left hf

end Verif.Kyber
