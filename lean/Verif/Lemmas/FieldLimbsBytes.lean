import Verif.Lemmas.FieldLimbs

/-! # The limbs of a field element: sums, choices and bytes -/

namespace Verif.Kyber
open Verif

/-! ## Sums -/

theorem fi_bounds {k : Int} {f : FeL} (h : Bd k f) {i : Nat} (hi : i < 10) : -(k * tight i) ≤ fi f i ∧ fi f i ≤ k * tight i :=
  ⟨h.low i hi, h.high i hi⟩

theorem add_sound {a b : Int} {f g : FeL} (hf : Bd a f) (hg : Bd b g) (hab : a + b ≤ 3) :
    Bd (a + b) (Limb.add f g) ∧ feVal (Limb.add f g) = feVal f + feVal g := by
  have key : ∀ i < 10, fi (Limb.add f g) i = fi f i + fi g i ∧ -((a + b) * tight i) ≤ fi f i + fi g i ∧ fi f i + fi g i ≤ (a + b) * tight i := by
    intro i hi
    obtain ⟨h1, h2⟩ := fi_bounds hf hi
    obtain ⟨h3, h4⟩ := fi_bounds hg hi
    have e : (a + b) * tight i = a * tight i + b * tight i := by ring
    have h5 : (a + b) * tight i ≤ 3 * 33889976 := by
      have := tight_pos i; have := tight_le i; nlinarith
    refine ⟨?_, by omega, by omega⟩
    unfold fi Limb.add
    rw [fat_range _ i hi, toInt_add32]
    · show _ ≤ fi f i + fi g i; omega
    · show fi f i + fi g i < _; omega
  refine ⟨⟨by simp [Limb.add], fun i hi => ?_, fun i hi => ?_⟩, ?_⟩
  · show _ ≤ fi _ i; have := key i hi; omega
  · show fi _ i ≤ _; have := key i hi; omega
  · rw [feVal_eq, (key 0 (by omega)).1, (key 1 (by omega)).1, (key 2 (by omega)).1, (key 3 (by omega)).1, (key 4 (by omega)).1,
      (key 5 (by omega)).1, (key 6 (by omega)).1, (key 7 (by omega)).1, (key 8 (by omega)).1, (key 9 (by omega)).1, feVal_eq, feVal_eq]
    ring

theorem sub_sound {a b : Int} {f g : FeL} (hf : Bd a f) (hg : Bd b g) (hab : a + b ≤ 3) :
    Bd (a + b) (Limb.sub f g) ∧ feVal (Limb.sub f g) = feVal f - feVal g := by
  have key : ∀ i < 10, fi (Limb.sub f g) i = fi f i - fi g i ∧ -((a + b) * tight i) ≤ fi f i - fi g i ∧ fi f i - fi g i ≤ (a + b) * tight i := by
    intro i hi
    obtain ⟨h1, h2⟩ := fi_bounds hf hi
    obtain ⟨h3, h4⟩ := fi_bounds hg hi
    have e : (a + b) * tight i = a * tight i + b * tight i := by ring
    have h5 : (a + b) * tight i ≤ 3 * 33889976 := by
      have := tight_pos i; have := tight_le i; nlinarith
    refine ⟨?_, by omega, by omega⟩
    unfold fi Limb.sub
    rw [fat_range _ i hi, toInt_sub32]
    · show _ ≤ fi f i - fi g i; omega
    · show fi f i - fi g i < _; omega
  refine ⟨⟨by simp [Limb.sub], fun i hi => ?_, fun i hi => ?_⟩, ?_⟩
  · show _ ≤ fi _ i; have := key i hi; omega
  · show fi _ i ≤ _; have := key i hi; omega
  · rw [feVal_eq, (key 0 (by omega)).1, (key 1 (by omega)).1, (key 2 (by omega)).1, (key 3 (by omega)).1, (key 4 (by omega)).1,
      (key 5 (by omega)).1, (key 6 (by omega)).1, (key 7 (by omega)).1, (key 8 (by omega)).1, (key 9 (by omega)).1, feVal_eq, feVal_eq]
    ring

theorem neg_sound {a : Int} {f : FeL} (hf : Bd a f) (ha : a ≤ 3) : Bd a (Limb.neg f) ∧ feVal (Limb.neg f) = -feVal f := by
  have key : ∀ i < 10, fi (Limb.neg f) i = -fi f i ∧ -(a * tight i) ≤ -fi f i ∧ -fi f i ≤ a * tight i := by
    intro i hi
    obtain ⟨h1, h2⟩ := fi_bounds hf hi
    have h5 : a * tight i ≤ 3 * 33889976 := by
      have := tight_pos i; have := tight_le i; nlinarith
    refine ⟨?_, by omega, by omega⟩
    unfold fi Limb.neg
    rw [fat_range _ i hi, toInt_neg32]
    · show _ < fi f i; omega
    · show fi f i < _; omega
  refine ⟨⟨by simp [Limb.neg], fun i hi => ?_, fun i hi => ?_⟩, ?_⟩
  · show _ ≤ fi _ i; have := key i hi; omega
  · show fi _ i ≤ _; have := key i hi; omega
  · rw [feVal_eq, (key 0 (by omega)).1, (key 1 (by omega)).1, (key 2 (by omega)).1, (key 3 (by omega)).1, (key 4 (by omega)).1,
      (key 5 (by omega)).1, (key 6 (by omega)).1, (key 7 (by omega)).1, (key 8 (by omega)).1, (key 9 (by omega)).1, feVal_eq]
    ring

/-! ## Choices -/

theorem fat_map_self (f : FeL) (hf : f.length = 10) : (List.range 10).map (fat f) = f := by
  apply List.ext_getElem?
  intro i
  rw [List.getElem?_map]
  by_cases hi : i < 10
  · rw [List.getElem?_range hi, List.getElem?_eq_getElem (by omega)]
    simp [fat, List.getD_eq_getElem?_getD, List.getElem?_eq_getElem (show i < f.length by omega)]
  · rw [List.getElem?_eq_none (by simpa using hi), List.getElem?_eq_none (by omega)]; rfl

theorem cmove_zero (f g : FeL) (hf : f.length = 10) : Limb.cmove f g 0 = f := by
  unfold Limb.cmove
  have : (fun i => fat f i ^^^ ((-0 : Int32) &&& (fat f i ^^^ fat g i))) = fat f := by
    funext i; simp
  rw [this, fat_map_self f hf]

theorem cmove_one (f g : FeL) (hg : g.length = 10) : Limb.cmove f g 1 = g := by
  unfold Limb.cmove
  have : (fun i => fat f i ^^^ ((-1 : Int32) &&& (fat f i ^^^ fat g i))) = fat g := by
    funext i
    rw [Int32.neg_one_and, ← Int32.xor_assoc, Int32.xor_self, Int32.zero_xor]
  rw [this, fat_map_self g hg]

/-! ## Reading bytes -/

/-- Bounds of the numbers which are read. -/
def loadBox : List Int := [2 ^ 32, 2 ^ 30, 2 ^ 29, 2 ^ 27, 2 ^ 26, 2 ^ 32, 2 ^ 31, 2 ^ 29, 2 ^ 28, 2 ^ 25]

theorem toInt_load4 (s : Str) (o : Nat) : (load4 s o).toInt = (leNat s / 256 ^ o % 256 ^ 4 : Nat) := by
  rw [toInt_of_bits (by rw [bits_load4]; omega), bits_load4]

theorem toInt_load3_shl (s : Str) (o : Nat) (k : Int64) (n : Nat) (hk : k.toBitVec.smod 64 = BitVec.ofNat 64 n) (hn : n < 8) :
    (load3 s o <<< k).toInt = (leNat s / 256 ^ o % 256 ^ 3 * 2 ^ n : Nat) := by
  have h1 := bits_load3 s o
  have h2 : 2 ^ n ≤ 2 ^ 8 := Nat.pow_le_pow_right (by omega) (by omega)
  have h3 : leNat s / 256 ^ o % 256 ^ 3 * 2 ^ n ≤ 256 ^ 3 * 2 ^ 8 :=
    Nat.mul_le_mul (by have := Nat.mod_lt (leNat s / 256 ^ o) (show 256 ^ 3 > 0 by decide); omega) h2
  have h4 := bits_shl (load3 s o) k n hk (by omega) (by rw [h1]; omega)
  rw [toInt_of_bits (by rw [h4, h1]; omega), h4, h1]

theorem toInt_load_top (s : Str) : ((load3 s 29 &&& 8388607) <<< 2).toInt = (leNat s / 256 ^ 29 % 256 ^ 3 % 2 ^ 23 * 2 ^ 2 : Nat) := by
  have h1 : bits (load3 s 29 &&& 8388607) = leNat s / 256 ^ 29 % 256 ^ 3 % 2 ^ 23 := by
    rw [← bits_load3]
    unfold bits
    rw [Int64.toBitVec_and, BitVec.toNat_and]
    show _ &&& 2 ^ 23 - 1 = _
    rw [Nat.and_two_pow_sub_one_eq_mod]
  have h4 := bits_shl (load3 s 29 &&& 8388607) 2 2 (by decide) (by omega) (by rw [h1]; omega)
  rw [toInt_of_bits (by rw [h4, h1]; omega), h4, h1]

theorem loads_sound (s : Str) : InBox loadBox (Limb.loads s) ∧ val10 (Limb.loads s) = (leNat s % 2 ^ 255 : Nat) := by
  have e0 : igt (Limb.loads s) 0 = (leNat s / 256 ^ 0 % 256 ^ 4 : Nat) := toInt_load4 s 0
  have e1 : igt (Limb.loads s) 1 = (leNat s / 256 ^ 4 % 256 ^ 3 * 2 ^ 6 : Nat) := toInt_load3_shl s 4 6 6 (by decide) (by decide)
  have e2 : igt (Limb.loads s) 2 = (leNat s / 256 ^ 7 % 256 ^ 3 * 2 ^ 5 : Nat) := toInt_load3_shl s 7 5 5 (by decide) (by decide)
  have e3 : igt (Limb.loads s) 3 = (leNat s / 256 ^ 10 % 256 ^ 3 * 2 ^ 3 : Nat) := toInt_load3_shl s 10 3 3 (by decide) (by decide)
  have e4 : igt (Limb.loads s) 4 = (leNat s / 256 ^ 13 % 256 ^ 3 * 2 ^ 2 : Nat) := toInt_load3_shl s 13 2 2 (by decide) (by decide)
  have e5 : igt (Limb.loads s) 5 = (leNat s / 256 ^ 16 % 256 ^ 4 : Nat) := toInt_load4 s 16
  have e6 : igt (Limb.loads s) 6 = (leNat s / 256 ^ 20 % 256 ^ 3 * 2 ^ 7 : Nat) := toInt_load3_shl s 20 7 7 (by decide) (by decide)
  have e7 : igt (Limb.loads s) 7 = (leNat s / 256 ^ 23 % 256 ^ 3 * 2 ^ 5 : Nat) := toInt_load3_shl s 23 5 5 (by decide) (by decide)
  have e8 : igt (Limb.loads s) 8 = (leNat s / 256 ^ 26 % 256 ^ 3 * 2 ^ 4 : Nat) := toInt_load3_shl s 26 4 4 (by decide) (by decide)
  have e9 : igt (Limb.loads s) 9 = (leNat s / 256 ^ 29 % 256 ^ 3 % 2 ^ 23 * 2 ^ 2 : Nat) := toInt_load_top s
  constructor
  · refine ⟨by decide, by simp [Limb.loads], fun i hi => ?_⟩
    have hb : ∀ n : Nat, ∀ M : Int, (n : Int) ≤ M → |(n : Int)| ≤ M := by
      intro n M h; rw [abs_of_nonneg (by omega)]; exact h
    interval_cases i
    · rw [e0]; apply hb; simp only [loadBox, List.getD_cons_zero, List.getD_cons_succ]; omega
    · rw [e1]; apply hb; simp only [loadBox, List.getD_cons_zero, List.getD_cons_succ]; omega
    · rw [e2]; apply hb; simp only [loadBox, List.getD_cons_zero, List.getD_cons_succ]; omega
    · rw [e3]; apply hb; simp only [loadBox, List.getD_cons_zero, List.getD_cons_succ]; omega
    · rw [e4]; apply hb; simp only [loadBox, List.getD_cons_zero, List.getD_cons_succ]; omega
    · rw [e5]; apply hb; simp only [loadBox, List.getD_cons_zero, List.getD_cons_succ]; omega
    · rw [e6]; apply hb; simp only [loadBox, List.getD_cons_zero, List.getD_cons_succ]; omega
    · rw [e7]; apply hb; simp only [loadBox, List.getD_cons_zero, List.getD_cons_succ]; omega
    · rw [e8]; apply hb; simp only [loadBox, List.getD_cons_zero, List.getD_cons_succ]; omega
    · rw [e9]; apply hb; simp only [loadBox, List.getD_cons_zero, List.getD_cons_succ]; omega
  · rw [val10_eq, e0, e1, e2, e3, e4, e5, e6, e7, e8, e9]
    clear e0 e1 e2 e3 e4 e5 e6 e7 e8 e9
    generalize leNat s = N
    have c1 : N / 256 ^ 7 = N / 256 ^ 4 / 256 ^ 3 := by rw [Nat.div_div_eq_div_mul, ← Nat.pow_add]
    have c2 : N / 256 ^ 10 = N / 256 ^ 7 / 256 ^ 3 := by rw [Nat.div_div_eq_div_mul, ← Nat.pow_add]
    have c3 : N / 256 ^ 13 = N / 256 ^ 10 / 256 ^ 3 := by rw [Nat.div_div_eq_div_mul, ← Nat.pow_add]
    have c4 : N / 256 ^ 16 = N / 256 ^ 13 / 256 ^ 3 := by rw [Nat.div_div_eq_div_mul, ← Nat.pow_add]
    have c5 : N / 256 ^ 20 = N / 256 ^ 16 / 256 ^ 4 := by rw [Nat.div_div_eq_div_mul, ← Nat.pow_add]
    have c6 : N / 256 ^ 23 = N / 256 ^ 20 / 256 ^ 3 := by rw [Nat.div_div_eq_div_mul, ← Nat.pow_add]
    have c7 : N / 256 ^ 26 = N / 256 ^ 23 / 256 ^ 3 := by rw [Nat.div_div_eq_div_mul, ← Nat.pow_add]
    have c8 : N / 256 ^ 29 = N / 256 ^ 26 / 256 ^ 3 := by rw [Nat.div_div_eq_div_mul, ← Nat.pow_add]
    omega

theorem fromBytes_sound (s : Str) :
    Bd 1 (Limb.fromBytes s) ∧ ∃ k : Int, feVal (Limb.fromBytes s) = (leNat s % 2 ^ 255 : Nat) + k * (2 ^ 255 - 19) := by
  obtain ⟨w, e⟩ := loads_sound s
  obtain ⟨b, k, v⟩ := finish_sound Limb.byteCarries w (B' := endBox10 Limb.byteCarries loadBox) (by decide +kernel) (by decide +kernel)
  exact ⟨b, k, by rw [Limb.fromBytes, v, e]⟩

end Verif.Kyber
