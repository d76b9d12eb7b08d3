import Verif.Model.Go

namespace Verif

theorem digitChar_byte : ∀ d < 10, UInt8.ofNat (Nat.digitChar d).toNat = UInt8.ofNat (48 + d) := by decide

theorem itoaNat_lt {n : Nat} (h : n < 10) : itoaNat n = [UInt8.ofNat (48 + n)] := by
  unfold itoaNat
  rw [Nat.toDigits_of_lt_base h]
  simp [digitChar_byte n h]

theorem itoaNat_ge {n : Nat} (h : 10 ≤ n) :
    itoaNat n = itoaNat (n / 10) ++ [UInt8.ofNat (48 + n % 10)] := by
  unfold itoaNat
  rw [Nat.toDigits_of_base_le (by omega) h, List.map_append]
  simp [digitChar_byte _ (Nat.mod_lt n (by omega : 0 < 10))]

/-- The decimal text of `10 n + d`. -/
theorem itoaNat_snoc {n d : Nat} (hn : 0 < n) (hd : d < 10) :
    itoaNat (10 * n + d) = itoaNat n ++ [UInt8.ofNat (48 + d)] := by
  rw [itoaNat_ge (by omega)]
  congr 3 <;> omega

theorem byte_digit (d : Nat) (h : d < 10) : (UInt8.ofNat (48 + d)).toNat = 48 + d := by
  simp; omega

theorem itoaNat_ne_nil (n : Nat) : itoaNat n ≠ [] := by
  unfold itoaNat
  simp [Nat.toDigits_ne_nil]

theorem itoaNat_length_le {n k : Nat} (hk : 0 < k) (h : n < 10 ^ k) : (itoaNat n).length ≤ k := by
  unfold itoaNat
  rw [List.length_map]
  exact (Nat.length_toDigits_le_iff (by omega) hk).mpr h

theorem itoaNat_digits (n : Nat) : ∀ c ∈ itoaNat n, 48 ≤ c.toNat ∧ c.toNat ≤ 57 := by
  induction n using Nat.strongRecOn with
  | ind n ih =>
    by_cases h : n < 10
    · rw [itoaNat_lt h]; intro c hc; simp only [List.mem_singleton] at hc; subst hc
      rw [byte_digit n h]; omega
    · rw [itoaNat_ge (by omega)]
      intro c hc
      rw [List.mem_append] at hc
      rcases hc with hc | hc
      · exact ih (n / 10) (by omega) c hc
      · simp only [List.mem_singleton] at hc; subst hc
        rw [byte_digit _ (by omega)]; omega

theorem digitsVal_append (acc : Nat) (s t : Str) :
    digitsVal acc (s ++ t) = (digitsVal acc s).bind (fun a => digitsVal a t) := by
  induction s generalizing acc with
  | nil => rfl
  | cons c s ih =>
    simp only [List.cons_append, digitsVal]
    split
    · exact ih _
    · rfl

theorem digitsVal_itoaNat (n : Nat) : digitsVal 0 (itoaNat n) = some n := by
  induction n using Nat.strongRecOn with
  | ind n ih =>
    by_cases h : n < 10
    · rw [itoaNat_lt h]
      simp only [digitsVal, byte_digit n h]
      rw [if_pos (by omega)]; congr 1; omega
    · rw [itoaNat_ge (by omega), digitsVal_append, ih (n / 10) (by omega)]
      simp only [Option.bind_some, digitsVal, byte_digit _ (Nat.mod_lt n (by omega : 0 < 10))]
      rw [if_pos (by omega)]; congr 1; omega

theorem digits1_itoaNat (n : Nat) : digits1 (itoaNat n) = some n := by
  unfold digits1
  rw [if_neg (itoaNat_ne_nil n), digitsVal_itoaNat]

theorem itoaNat_injective {n m : Nat} (h : itoaNat n = itoaNat m) : n = m := by
  have := digitsVal_itoaNat n
  rw [h, digitsVal_itoaNat m] at this
  simpa using this.symm

theorem atoi_itoa (n : Int) (h1 : -2 ^ 63 ≤ n) (h2 : n < 2 ^ 63) : atoi (itoa n) = .ok n := by
  unfold atoi itoa
  by_cases hn : n < 0
  · simp only [hn, if_true, digits1_itoaNat, Option.map_some]
    rw [if_pos (by omega)]; congr 1; omega
  · simp only [hn, if_false]
    have hne := itoaNat_ne_nil n.natAbs
    have hd := itoaNat_digits n.natAbs
    have hv := digits1_itoaNat n.natAbs
    cases hs : itoaNat n.natAbs with
    | nil => exact absurd hs hne
    | cons c rest =>
      rw [hs] at hd hv
      have hc := hd c (by simp)
      have h43 : c ≠ 43 := by rintro rfl; revert hc; decide
      have h45 : c ≠ 45 := by rintro rfl; revert hc; decide
      split
      · rename_i v hv'
        split at hv'
        · rename_i heq; simp at heq; exact absurd heq.1 h43
        · rename_i heq; simp at heq; exact absurd heq.1 h45
        · rw [hv] at hv'; simp at hv'
      · rename_i v n' hv'
        split at hv'
        · rename_i heq; simp at heq; exact absurd heq.1 h43
        · rename_i heq; simp at heq; exact absurd heq.1 h45
        · rw [hv] at hv'; simp at hv'
          rw [if_pos (by omega)]; congr 1; omega

theorem itoa_injective {n m : Int} (h : itoa n = itoa m) : n = m := by
  unfold itoa at h
  have key : ∀ a b : Nat, (45 : UInt8) :: itoaNat a ≠ itoaNat b := by
    intro a b e
    have := itoaNat_digits b 45 (by rw [← e]; simp)
    revert this; decide
  split at h <;> split at h
  · simp only [List.cons.injEq, true_and] at h; have := itoaNat_injective h; omega
  · exact absurd h (key _ _)
  · exact absurd h.symm (key _ _)
  · have := itoaNat_injective h; omega

end Verif
