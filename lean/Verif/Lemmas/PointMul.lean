import Verif.Model.PointMul
import Verif.Lemmas.ScalarOps
import Mathlib.Algebra.Module.Basic

/-! # What the multiplication of a point computes -/

namespace Verif.Kyber
open Verif

/-- The number digits stand for, lowest first. -/
def digitsVal : List Int8 → Int
  | [] => 0
  | d :: rest => d.toInt + 16 * digitsVal rest

theorem toInt_nybble_low (v : UInt8) : ((v &&& 15).toInt8).toInt = (v.toNat % 16 : Nat) := by
  have h : ∀ n : Fin 256, ((UInt8.ofNat n &&& 15).toInt8).toInt = ((UInt8.ofNat n).toNat % 16 : Nat) := by decide +kernel
  have := h ⟨v.toNat, v.toNat_lt⟩
  simpa using this

theorem toInt_nybble_high (v : UInt8) : (((v >>> 4) &&& 15).toInt8).toInt = (v.toNat / 16 : Nat) := by
  have h : ∀ n : Fin 256, (((UInt8.ofNat n >>> 4) &&& 15).toInt8).toInt = ((UInt8.ofNat n).toNat / 16 : Nat) := by
    decide +kernel
  have := h ⟨v.toNat, v.toNat_lt⟩
  simpa using this

theorem nybbles_val (a : Str) : digitsVal (nybbles a) = leNat a := by
  induction a with
  | nil => rfl
  | cons v a ih =>
    have : nybbles (v :: a) = (v &&& 15).toInt8 :: ((v >>> 4) &&& 15).toInt8 :: nybbles a := rfl
    rw [this, digitsVal, digitsVal, ih, toInt_nybble_low, toInt_nybble_high, leNat]
    push_cast
    omega

theorem nybbles_range (a : Str) : ∀ d ∈ nybbles a, 0 ≤ d.toInt ∧ d.toInt ≤ 15 := by
  intro d hd
  simp only [nybbles, List.mem_flatMap, List.mem_cons, List.not_mem_nil, or_false] at hd
  obtain ⟨v, _, rfl | rfl⟩ := hd
  · rw [toInt_nybble_low]; omega
  · rw [toInt_nybble_high]; have := v.toNat_lt; omega

theorem length_nybbles (a : Str) : (nybbles a).length = 2 * a.length := by
  induction a with
  | nil => rfl
  | cons v a ih =>
    have : nybbles (v :: a) = (v &&& 15).toInt8 :: ((v >>> 4) &&& 15).toInt8 :: nybbles a := rfl
    rw [this]; simp [ih]; omega

/-- All machine integers of 8 bits, checked one by one. -/
theorem carry8 : ∀ x c : Int8, 0 ≤ x.toInt → x.toInt ≤ 15 → 0 ≤ c.toInt → c.toInt ≤ 1 →
    (x + c).toInt = x.toInt + c.toInt ∧
    0 ≤ ((x + c + 8) >>> (4 : Int8)).toInt ∧ ((x + c + 8) >>> (4 : Int8)).toInt ≤ 1 ∧
    ((x + c) - ((x + c + 8) >>> (4 : Int8)) <<< (4 : Int8)).toInt = x.toInt + c.toInt - 16 * ((x + c + 8) >>> (4 : Int8)).toInt ∧
    -8 ≤ ((x + c) - ((x + c + 8) >>> (4 : Int8)) <<< (4 : Int8)).toInt ∧
    ((x + c) - ((x + c + 8) >>> (4 : Int8)) <<< (4 : Int8)).toInt ≤ 7 := by
  intro x c h1 h2 h3 h4
  obtain ⟨n, hn⟩ : ∃ n : Nat, n < 16 ∧ x = Int8.ofNat n := ⟨x.toInt.toNat, by omega, by
    apply Int8.toInt_inj.1
    rw [Int8.toInt_ofNat_of_lt (by omega)]; omega⟩
  obtain ⟨m, hm⟩ : ∃ n : Nat, n < 2 ∧ c = Int8.ofNat n := ⟨c.toInt.toNat, by omega, by
    apply Int8.toInt_inj.1
    rw [Int8.toInt_ofNat_of_lt (by omega)]; omega⟩
  obtain ⟨hn, rfl⟩ := hn
  obtain ⟨hm, rfl⟩ := hm
  clear h1 h2 h3 h4
  have key : ∀ (n : Fin 16) (m : Fin 2), (Int8.ofNat n + Int8.ofNat m).toInt = (Int8.ofNat n).toInt + (Int8.ofNat m).toInt ∧
    0 ≤ ((Int8.ofNat n + Int8.ofNat m + 8) >>> (4 : Int8)).toInt ∧
    ((Int8.ofNat n + Int8.ofNat m + 8) >>> (4 : Int8)).toInt ≤ 1 ∧
    ((Int8.ofNat n + Int8.ofNat m) - ((Int8.ofNat n + Int8.ofNat m + 8) >>> (4 : Int8)) <<< (4 : Int8)).toInt =
      (Int8.ofNat n).toInt + (Int8.ofNat m).toInt - 16 * ((Int8.ofNat n + Int8.ofNat m + 8) >>> (4 : Int8)).toInt ∧
    -8 ≤ ((Int8.ofNat n + Int8.ofNat m) - ((Int8.ofNat n + Int8.ofNat m + 8) >>> (4 : Int8)) <<< (4 : Int8)).toInt ∧
    ((Int8.ofNat n + Int8.ofNat m) - ((Int8.ofNat n + Int8.ofNat m + 8) >>> (4 : Int8)) <<< (4 : Int8)).toInt ≤ 7 := by
    decide +kernel
  exact key ⟨n, hn⟩ ⟨m, hm⟩

/-- The digits: all but the last between -8 and 7, the last between 0 and 16, for the same number. -/
theorem recode_spec (l : List Int8) (hl : l ≠ []) : ∀ c : Int8, (∀ d ∈ l, 0 ≤ d.toInt ∧ d.toInt ≤ 15) →
    0 ≤ c.toInt → c.toInt ≤ 1 →
    ∃ low top, recode c l = low ++ [top] ∧ low.length + 1 = l.length ∧ (∀ d ∈ low, -8 ≤ d.toInt ∧ d.toInt ≤ 7) ∧
      0 ≤ top.toInt ∧ top.toInt ≤ 16 ∧ digitsVal (low ++ [top]) = digitsVal l + c.toInt := by
  induction l with
  | nil => exact absurd rfl hl
  | cons x rest ih =>
    intro c hr h1 h2
    obtain ⟨hx1, hx2⟩ := hr x (by simp)
    obtain ⟨e1, e2, e3, e4, e5, e6⟩ := carry8 x c hx1 hx2 h1 h2
    cases rest with
    | nil =>
      refine ⟨[], x + c, rfl, rfl, by simp, by omega, by omega, ?_⟩
      simp [digitsVal, e1]
    | cons y rest =>
      obtain ⟨low, top, r1, r2, r3, r4, r5, r6⟩ := ih (by simp) ((x + c + 8) >>> 4) (fun d hd => hr d (by simp [hd])) e2 e3
      have hrec : recode c (x :: y :: rest) = (x + c - ((x + c + 8) >>> 4) <<< 4) :: low ++ [top] := by
        rw [recode, r1]
        · rfl
        · simp
      refine ⟨_, top, hrec, by simp at r2 ⊢; omega, ?_, r4, r5, ?_⟩
      · intro d hd
        simp only [List.mem_cons] at hd
        rcases hd with rfl | hd
        · exact ⟨e5, e6⟩
        · exact r3 d hd
      · rw [List.cons_append, digitsVal, r6, e4, digitsVal.eq_2 x]; ring

variable {P : Type} [AddCommGroup P]

theorem cachedMultiple_eq (A : P) (i : Nat) : cachedMultiple A i = (i + 1) • A := by
  induction i with
  | zero => simp [cachedMultiple]
  | succ i ih => rw [cachedMultiple, ih, succ_nsmul (n := i + 1), add_comm]

/-- What `selectCached` takes: nothing at all above 8. -/
def taken (d : Int) : Int := if d ≤ 8 then d else 0

theorem select_spec (A : P) (d : Int8) (h1 : -8 ≤ d.toInt) (h2 : d.toInt ≤ 16) :
    selectCached A d.toInt32 = taken d.toInt • A := by
  obtain ⟨n, hn⟩ : ∃ n : Int, d = Int8.ofInt n ∧ -8 ≤ n ∧ n ≤ 16 := ⟨d.toInt, by simp, h1, h2⟩
  obtain ⟨rfl, hn1, hn2⟩ := hn
  have hd : (Int8.ofInt n).toInt = n := Int8.toInt_ofInt_of_le (by omega) (by omega)
  rw [hd]
  have key : ∀ m : Fin 25, negative32 (Int8.ofInt ((m : Int) - 8)).toInt32 = (if (m : Int) - 8 < 0 then 1 else 0) ∧
      ∀ i : Fin 8, (equal32 ((Int8.ofInt ((m : Int) - 8)).toInt32 -
        (((-negative32 (Int8.ofInt ((m : Int) - 8)).toInt32) &&& (Int8.ofInt ((m : Int) - 8)).toInt32) <<< (1 : Int32)))
        (Int32.ofNat (i + 1)) = 1) = (((m : Int) - 8).natAbs = (i : Nat) + 1) := by
    decide +kernel
  obtain ⟨m, hm⟩ : ∃ m : Fin 25, n = (m : Int) - 8 := ⟨⟨(n + 8).toNat, by omega⟩, by simp; omega⟩
  obtain ⟨k1, k2⟩ := key m
  rw [← hm] at k1 k2
  unfold selectCached
  have k2' : ∀ i, i < 8 → (equal32 ((Int8.ofInt n).toInt32 -
        (((-negative32 (Int8.ofInt n).toInt32) &&& (Int8.ofInt n).toInt32) <<< (1 : Int32)))
        (Int32.ofNat (i + 1)) = 1) = (n.natAbs = i + 1) := fun i hi => k2 ⟨i, hi⟩
  have hr : List.range 8 = [0, 1, 2, 3, 4, 5, 6, 7] := rfl
  simp only [hr, List.foldl_cons, List.foldl_nil,
    k2' 0 (by omega), k2' 1 (by omega), k2' 2 (by omega), k2' 3 (by omega), k2' 4 (by omega), k2' 5 (by omega),
    k2' 6 (by omega), k2' 7 (by omega), cachedMultiple_eq, k1, taken]
  clear k1 k2 k2' key hm hd h1 h2
  interval_cases n <;> simp <;> norm_cast

theorem multStep_eq (A t : P) (d : Int8) (h1 : -8 ≤ d.toInt) (h2 : d.toInt ≤ 7) (n : Int) (ht : t = n • A) :
    multStep A t d = (d.toInt + 16 * n) • A := by
  unfold multStep
  simp only
  rw [select_spec A d h1 (by omega), taken, if_pos (by omega), ht, ← add_zsmul, ← add_zsmul, ← add_zsmul, ← add_zsmul,
    ← add_zsmul]
  congr 1
  ring

theorem loop_eq (A : P) (low : List Int8) (hl : ∀ d ∈ low, -8 ≤ d.toInt ∧ d.toInt ≤ 7) (n : Int) :
    low.reverse.foldl (multStep A) (n • A) = (digitsVal low + 16 ^ low.length * n) • A := by
  induction low with
  | nil => simp [digitsVal]
  | cons d low ih =>
    rw [List.reverse_cons, List.foldl_append, ih (fun x hx => hl x (by simp [hx]))]
    have := hl d (by simp)
    rw [List.foldl_cons, List.foldl_nil, multStep_eq A _ d this.1 this.2 _ rfl, digitsVal, List.length_cons, pow_succ]
    congr 1
    ring

theorem digitsVal_append (low : List Int8) (top : Int8) :
    digitsVal (low ++ [top]) = digitsVal low + 16 ^ low.length * top.toInt := by
  induction low with
  | nil => simp [digitsVal]
  | cons d low ih => rw [List.cons_append, digitsVal, ih, digitsVal, List.length_cons, pow_succ]; ring

theorem digitsVal_bound (low : List Int8) (hl : ∀ d ∈ low, -8 ≤ d.toInt ∧ d.toInt ≤ 7) :
    -8 * (16 ^ low.length - 1) ≤ 15 * digitsVal low ∧ 15 * digitsVal low ≤ 7 * (16 ^ low.length - 1) := by
  induction low with
  | nil => simp [digitsVal]
  | cons d low ih =>
    have h1 := ih (fun x hx => hl x (by simp [hx]))
    have h2 := hl d (by simp)
    rw [digitsVal, List.length_cons, pow_succ]
    constructor <;> linarith [h1.1, h1.2, h2.1, h2.2]

/-- Where the last digit becomes larger than 8. -/
def mulLimit : Nat := 8 * 16 ^ 63 + 7 * ((16 ^ 63 - 1) / 15)

/-- The multiplication by any 32 bytes: by their number, as long as it is not above the limit; above it by a number
which differs from it by 9 to 16 times `16^63`. -/
theorem pointMul_spec (a : Str) (ha : a.length = 32) :
    ∃ top : Int, 0 ≤ top ∧ top ≤ 16 ∧ (top ≤ 8 ↔ leNat a ≤ mulLimit) ∧
      ∀ A : P, pointMul a A = ((leNat a : Int) - (if leNat a ≤ mulLimit then 0 else 16 ^ 63 * top)) • A := by
  have hn : nybbles a ≠ [] := by
    intro h; have := length_nybbles a; rw [h, ha] at this; simp at this
  obtain ⟨low, top, r1, r2, r3, r4, r5, r6⟩ := recode_spec (nybbles a) hn 0 (nybbles_range a) (by decide) (by decide)
  rw [length_nybbles, ha] at r2
  have hlow : low.length = 63 := by omega
  rw [nybbles_val] at r6
  have h0 : Int8.toInt 0 = 0 := by decide
  rw [h0, add_zero, digitsVal_append, hlow] at r6
  have hb := digitsVal_bound low r3
  rw [hlow] at hb
  have hiff : top.toInt ≤ 8 ↔ leNat a ≤ mulLimit := by
    have hm : mulLimit = 61273313888079820078306312900430684572355366885568131804212971537520697767799 := by decide +kernel
    rw [hm]
    omega
  refine ⟨top.toInt, r4, r5, hiff, fun A => ?_⟩
  unfold pointMul digits
  rw [r1, List.reverse_append, List.reverse_singleton, List.singleton_append]
  simp only
  rw [select_spec A top (by omega) r5, zero_add, loop_eq A low r3, hlow]
  congr 1
  unfold taken
  by_cases h : leNat a ≤ mulLimit
  · rw [if_pos (hiff.2 h), if_pos h, ← r6]; ring
  · rw [if_neg (fun h' => h (hiff.1 h')), if_neg h, ← r6]; ring

theorem pointMul_le (a : Str) (ha : a.length = 32) (h : leNat a ≤ mulLimit) (A : P) : pointMul a A = leNat a • A := by
  obtain ⟨top, _, _, _, h4⟩ := pointMul_spec (P := P) a ha
  rw [h4 A, if_pos h, sub_zero, natCast_zsmul]

end Verif.Kyber
