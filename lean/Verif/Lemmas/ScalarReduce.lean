import Mathlib.Algebra.BigOperators.Group.Finset.Basic
import Mathlib.Algebra.BigOperators.Ring.Finset
import Mathlib.Data.Int.ModEq
import Mathlib.Tactic.Ring
import Mathlib.Tactic.LinearCombination
import Mathlib.Tactic.Linarith
import Mathlib.Tactic.IntervalCases
import Verif.Model.Scalar

/-! # The reduction of scalars never overflows and preserves the value

The statements are abstracted to intervals: if the analysis of the intervals succeeds, no `int64` operation wraps
around and the value is unchanged modulo the order. The analysis itself is run by the kernel. -/

namespace Verif.Kyber
open Verif

/-! ## Machine integers -/

theorem bmod64 {x : Int} (h1 : -2 ^ 63 ≤ x) (h2 : x < 2 ^ 63) : x.bmod (2 ^ 64) = x := by
  apply Int.bmod_eq_of_le <;> omega

theorem toInt_shr (x k : Int64) (n : Nat) (hk : k.toBitVec.smod 64 = BitVec.ofNat 64 n) (hn : n < 64) :
    (x >>> k).toInt = x.toInt / 2 ^ n := by
  show (x >>> k).toBitVec.toInt = _
  rw [Int64.toBitVec_shiftRight, hk, BitVec.toInt_sshiftRight']
  have : (BitVec.ofNat 64 n).toNat = n := by simp; omega
  rw [this, Int.shiftRight_eq_div_pow]
  simp

theorem shl_eq_mul (x k : Int64) (n : Nat) (hk : k.toBitVec.smod 64 = BitVec.ofNat 64 n) (hn : n < 64) :
    (x <<< k).toInt = (x.toInt * 2 ^ n).bmod (2 ^ 64) := by
  show (x <<< k).toBitVec.toInt = _
  rw [Int64.toBitVec_shiftLeft, hk, BitVec.shiftLeft_eq', BitVec.shiftLeft_eq_mul_twoPow, BitVec.toInt_mul]
  have : (BitVec.ofNat 64 n).toNat = n := by simp; omega
  rw [this]
  show (x.toInt * _).bmod (2 ^ 64) = _
  have h2 : (BitVec.twoPow 64 n).toInt = ((2 : Int) ^ n).bmod (2 ^ 64) := by
    rw [BitVec.toInt_eq_toNat_bmod, BitVec.toNat_twoPow]
    have := Int.emod_bmod (2 ^ n : Int) (2 ^ 64)
    push_cast at this ⊢
    exact this
  rw [h2]
  simp

theorem toInt_add64 (a b : Int64) (h1 : -2 ^ 63 ≤ a.toInt + b.toInt) (h2 : a.toInt + b.toInt < 2 ^ 63) :
    (a + b).toInt = a.toInt + b.toInt := by
  rw [Int64.toInt_add, bmod64 h1 h2]

theorem toInt_sub64 (a b : Int64) (h1 : -2 ^ 63 ≤ a.toInt - b.toInt) (h2 : a.toInt - b.toInt < 2 ^ 63) :
    (a - b).toInt = a.toInt - b.toInt := by
  rw [Int64.toInt_sub, bmod64 h1 h2]

theorem toInt_mul64 (a b : Int64) (h1 : -2 ^ 63 ≤ a.toInt * b.toInt) (h2 : a.toInt * b.toInt < 2 ^ 63) :
    (a * b).toInt = a.toInt * b.toInt := by
  rw [Int64.toInt_mul, bmod64 h1 h2]

/-! ## Variables and their value -/

/-- The number a variable holds. -/
def igt (s : Limbs) (i : Nat) : Int := (get s i).toInt

theorem length_upd (s : Limbs) (i : Nat) (v : Int64) : (upd s i v).length = s.length := by simp [upd]

theorem igt_upd (s : Limbs) (i j : Nat) (v : Int64) (hi : i < s.length) :
    igt (upd s i v) j = if j = i then v.toInt else igt s j := by
  unfold igt get upd
  by_cases h : j = i
  · subst h; simp [List.getD_eq_getElem?_getD, hi]
  · simp [List.getD_eq_getElem?_getD, h, Ne.symm h, List.getElem?_set_ne]

/-- The number the variables stand for. -/
def value (s : Limbs) : Int := ∑ i ∈ Finset.range 24, igt s i * 2 ^ (21 * i)

theorem value_upd (s : Limbs) (i : Nat) (v : Int64) (hl : s.length = 24) (hi : i < 24) :
    value (upd s i v) = value s + (v.toInt - igt s i) * 2 ^ (21 * i) := by
  unfold value
  have h1 : ∀ j ∈ Finset.range 24, igt (upd s i v) j * 2 ^ (21 * j) =
      igt s j * 2 ^ (21 * j) + (if j = i then (v.toInt - igt s i) * 2 ^ (21 * i) else 0) := by
    intro j _
    rw [igt_upd s i j v (by omega)]
    by_cases h : j = i
    · subst h; simp; ring
    · simp [h]
  rw [Finset.sum_congr rfl h1, Finset.sum_add_distrib, Finset.sum_ite_eq']
  simp [hi]

/-! ## Intervals -/

/-- Bounds for each of the variables. -/
abbrev Iv := List (Int × Int)

/-- The bounds of a variable. -/
def ivGet (g : Iv) (i : Nat) : Int × Int := g.getD i (0, 0)

/-- The variables are within the bounds. -/
def Within (g : Iv) (s : Limbs) : Prop :=
  g.length = 24 ∧ s.length = 24 ∧ ∀ i < 24, (ivGet g i).1 ≤ igt s i ∧ igt s i ≤ (ivGet g i).2

theorem ivGet_set (g : Iv) (i j : Nat) (v : Int × Int) (hi : i < g.length) :
    ivGet (g.set i v) j = if j = i then v else ivGet g j := by
  unfold ivGet
  by_cases h : j = i
  · subst h; simp [List.getD_eq_getElem?_getD, hi]
  · simp [List.getD_eq_getElem?_getD, h, Ne.symm h, List.getElem?_set_ne]

theorem Within.upd {g : Iv} {s : Limbs} (h : Within g s) {i : Nat} (hi : i < 24) {lo hi' : Int} {v : Int64}
    (h1 : lo ≤ v.toInt) (h2 : v.toInt ≤ hi') : Within (g.set i (lo, hi')) (Kyber.upd s i v) := by
  obtain ⟨hg, hs, hb⟩ := h
  refine ⟨by simp [hg], by simp [length_upd, hs], fun j hj => ?_⟩
  rw [ivGet_set _ _ _ _ (by omega), igt_upd _ _ _ _ (by omega)]
  by_cases hji : j = i
  · simp [hji, h1, h2]
  · simp [hji, hb j hj]

/-- The bounds of a sum of two machine integers which does not overflow. -/
def okIv (v : Int × Int) : Bool := decide (-2 ^ 63 < v.1) && decide (v.2 < 2 ^ 63)

theorem okIv_spec {v : Int × Int} (h : okIv v = true) : -2 ^ 63 < v.1 ∧ v.2 < 2 ^ 63 := by
  simpa [okIv] using h

/-- The analysis of a carry, rounded by `h`. -/
def anCarry (h : Int) (i : Nat) (g : Iv) : Option Iv :=
  let a := ivGet g i
  let b := ivGet g (i + 1)
  let c := ((a.1 + h) / 2 ^ 21, (a.2 + h) / 2 ^ 21)
  let b' := (b.1 + c.1, b.2 + c.2)
  if decide (i + 1 < 24) && okIv (a.1 + h - 2 ^ 21, a.2 + h) && okIv b' then
    some ((g.set (i + 1) b').set i (-h, 2 ^ 21 - 1 - h))
  else none

/-- The bounds of a product by a constant. -/
def ivMul (a : Int × Int) (c : Int) : Int × Int := (min (a.1 * c) (a.2 * c), max (a.1 * c) (a.2 * c))

theorem ivMul_spec {a : Int × Int} {x : Int} (c : Int) (h1 : a.1 ≤ x) (h2 : x ≤ a.2) :
    (ivMul a c).1 ≤ x * c ∧ x * c ≤ (ivMul a c).2 := by
  simp only [ivMul]
  rcases le_total 0 c with h | h
  · exact ⟨le_trans (min_le_left _ _) (mul_le_mul_of_nonneg_right h1 h),
      le_trans (mul_le_mul_of_nonneg_right h2 h) (le_max_right _ _)⟩
  · exact ⟨le_trans (min_le_right _ _) (mul_le_mul_of_nonpos_right h2 h),
      le_trans (mul_le_mul_of_nonpos_right h1 h) (le_max_left _ _)⟩

/-- The analysis of `s_d += s_j * c`. -/
def anMac (j d : Nat) (c : Int) (g : Iv) : Option Iv :=
  let m := ivMul (ivGet g j) c
  let b := ivGet g d
  let b' := (b.1 + m.1, b.2 + m.2)
  if decide (d < 24) && decide (j < 24) && okIv m && okIv b' then some (g.set d b') else none

/-- The analysis of a statement. -/
def anStep : Step → Iv → Option Iv
  | .round i, g => anCarry (2 ^ 20) i g
  | .carry i, g => anCarry 0 i g
  | .fold j, g => do
    if j < 12 ∨ 24 ≤ j then none else
    let g ← anMac j (j - 12) 666643 g
    let g ← anMac j (j - 11) 470296 g
    let g ← anMac j (j - 10) 654183 g
    let g ← anMac j (j - 9) (-997805) g
    let g ← anMac j (j - 8) 136657 g
    let g ← anMac j (j - 7) (-683901) g
    return g.set j (0, 0)

/-- A carry, on numbers. -/
theorem carry_sound {g g' : Iv} {s : Limbs} {i : Nat} (h : Int) (x c : Int64) (hh : 0 ≤ h) (hh2 : h ≤ 2 ^ 20)
    (hw : Within g s) (ha : anCarry h i g = some g')
    (hx : -2 ^ 63 ≤ igt s i + h → igt s i + h < 2 ^ 63 → x.toInt = igt s i + h)
    (hc : c = x >>> 21) :
    let s1 := upd s (i + 1) (get s (i + 1) + c)
    let s2 := upd s1 i (get s1 i - c <<< 21)
    Within g' s2 ∧ value s2 = value s := by
  intro s1 s2
  unfold anCarry at ha
  simp only at ha
  split at ha
  · rename_i hok
    simp only [Bool.and_eq_true, decide_eq_true_eq] at hok
    obtain ⟨⟨hi, hok1⟩, hok2⟩ := hok
    obtain ⟨hok1a, hok1b⟩ := okIv_spec hok1
    obtain ⟨hok2a, hok2b⟩ := okIv_spec hok2
    simp only at hok1a hok1b hok2a hok2b
    have hw' := hw
    obtain ⟨hg, hs, hb⟩ := hw'
    obtain ⟨hi1, hi2⟩ := hb i (by omega)
    obtain ⟨hj1, hj2⟩ := hb (i + 1) hi
    have hx' : x.toInt = igt s i + h := hx (by omega) (by omega)
    have hci : c.toInt = (igt s i + h) / 2 ^ 21 := by
      rw [hc, toInt_shr x 21 21 (by decide) (by decide), hx']
    have hc1 : ((ivGet g i).1 + h) / 2 ^ 21 ≤ c.toInt := by rw [hci]; omega
    have hc2 : c.toInt ≤ ((ivGet g i).2 + h) / 2 ^ 21 := by rw [hci]; omega
    have hsum : (get s (i + 1) + c).toInt = igt s (i + 1) + c.toInt := by
      apply toInt_add64
      · show _ ≤ igt s (i + 1) + _; omega
      · show igt s (i + 1) + _ < _; omega
    have hw1 : Within (g.set (i + 1) _) s1 := hw.upd hi (v := get s (i + 1) + c)
      (lo := (ivGet g (i + 1)).1 + ((ivGet g i).1 + h) / 2 ^ 21)
      (hi' := (ivGet g (i + 1)).2 + ((ivGet g i).2 + h) / 2 ^ 21) (by omega) (by omega)
    have hgi : igt s1 i = igt s i := by
      show igt (upd s _ _) i = _
      rw [igt_upd _ _ _ _ (by omega)]; simp
    have hshl : (c <<< (21 : Int64)).toInt = c.toInt * 2 ^ 21 := by
      rw [shl_eq_mul c 21 21 (by decide) (by decide), bmod64 (by omega) (by omega)]
    have hsub : (get s1 i - c <<< 21).toInt = igt s i - c.toInt * 2 ^ 21 := by
      rw [toInt_sub64, hshl]
      · show igt s1 i - _ = _; rw [hgi]
      · rw [hshl]; show _ ≤ igt s1 i - _; rw [hgi]; omega
      · rw [hshl]; show igt s1 i - _ < _; rw [hgi]; omega
    simp only [Option.some.injEq] at ha
    constructor
    · rw [← ha]
      refine hw1.upd (by omega) ?_ ?_
      · rw [hsub]; omega
      · rw [hsub]; omega
    · rw [value_upd s1 i _ (by simp [s1, length_upd, hs]) (by omega), value_upd s (i + 1) _ hs hi, hsum, hsub, hgi]
      have : (2 : Int) ^ (21 * (i + 1)) = 2 ^ 21 * 2 ^ (21 * i) := by rw [← pow_add]; ring_nf
      rw [this]; ring
  · cases ha

/-- `s_d += s_j * c`. -/
theorem mac_sound {g g' : Iv} {s : Limbs} {j d : Nat} {c : Int} (v : Int64) (hjd : j ≠ d)
    (hw : Within g s) (ha : anMac j d c g = some g')
    (hv : -2 ^ 63 < igt s j * c → igt s j * c < 2 ^ 63 → -2 ^ 63 ≤ igt s d + igt s j * c →
      igt s d + igt s j * c < 2 ^ 63 → v.toInt = igt s d + igt s j * c) :
    Within g' (upd s d v) ∧ value (upd s d v) = value s + igt s j * c * 2 ^ (21 * d) ∧
      igt (upd s d v) j = igt s j := by
  unfold anMac at ha
  simp only at ha
  split at ha
  · rename_i hok
    simp only [Bool.and_eq_true, decide_eq_true_eq] at hok
    obtain ⟨⟨⟨hd, hj⟩, hok1⟩, hok2⟩ := hok
    obtain ⟨hok1a, hok1b⟩ := okIv_spec hok1
    obtain ⟨hok2a, hok2b⟩ := okIv_spec hok2
    simp only at hok2a hok2b
    have hw' := hw
    obtain ⟨hg, hs, hb⟩ := hw'
    obtain ⟨hd1, hd2⟩ := hb d hd
    obtain ⟨hj1, hj2⟩ := hb j hj
    obtain ⟨hm1, hm2⟩ := ivMul_spec c hj1 hj2
    have hv' := hv (by omega) (by omega) (by omega) (by omega)
    simp only [Option.some.injEq] at ha
    refine ⟨?_, ?_, ?_⟩
    · rw [← ha]
      exact hw.upd hd (by omega) (by omega)
    · rw [value_upd s d v hs hd, hv']; ring
    · rw [igt_upd _ _ _ _ (by omega)]; simp [hjd]
  · cases ha

theorem order_eq : (2 : Int) ^ 252 - (primeOrder : Int) =
    666643 + 470296 * 2 ^ 21 + 654183 * 2 ^ 42 - 997805 * 2 ^ 63 + 136657 * 2 ^ 84 - 683901 * 2 ^ 105 := by
  decide +kernel

/-- How many times the order a statement takes away. -/
def foldCoef : Step → Limbs → Int
  | .fold j, s => igt s j * 2 ^ (21 * (j - 12))
  | .round _, _ => 0
  | .carry _, _ => 0

/-- One statement: the bounds hold, and the value is the same modulo the order. -/
theorem step_sound {g g' : Iv} {s : Limbs} (st : Step) (hw : Within g s) (ha : anStep st g = some g') :
    Within g' (st.run s) ∧ value (st.run s) = value s - foldCoef st s * primeOrder := by
  cases st with
  | round i =>
    have := carry_sound (2 ^ 20) (get s i + (1 : Int64) <<< 20) _ (by omega) (by omega) hw ha
      (fun h1 h2 => by rw [toInt_add64] <;> first | rfl | exact h1 | exact h2) rfl
    exact ⟨this.1, by rw [foldCoef, zero_mul, sub_zero]; exact this.2⟩
  | carry i =>
    have := carry_sound 0 (get s i) _ (by omega) (by omega) hw ha (fun h1 h2 => by simp [igt]) rfl
    exact ⟨this.1, by rw [foldCoef, zero_mul, sub_zero]; exact this.2⟩
  | fold j =>
    simp only [anStep] at ha
    split at ha
    · cases ha
    rename_i hj
    simp only [Option.bind_eq_bind, Option.bind_eq_some_iff, Option.pure_def, Option.some.injEq] at ha
    obtain ⟨g1, ha1, g2, ha2, g3, ha3, g4, ha4, g5, ha5, g6, ha6, rfl⟩ := ha
    have hadd : ∀ (s : Limbs) (d : Nat) (c : Int64), -2 ^ 63 < igt s j * c.toInt → igt s j * c.toInt < 2 ^ 63 →
        -2 ^ 63 ≤ igt s d + igt s j * c.toInt → igt s d + igt s j * c.toInt < 2 ^ 63 →
        (get s d + get s j * c).toInt = igt s d + igt s j * c.toInt := by
      intro s d c h1 h2 h3 h4
      have hm : (get s j * c).toInt = igt s j * c.toInt := toInt_mul64 _ _ (le_of_lt h1) h2
      rw [toInt_add64, hm] <;> first | rfl | (rw [hm]; assumption)
    have hsub : ∀ (s : Limbs) (d : Nat) (c : Int64) (e : Int), e = -c.toInt → -2 ^ 63 < igt s j * e → igt s j * e < 2 ^ 63 →
        -2 ^ 63 ≤ igt s d + igt s j * e → igt s d + igt s j * e < 2 ^ 63 →
        (get s d - get s j * c).toInt = igt s d + igt s j * e := by
      intro s d c e he h1 h2 h3 h4
      subst he
      have he : igt s j * -c.toInt = -(igt s j * c.toInt) := by ring
      rw [he] at h1 h2 h3 h4 ⊢
      have hm : (get s j * c).toInt = igt s j * c.toInt := toInt_mul64 _ _ (by show _ ≤ igt s j * _; omega) (by show igt s j * _ < _; omega)
      rw [toInt_sub64, hm]
      · show igt s d - _ = _; omega
      · rw [hm]; show _ ≤ igt s d - _; omega
      · rw [hm]; show igt s d - _ < _; omega
    obtain ⟨w1, v1, e1⟩ := mac_sound _ (by omega) hw ha1 (hadd s (j - 12) 666643)
    obtain ⟨w2, v2, e2⟩ := mac_sound _ (by omega) w1 ha2 (hadd _ (j - 11) 470296)
    obtain ⟨w3, v3, e3⟩ := mac_sound _ (by omega) w2 ha3 (hadd _ (j - 10) 654183)
    obtain ⟨w4, v4, e4⟩ := mac_sound _ (by omega) w3 ha4 (hsub _ (j - 9) 997805 (-997805) (by decide))
    obtain ⟨w5, v5, e5⟩ := mac_sound _ (by omega) w4 ha5 (hadd _ (j - 8) 136657)
    obtain ⟨w6, v6, e6⟩ := mac_sound _ (by omega) w5 ha6 (hsub _ (j - 7) 683901 (-683901) (by decide))
    refine ⟨w6.upd (by omega) (by decide) (by decide), ?_⟩
    rw [foldCoef]
    show value (upd _ j 0) = _
    rw [value_upd _ j 0 w6.2.1 (by omega), v6, v5, v4, v3, v2, v1, e6, e5, e4, e3, e2, e1]
    obtain ⟨m, rfl⟩ : ∃ m, j = m + 12 := ⟨j - 12, by omega⟩
    have p1 : m + 12 - 12 = m := by omega
    have p2 : m + 12 - 11 = m + 1 := by omega
    have p3 : m + 12 - 10 = m + 2 := by omega
    have p4 : m + 12 - 9 = m + 3 := by omega
    have p5 : m + 12 - 8 = m + 4 := by omega
    have p6 : m + 12 - 7 = m + 5 := by omega
    rw [p1, p2, p3, p4, p5, p6]
    have q : ∀ k, (2 : Int) ^ (21 * (m + k)) = 2 ^ (21 * m) * 2 ^ (21 * k) := by
      intro k; rw [← pow_add, Nat.mul_add]
    rw [q 1, q 2, q 3, q 4, q 5, q 12]
    have ho := order_eq
    have h0 : (Int64.toInt 0) = 0 := by decide
    rw [h0]
    simp only [Nat.mul_one, Nat.reduceMul] at ho ⊢
    linear_combination (-igt s (m + 12) * 2 ^ (21 * m)) * ho

/-- A list of statements. -/
def anSteps (l : List Step) (g : Iv) : Option Iv := l.foldlM (fun g st => anStep st g) g

theorem steps_sound (l : List Step) {g g' : Iv} {s : Limbs} (hw : Within g s) (ha : anSteps l g = some g') :
    Within g' (runSteps l s) ∧ ∃ k : Int, value (runSteps l s) = value s + k * primeOrder := by
  induction l generalizing g s with
  | nil => simp [anSteps] at ha; subst ha; exact ⟨hw, 0, by simp [runSteps]⟩
  | cons st l ih =>
    simp only [anSteps, List.foldlM_cons, Option.bind_eq_bind, Option.bind_eq_some_iff] at ha
    obtain ⟨g1, h1, h2⟩ := ha
    obtain ⟨w1, e1⟩ := step_sound st hw h1
    obtain ⟨w2, k2, e2⟩ := ih w1 h2
    refine ⟨w2, k2 - foldCoef st s, ?_⟩
    show value (runSteps l (st.run s)) = _
    rw [e2, e1]; ring

/-- What the variables can be before the reduction. -/
def startBox : Iv := List.replicate 12 (-2 ^ 26, 2 ^ 54) ++ List.replicate 11 (0, 2 ^ 54) ++ [(0, 0)]

/-- What they are before the last fold. -/
def nearBox : Iv := List.replicate 12 (0, 2 ^ 21 - 1) ++ [(-1, 0)] ++ List.replicate 11 (0, 0)

/-- What they are at the end. -/
def endBox : Iv := List.replicate 11 (0, 2 ^ 21 - 1) ++ [(-1, 2 ^ 21)] ++ List.replicate 12 (0, 0)

theorem near_analysis : anSteps (firstCarries ++ highFolds ++ middleCarries ++ lowFolds ++ roundedPass ++ exactPass)
    startBox = some nearBox := by decide +kernel

/-- The carries after the last fold. -/
def lastCarries : List Step :=
  [.carry 0, .carry 1, .carry 2, .carry 3, .carry 4, .carry 5, .carry 6, .carry 7, .carry 8, .carry 9, .carry 10]

/-- What the variables are after the last fold. -/
def foldedBox : Iv := (anStep (.fold 12) nearBox).getD []

theorem fold_analysis : anStep (.fold 12) nearBox = some foldedBox := by decide +kernel

theorem last_analysis : anSteps lastCarries foldedBox = some endBox := by decide +kernel

theorem lastPass_eq : lastPass = .fold 12 :: lastCarries := rfl

theorem carries_sound (l : List Step) (hl : ∀ st ∈ l, ∃ i, st = .carry i) {g g' : Iv} {s : Limbs} (hw : Within g s)
    (ha : anSteps l g = some g') : Within g' (runSteps l s) ∧ value (runSteps l s) = value s := by
  induction l generalizing g s with
  | nil => simp [anSteps] at ha; subst ha; exact ⟨hw, by simp [runSteps]⟩
  | cons st l ih =>
    simp only [anSteps, List.foldlM_cons, Option.bind_eq_bind, Option.bind_eq_some_iff] at ha
    obtain ⟨g1, h1, h2⟩ := ha
    obtain ⟨i, rfl⟩ := hl st (by simp)
    obtain ⟨w1, e1⟩ := step_sound _ hw h1
    obtain ⟨w2, e2⟩ := ih (fun st h => hl st (by simp [h])) w1 h2
    refine ⟨w2, ?_⟩
    show value (runSteps l (Step.run _ s)) = _
    rw [e2, e1]; simp [foldCoef]

theorem ivGet_near_low {i : Nat} (h : i < 12) : ivGet nearBox i = (0, 2 ^ 21 - 1) := by
  interval_cases i <;> decide

/-- The first twelve variables are the digits of a number below `2^252`. -/
theorem low_bounds (f : Nat → Int) (n : Nat) (h : ∀ i < n, 0 ≤ f i ∧ f i ≤ 2 ^ 21 - 1) :
    0 ≤ ∑ i ∈ Finset.range n, f i * 2 ^ (21 * i) ∧ ∑ i ∈ Finset.range n, f i * 2 ^ (21 * i) < 2 ^ (21 * n) := by
  induction n with
  | zero => simp
  | succ n ih =>
    obtain ⟨h1, h2⟩ := ih (fun i hi => h i (by omega))
    obtain ⟨h3, h4⟩ := h n (by omega)
    rw [Finset.sum_range_succ]
    have hp : (0 : Int) < 2 ^ (21 * n) := by positivity
    have he : (2 : Int) ^ (21 * (n + 1)) = 2 ^ 21 * 2 ^ (21 * n) := by rw [← pow_add]; ring_nf
    constructor
    · nlinarith
    · rw [he]; nlinarith

theorem value_split (s : Limbs) (n : Nat) (hn : n ≤ 24) (h0 : ∀ i, n ≤ i → i < 24 → igt s i = 0) :
    value s = ∑ i ∈ Finset.range n, igt s i * 2 ^ (21 * i) := by
  unfold value
  symm
  apply Finset.sum_subset (fun i hi => by simp at hi ⊢; omega)
  intro i hi hni
  simp only [Finset.mem_range, not_lt] at hi hni
  simp [h0 i hni hi]

/-- The reduction: nothing overflows, the value becomes the residue, in twelve digits. -/
theorem reduction_sound {s : Limbs} (hw : Within startBox s) :
    let t := runSteps reduction s
    (∀ i < 11, 0 ≤ igt t i ∧ igt t i < 2 ^ 21) ∧ 0 ≤ igt t 11 ∧ igt t 11 ≤ 2 ^ 21 ∧
      ∑ i ∈ Finset.range 12, igt t i * 2 ^ (21 * i) = value s % primeOrder := by
  intro t
  obtain ⟨w1, k, e1⟩ := steps_sound _ hw near_analysis
  generalize hu : runSteps (firstCarries ++ highFolds ++ middleCarries ++ lowFolds ++ roundedPass ++ exactPass) s = u at w1 e1
  have ht : t = runSteps lastPass u := by
    rw [← hu]; simp only [t, reduction, runSteps, List.foldl_append]
  obtain ⟨w2, e2⟩ := step_sound _ w1 fold_analysis
  obtain ⟨w3, e3⟩ := carries_sound lastCarries (by simp [lastCarries]) w2 last_analysis
  have ht' : t = runSteps lastCarries (Step.run (.fold 12) u) := by rw [ht, lastPass_eq, runSteps, List.foldl_cons]; rfl
  rw [← ht'] at w3 e3
  -- the value before the last fold
  have hu12 := w1.2.2 12 (by omega)
  have hlow := low_bounds (igt u) 12 (fun i hi => by
    have := w1.2.2 i (by omega); rw [ivGet_near_low hi] at this; exact this)
  have hval : value u = (∑ i ∈ Finset.range 12, igt u i * 2 ^ (21 * i)) + igt u 12 * 2 ^ 252 := by
    rw [value_split u 13 (by omega) (fun i h1 h2 => ?_), Finset.sum_range_succ]
    have := w1.2.2 i h2
    have hz : ivGet nearBox i = (0, 0) := by interval_cases i <;> decide
    rw [hz] at this
    omega
  have hb12 : ivGet nearBox 12 = (-1, 0) := by decide
  rw [hb12] at hu12
  simp only at hu12
  have ho : (primeOrder : Int) = 2 ^ 252 + 27742317777372353535851937790883648493 := by decide +kernel
  have hfin : value t = (∑ i ∈ Finset.range 12, igt u i * 2 ^ (21 * i)) - igt u 12 * 27742317777372353535851937790883648493 := by
    rw [e3, e2, hval, foldCoef, ho]; ring
  have hrange : 0 ≤ value t ∧ value t < primeOrder := by
    rw [hfin, ho]
    obtain ⟨hl1, hl2⟩ := hlow
    simp only [Nat.reduceMul] at hl1 hl2
    generalize (∑ i ∈ Finset.range 12, igt u i * 2 ^ (21 * i)) = lo at *
    omega
  have hmod : value t = value s % primeOrder := by
    rw [← Int.emod_eq_of_lt hrange.1 hrange.2, e3, e2, e1]
    have : value s + k * (primeOrder : Int) - foldCoef (.fold 12) u * primeOrder =
      value s + primeOrder * (k - foldCoef (.fold 12) u) := by ring
    rw [this, Int.add_mul_emod_self_left]
  have hend : ∀ i < 11, 0 ≤ igt t i ∧ igt t i ≤ 2 ^ 21 - 1 := by
    intro i hi
    have := w3.2.2 i (by omega)
    have hz : ivGet endBox i = (0, 2 ^ 21 - 1) := by interval_cases i <;> decide
    rw [hz] at this; exact this
  have h11 := w3.2.2 11 (by omega)
  have hz11 : ivGet endBox 11 = (-1, 2 ^ 21) := by decide
  rw [hz11] at h11
  have hsplit : value t = ∑ i ∈ Finset.range 12, igt t i * 2 ^ (21 * i) := by
    rw [value_split t 12 (by omega) (fun i h1 h2 => ?_)]
    have := w3.2.2 i h2
    have hz : ivGet endBox i = (0, 0) := by interval_cases i <;> decide
    rw [hz] at this
    omega
  refine ⟨fun i hi => ?_, ?_, h11.2, ?_⟩
  · have := hend i hi; omega
  · have hlow2 := low_bounds (igt t) 11 hend
    rw [hsplit, Finset.sum_range_succ] at hrange
    simp only [Nat.reduceMul] at hlow2 hrange
    generalize (∑ i ∈ Finset.range 11, igt t i * 2 ^ (21 * i)) = lo at *
    omega
  · rw [← hsplit, hmod]

end Verif.Kyber
