import Verif.Spec.Edwards
import Verif.Lemmas.PointMul

/-! # The formulas of the library compute the addition of the curve -/

namespace Verif.Kyber
open Verif

/-- What the intermediate coordinates of an addition stand for: `x = X/Z`, `y = Y/T`. -/
structure RepC (c : Completed) (P : EdP) : Prop where
  Z : c.Z ≠ 0
  T : c.T ≠ 0
  X : c.X = P.x * c.Z
  Y : c.Y = P.y * c.T

/-- What the projective coordinates stand for. -/
structure RepP (c : Projective) (P : EdP) : Prop where
  Z : c.Z ≠ 0
  X : c.X = P.x * c.Z
  Y : c.Y = P.y * c.Z

/-- What the prepared coordinates stand for. -/
structure RepK (c : Cached) (P : EdP) : Prop where
  Z : c.Z ≠ 0
  plus : c.yPlusX = (P.y + P.x) * c.Z
  minus : c.yMinusX = (P.y - P.x) * c.Z
  T : c.T2d = 2 * edD * (P.x * P.y) * c.Z

theorem fe_two : (2 : Fe) ≠ 0 := EdComplete.two (d := edD)

theorem ed_add_x (P Q : EdP) : (P + Q).x * (1 + edD * P.x * Q.x * P.y * Q.y) = P.x * Q.y + Q.x * P.y := EdPoint.add_x P Q
theorem ed_add_y (P Q : EdP) : (P + Q).y * (1 - edD * P.x * Q.x * P.y * Q.y) = P.y * Q.y + P.x * Q.x := EdPoint.add_y P Q
theorem ed_neg_x (P : EdP) : (-P).x = -P.x := rfl
theorem ed_neg_y (P : EdP) : (-P).y = P.y := rfl
theorem ed_zero_x : (0 : EdP).x = 0 := rfl
theorem ed_zero_y : (0 : EdP).y = 1 := rfl

theorem RepC.toExtended {c : Completed} {P : EdP} (h : RepC c P) : Rep c.toExtended P where
  Z := mul_ne_zero h.Z h.T
  X := by simp only [Completed.toExtended]; rw [h.X]; ring
  Y := by simp only [Completed.toExtended]; rw [h.Y]; ring
  T := by simp only [Completed.toExtended]; rw [h.X, h.Y]; ring

theorem RepC.toProjective {c : Completed} {P : EdP} (h : RepC c P) : RepP c.toProjective P where
  Z := mul_ne_zero h.Z h.T
  X := by simp only [Completed.toProjective]; rw [h.X]; ring
  Y := by simp only [Completed.toProjective]; rw [h.Y]; ring

theorem Rep.toCached {e : Extended} {P : EdP} (h : Rep e P) : RepK e.toCached P where
  Z := h.Z
  plus := by simp only [Extended.toCached]; rw [h.X, h.Y]; ring
  minus := by simp only [Extended.toCached]; rw [h.X, h.Y]; ring
  T := by simp only [Extended.toCached]; rw [h.T, edD2_eq]; ring

theorem RepK.zero : RepK Cached.zero 0 where
  Z := one_ne_zero
  plus := by simp [Cached.zero, ed_zero_x, ed_zero_y]
  minus := by simp [Cached.zero, ed_zero_x, ed_zero_y]
  T := by simp [Cached.zero, ed_zero_x]

theorem RepK.neg {c : Cached} {P : EdP} (h : RepK c P) : RepK c.neg (-P) where
  Z := h.Z
  plus := by simp only [Cached.neg, ed_neg_x, ed_neg_y]; rw [h.minus]; ring
  minus := by simp only [Cached.neg, ed_neg_x, ed_neg_y]; rw [h.plus]; ring
  T := by simp only [Cached.neg, ed_neg_x, ed_neg_y]; rw [h.T]; ring

theorem Rep.zero : Rep Extended.zero 0 where
  Z := one_ne_zero
  X := by simp [Extended.zero, ed_zero_x]
  Y := by simp [Extended.zero, ed_zero_y]
  T := by simp [Extended.zero, ed_zero_x]

theorem Rep.neg {e : Extended} {P : EdP} (h : Rep e P) : Rep e.neg (-P) where
  Z := h.Z
  X := by simp only [Extended.neg, ed_neg_x]; rw [h.X]; ring
  Y := by simp only [Extended.neg, ed_neg_y]; rw [h.Y]
  T := by simp only [Extended.neg, ed_neg_x, ed_neg_y]; rw [h.T]; ring

theorem RepC.add {e : Extended} {c : Cached} {P Q : EdP} (h : Rep e P) (k : RepK c Q) : RepC (Completed.add e c) (P + Q) := by
  have hp := ed_plus P Q
  have hm := ed_minus P Q
  have zz : 2 * (e.Z * c.Z) ≠ 0 := mul_ne_zero fe_two (mul_ne_zero h.Z k.Z)
  have eZ : (Completed.add e c).Z = (1 + edD * P.x * Q.x * P.y * Q.y) * (2 * (e.Z * c.Z)) := by
    simp only [Completed.add]; rw [k.T, h.T]; ring
  have eT : (Completed.add e c).T = (1 - edD * P.x * Q.x * P.y * Q.y) * (2 * (e.Z * c.Z)) := by
    simp only [Completed.add]; rw [k.T, h.T]; ring
  have eX : (Completed.add e c).X = (P.x * Q.y + Q.x * P.y) * (2 * (e.Z * c.Z)) := by
    simp only [Completed.add]; rw [k.plus, k.minus, h.X, h.Y]; ring
  have eY : (Completed.add e c).Y = (P.y * Q.y + P.x * Q.x) * (2 * (e.Z * c.Z)) := by
    simp only [Completed.add]; rw [k.plus, k.minus, h.X, h.Y]; ring
  exact ⟨by rw [eZ]; exact mul_ne_zero hp zz, by rw [eT]; exact mul_ne_zero hm zz,
    by rw [eX, eZ, ← ed_add_x]; ring, by rw [eY, eT, ← ed_add_y]; ring⟩

theorem RepC.sub {e : Extended} {c : Cached} {P Q : EdP} (h : Rep e P) (k : RepK c Q) : RepC (Completed.sub e c) (P - Q) := by
  have e1 : Completed.sub e c = Completed.add e c.neg := by
    simp only [Completed.sub, Completed.add, Cached.neg]
    congr 1 <;> ring
  rw [e1, sub_eq_add_neg]
  exact RepC.add h k.neg

theorem RepC.double {p : Projective} {P : EdP} (h : RepP p P) : RepC p.double (P + P) := by
  have hp := ed_plus P P
  have hm := ed_minus P P
  have zz : p.Z * p.Z ≠ 0 := mul_ne_zero h.Z h.Z
  have on := P.on
  have eZ : p.double.Z = (1 + edD * P.x * P.x * P.y * P.y) * (p.Z * p.Z) := by
    simp only [Projective.double]; rw [h.X, h.Y]; linear_combination p.Z ^ 2 * on
  have eT : p.double.T = (1 - edD * P.x * P.x * P.y * P.y) * (p.Z * p.Z) := by
    simp only [Projective.double]; rw [h.X, h.Y]; linear_combination -p.Z ^ 2 * on
  have eX : p.double.X = (P.x * P.y + P.x * P.y) * (p.Z * p.Z) := by
    simp only [Projective.double]; rw [h.X, h.Y]; ring
  have eY : p.double.Y = (P.y * P.y + P.x * P.x) * (p.Z * p.Z) := by
    simp only [Projective.double]; rw [h.X, h.Y]; ring
  exact ⟨by rw [eZ]; exact mul_ne_zero hp zz, by rw [eT]; exact mul_ne_zero hm zz,
    by rw [eX, eZ, ← ed_add_x]; ring, by rw [eY, eT, ← ed_add_y]; ring⟩

theorem Rep.add {e f : Extended} {P Q : EdP} (h : Rep e P) (k : Rep f Q) : Rep (e.add f) (P + Q) := (RepC.add h k.toCached).toExtended
theorem Rep.sub {e f : Extended} {P Q : EdP} (h : Rep e P) (k : Rep f Q) : Rep (e.sub f) (P - Q) := (RepC.sub h k.toCached).toExtended

theorem RepK.table {e : Extended} {P : EdP} (h : Rep e P) : ∀ i, RepK (cachedTable e i) (cachedMultiple P i)
  | 0 => h.toCached
  | i + 1 => (RepC.add h (RepK.table h i)).toExtended.toCached

theorem RepK.select {e : Extended} {P : EdP} (h : Rep e P) (b : Int32) : RepK (selectTable e b) (selectCached P b) := by
  have hf : ∀ (x : Int32) (l : List Nat) (c : Cached) (Q : EdP), RepK c Q →
      RepK (l.foldl (fun c i => if equal32 x (Int32.ofNat (i + 1)) = 1 then cachedTable e i else c) c)
        (l.foldl (fun c i => if equal32 x (Int32.ofNat (i + 1)) = 1 then cachedMultiple P i else c) Q) := by
    intro x l
    induction l with
    | nil => intro c Q hc; exact hc
    | cons i l ih =>
      intro c Q hc
      simp only [List.foldl_cons]
      apply ih
      split
      · exact RepK.table h i
      · exact hc
  simp only [selectTable, selectCached]
  split
  · exact (hf _ _ _ _ RepK.zero).neg
  · exact hf _ _ _ _ RepK.zero

theorem RepC.turn {e : Extended} {P : EdP} (h : Rep e P) {t : Completed} {T : EdP} (ht : RepC t T) (d : Int8) :
    RepC (multTurn e t d) (multStep P T d) := by
  simp only [multTurn, multStep]
  exact RepC.add (RepC.double (RepC.double (RepC.double (RepC.double ht.toProjective).toProjective).toProjective).toProjective).toExtended
    (RepK.select h _)

/-- Multiplication in coordinates is the multiplication of `Model/PointMul` in the group of the curve. -/
theorem Rep.mul {e : Extended} {P : EdP} (h : Rep e P) (a : Str) : Rep (Extended.mul a e) (pointMul a P) := by
  have hf : ∀ (l : List Int8) (t : Completed) (T : EdP), RepC t T → RepC (l.foldl (multTurn e) t) (l.foldl (multStep P) T) := by
    intro l
    induction l with
    | nil => intro t T ht; exact ht
    | cons d l ih => intro t T ht; exact ih _ _ (ht.turn h d)
  unfold Extended.mul pointMul
  cases (digits a).reverse with
  | nil => exact Rep.zero
  | cons top rest => exact (hf _ _ _ (RepC.add Rep.zero (RepK.select h _))).toExtended

/-! ## Powers -/

theorem sqN_eq (n : Nat) : ∀ z, sqN n z = z ^ (2 ^ n) := by
  induction n with
  | zero => intro z; simp [sqN]
  | succ n ih => intro z; rw [sqN, ih, ← pow_two, ← pow_mul, pow_succ']

theorem feInvert_pow (z : Fe) : feInvert z = z ^ (fieldPrime - 2) := by
  simp only [feInvert, sqN_eq]
  simp only [← pow_two, ← pow_mul, ← pow_succ, ← pow_succ', ← pow_add]
  rfl

theorem fePow22523_pow (z : Fe) : fePow22523 z = z ^ ((fieldPrime - 5) / 8) := by
  simp only [fePow22523, sqN_eq]
  simp only [← pow_two, ← pow_mul, ← pow_succ, ← pow_succ', ← pow_add]
  rfl

theorem fe_fermat {z : Fe} (h : z ≠ 0) : z ^ (fieldPrime - 1) = 1 := ZMod.pow_card_sub_one_eq_one h

theorem feInvert_mul {z : Fe} (h : z ≠ 0) : z * feInvert z = 1 := by
  rw [feInvert_pow, ← pow_succ', show fieldPrime - 2 + 1 = fieldPrime - 1 by decide +kernel, fe_fermat h]

theorem feInvert_zero : feInvert 0 = 0 := by
  rw [feInvert_pow, zero_pow (by decide +kernel)]

/-! ## The square root -/

/-- The denominator of the square of `x` is never zero. -/
theorem ed_denom (y : Fe) : edD * y ^ 2 + 1 ≠ 0 := by
  intro h
  have hy : y ≠ 0 := by rintro rfl; simp at h
  apply edD_nonsquare (edSqrtM1 / y)
  rw [div_pow, edSqrtM1_sq, div_eq_iff (pow_ne_zero 2 hy)]
  linear_combination -h

theorem fe_square_cases {a b : Fe} (h : a ^ 2 = b ^ 2) : a = b ∨ a = -b := sq_eq_sq_iff_eq_or_eq_neg.1 h

/-- The candidate of the decoder: its square, times `v`, is `u` times a fourth root of one. -/
theorem ed_candidate (u v : Fe) : fePow22523 (v * v * v * (v * v * v) * v * u) * (v * v * v) * u *
    (fePow22523 (v * v * v * (v * v * v) * v * u) * (v * v * v) * u) * v = u * (v ^ 7 * u) ^ ((fieldPrime - 1) / 4) := by
  have e : v * v * v * (v * v * v) * v * u = v ^ 7 * u := by ring
  rw [e, fePow22523_pow, show (fieldPrime - 1) / 4 = 2 * ((fieldPrime - 5) / 8) + 1 by decide +kernel]
  generalize v ^ 7 * u = w at *
  generalize (fieldPrime - 5) / 8 = k
  have : w = v * v * v * (v * v * v) * v * u := e.symm
  rw [pow_succ, pow_mul', pow_two]
  linear_combination (u * (w ^ k * w ^ k)) * e

/-- If `v x² = u` for some `x`, the root of one is `1` or `-1`. -/
theorem ed_root_square {u v x : Fe} (hv : v ≠ 0) (h : v * x ^ 2 = u) (hu : u ≠ 0) :
    (v ^ 7 * u) ^ ((fieldPrime - 1) / 4) = 1 ∨ (v ^ 7 * u) ^ ((fieldPrime - 1) / 4) = -1 := by
  have hx : x ≠ 0 := by rintro rfl; simp at h; exact hu h.symm
  have e : v ^ 7 * u = (v ^ 4 * x) ^ 2 := by rw [← h]; ring
  apply fe_square_cases
  rw [one_pow, e, ← pow_mul, ← pow_mul, show 2 * ((fieldPrime - 1) / 4 * 2) = fieldPrime - 1 by decide +kernel]
  exact fe_fermat (mul_ne_zero (pow_ne_zero 4 hv) hx)

/-! ## Bytes -/

theorem fieldPrime_lt : fieldPrime < 2 ^ 255 := by decide +kernel
theorem fe_val_lt (z : Fe) : z.val < fieldPrime := ZMod.val_lt z

theorem feIsNegative_val (z : Fe) : (feIsNegative z).toNat = z.val % 2 := by
  have h := byte_eq (feToBytes z) 0
  unfold feIsNegative
  rw [UInt8.toNat_and, h, feToBytes, leNat_leBytes]
  have := fe_val_lt z
  have := fieldPrime_lt
  rw [Nat.mod_eq_of_lt (show z.val < 256 ^ 32 by omega)]
  show (z.val / 256 ^ 0 % 256) &&& 1 = _
  rw [Nat.and_one_is_mod]
  omega

theorem fe_neg_val {z : Fe} (h : z ≠ 0) : (-z).val % 2 = 1 - z.val % 2 := by
  have h1 := ZMod.neg_val z
  rw [if_neg h] at h1
  rw [h1]
  have := fe_val_lt z
  have : fieldPrime % 2 = 1 := by decide +kernel
  omega

theorem topBit_val {s : Str} (h : s.length = 32) : (s.getD 31 0 >>> 7).toNat = leNat s / 2 ^ 255 := by
  have h1 := byte_eq s 31
  have h2 := leNat_lt s
  rw [h] at h2
  rw [UInt8.toNat_shiftRight, h1]
  show (leNat s / 256 ^ 31 % 256) >>> 7 = _
  rw [Nat.shiftRight_eq_div_pow]
  omega

theorem Rep.recip {e : Extended} {P : EdP} (h : Rep e P) : e.X * feInvert e.Z = P.x ∧ e.Y * feInvert e.Z = P.y := by
  have := feInvert_mul h.Z
  rw [h.X, h.Y]
  exact ⟨by linear_combination P.x * this, by linear_combination P.y * this⟩

theorem leBytes_append (n m x : Nat) : leBytes (n + m) x = leBytes n x ++ leBytes m (x / 256 ^ n) := by
  induction n generalizing x with
  | zero => simp [leBytes]
  | succ n ih =>
    rw [show n + 1 + m = (n + m) + 1 by omega]
    simp only [leBytes, List.cons_append]
    rw [ih, Nat.div_div_eq_div_mul, pow_succ']

theorem leBytes_congr (n : Nat) {x y : Nat} (h : x % 256 ^ n = y % 256 ^ n) : leBytes n x = leBytes n y := by
  apply leNat_inj
  · rw [length_leBytes, length_leBytes]
  · rw [leNat_leBytes, leNat_leBytes, h]

theorem set_top (y : Nat) (b : UInt8) (hy : y < 2 ^ 255) (hb : b.toNat < 2) :
    (leBytes 32 y).set 31 ((leBytes 32 y).getD 31 0 ^^^ (b <<< 7)) = leBytes 32 (y + 2 ^ 255 * b.toNat) := by
  have h31 : (leBytes 31 y).length = 31 := length_leBytes _ _
  have e1 : leBytes 32 y = leBytes 31 y ++ [UInt8.ofNat (y / 256 ^ 31)] := by
    rw [show (32 : Nat) = 31 + 1 from rfl, leBytes_append]; rfl
  have e2 : leBytes 32 (y + 2 ^ 255 * b.toNat) = leBytes 31 y ++ [UInt8.ofNat (y / 256 ^ 31 + 128 * b.toNat)] := by
    rw [show (32 : Nat) = 31 + 1 from rfl, leBytes_append, leBytes_congr 31 (x := y + 2 ^ 255 * b.toNat) (y := y) (by omega),
      show (y + 2 ^ 255 * b.toNat) / 256 ^ 31 = y / 256 ^ 31 + 128 * b.toNat by omega]
    rfl
  have hg : (leBytes 32 y).getD 31 0 = UInt8.ofNat (y / 256 ^ 31) := by
    rw [e1, List.getD_eq_getElem?_getD, List.getElem?_append_right (by omega), h31]; rfl
  rw [hg, e1, e2, List.set_append_right _ _ (by omega), h31]
  congr 1
  show [_] = _
  congr 1
  have hy' : y / 256 ^ 31 < 128 := by omega
  generalize y / 256 ^ 31 = t at *
  have key : ∀ (t : Fin 128) (b : Fin 2), UInt8.ofNat t ^^^ (UInt8.ofNat b <<< 7) = UInt8.ofNat (t + 128 * b) := by decide +kernel
  have := key ⟨t, hy'⟩ ⟨b.toNat, hb⟩
  simpa using this

/-- Marshalling gives the text form of the point, whatever the coordinates. -/
theorem Rep.toBytes {e : Extended} {P : EdP} (h : Rep e P) : e.toBytes = encodePoint P := by
  unfold Extended.toBytes encodePoint
  dsimp only
  rw [h.recip.1, h.recip.2]
  have h1 := feIsNegative_val P.x
  have := fe_val_lt P.y
  have := fieldPrime_lt
  have h2 := set_top P.y.val (feIsNegative P.x) (by omega) (by omega)
  rw [h1] at h2
  exact h2

/-! ## Reading bytes -/

/-- The point of the curve with a given `y` and a given square of `x`. -/
theorem ed_on_iff (x y : Fe) : -x ^ 2 + y ^ 2 = 1 + edD * x ^ 2 * y ^ 2 ↔ (y * y * edD + 1) * x ^ 2 = y * y - 1 := by
  constructor
  · intro h; linear_combination -h
  · intro h; linear_combination -h

/-- The root which the decoder finds, before the sign is set. -/
def edRoot (Y : Fe) : Out Fe :=
  let u := Y * Y
  let v := u * edD
  let u := u - 1
  let v := v + 1
  let v3 := v * v * v
  let X := v3 * v3 * v * u
  let X := fePow22523 X * v3 * u
  let vxx := X * X * v
  if vxx - u ≠ 0 then
    if vxx + u ≠ 0 then .err else .ok (X * edSqrtM1)
  else .ok X

theorem fromBytes_eq (s : Str) : Extended.fromBytes s = if s.length ≠ 32 then .err else
    edRoot (feFromBytes s) >>= fun X =>
      .ok (let X := if feIsNegative X ≠ s.getD 31 0 >>> 7 then -X else X; ⟨X, feFromBytes s, 1, X * feFromBytes s⟩) := by
  unfold Extended.fromBytes edRoot
  split
  · rfl
  · dsimp only
    split
    · split
      · rfl
      · rfl
    · rfl

theorem edRoot_spec (Y : Fe) : (∃ x, edRoot Y = .ok x ∧ -x ^ 2 + Y ^ 2 = 1 + edD * x ^ 2 * Y ^ 2) ∨
    (edRoot Y = .err ∧ ∀ x, ¬ -x ^ 2 + Y ^ 2 = 1 + edD * x ^ 2 * Y ^ 2) := by
  have hc := ed_candidate (Y * Y - 1) (Y * Y * edD + 1)
  have hv : Y * Y * edD + 1 ≠ 0 := by have := ed_denom Y; intro h; apply this; linear_combination h
  unfold edRoot
  dsimp only
  generalize fePow22523 _ * _ * (Y * Y - 1) = X at hc ⊢
  simp only [ed_on_iff]
  generalize Y * Y - 1 = u at *
  generalize Y * Y * edD + 1 = v at *
  by_cases h1 : X * X * v - u = 0
  · left
    rw [if_neg (not_not.2 h1)]
    exact ⟨X, rfl, by linear_combination h1⟩
  · rw [if_pos h1]
    by_cases h2 : X * X * v + u = 0
    · left
      rw [if_neg (not_not.2 h2)]
      exact ⟨_, rfl, by linear_combination v * X ^ 2 * edSqrtM1_sq - h2⟩
    · right
      rw [if_pos h2]
      refine ⟨rfl, fun x hx => ?_⟩
      by_cases hu : u = 0
      · rw [hu] at hc
        apply h1
        rw [hc, hu]; ring
      · rcases ed_root_square hv hx hu with h | h
        · rw [h] at hc; apply h1; rw [hc]; ring
        · rw [h] at hc; apply h2; rw [hc]; ring

/-- Two points of one `y` are equal or opposite. -/
theorem ed_same_y {P Q : EdP} (h : P.y = Q.y) : P.x = Q.x ∨ P.x = -Q.x := by
  have h1 := (ed_on_iff P.x P.y).1 P.on
  have h2 := (ed_on_iff Q.x Q.y).1 Q.on
  rw [h] at h1
  have hv : Q.y * Q.y * edD + 1 ≠ 0 := by have := ed_denom Q.y; intro h; apply this; linear_combination h
  exact fe_square_cases (mul_left_cancel₀ hv (h1.trans h2.symm))

theorem DecodesTo.unique {s : Str} {P Q : EdP} (h1 : DecodesTo s P) (h2 : DecodesTo s Q) : P = Q := by
  have hy : P.y = Q.y := h1.y.trans h2.y.symm
  ext
  · rcases ed_same_y hy with h | h
    · exact h
    · by_cases h0 : Q.x = 0
      · rw [h, h0, neg_zero]
      · have hp : P.x ≠ 0 := by rw [h]; exact neg_ne_zero.2 h0
        have a := h1.x.resolve_left hp
        have b := h2.x.resolve_left h0
        have c := fe_neg_val h0
        rw [← h] at c
        omega
  · exact hy

/-- Reading bytes: the point they stand for, or an error if there is none. -/
theorem fromBytes_spec (s : Str) : (∃ e P, Extended.fromBytes s = .ok e ∧ DecodesTo s P ∧ Rep e P ∧ e = ⟨P.x, P.y, 1, P.x * P.y⟩) ∨
    (Extended.fromBytes s = .err ∧ ∀ P, ¬ DecodesTo s P) := by
  rw [fromBytes_eq]
  by_cases hl : s.length = 32
  · rw [if_neg (not_not.2 hl)]
    rcases edRoot_spec (feFromBytes s) with ⟨x, hx, hon⟩ | ⟨hx, hno⟩
    · left
      rw [hx]
      generalize hX : (if feIsNegative x ≠ s.getD 31 0 >>> 7 then -x else x) = X
      have hon' : -X ^ 2 + feFromBytes s ^ 2 = 1 + edD * X ^ 2 * feFromBytes s ^ 2 := by
        rw [← hX]; split
        · linear_combination hon
        · exact hon
      refine ⟨_, ⟨X, feFromBytes s, hon'⟩, rfl, ⟨hl, rfl, ?_⟩, ⟨one_ne_zero, ?_, ?_, ?_⟩, ?_⟩
      · show X = 0 ∨ X.val % 2 = _
        by_cases h0 : x = 0
        · left; rw [← hX, h0]; simp
        · right
          have hb := topBit_val hl
          have hn := feIsNegative_val x
          have hneg := fe_neg_val h0
          have h2 := leNat_lt s
          rw [hl] at h2
          rw [← hX]
          split
          · rename_i hne
            have : (feIsNegative x).toNat ≠ (s.getD 31 0 >>> 7).toNat := fun h => hne (UInt8.toNat_inj.1 h)
            omega
          · rename_i he
            rw [not_not.1 he] at hn
            omega
      · simp only [hX]; ring
      · simp only; ring
      · simp only [hX]; ring
      · simp only [hX]
    · right
      rw [hx]
      refine ⟨rfl, fun P hP => hno P.x ?_⟩
      have := P.on
      rw [hP.y] at this
      exact this
  · right
    rw [if_pos hl]
    exact ⟨rfl, fun P hP => hl hP.len⟩

theorem encode_decodes (P : EdP) : DecodesTo (encodePoint P) P := by
  have h1 := fe_val_lt P.y
  have h2 := fieldPrime_lt
  have hn : leNat (encodePoint P) = P.y.val + 2 ^ 255 * (P.x.val % 2) := by
    unfold encodePoint
    rw [leNat_leBytes, Nat.mod_eq_of_lt]
    have : P.x.val % 2 < 2 := Nat.mod_lt _ (by decide)
    have : 2 ^ 255 * (P.x.val % 2) ≤ 2 ^ 255 * 1 := Nat.mul_le_mul_left _ (by omega)
    have : (256 : Nat) ^ 32 = 2 ^ 255 * 2 := by decide +kernel
    omega
  refine ⟨length_leBytes _ _, ?_, Or.inr ?_⟩
  · rw [hn, Nat.add_mul_mod_self_left, Nat.mod_eq_of_lt (by omega), ZMod.natCast_val, ZMod.cast_id]
  · rw [hn]; omega

end Verif.Kyber
