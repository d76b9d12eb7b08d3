import Mathlib.Algebra.Field.Basic
import Mathlib.Tactic.FieldSimp
import Mathlib.Tactic.LinearCombination
import Mathlib.Tactic.Ring

/-!
# The addition law of a complete twisted Edwards curve `-x² + y² = 1 + d x² y²` is a commutative group

Textbook mathematics, not code: the completeness of Bernstein and Lange (the denominators are never zero if `d` is no square and `-1` is one) and the
polynomial identities of the associativity.
-/

namespace Verif.Kyber

variable {K : Type} [Field K]

/-- The points of the curve, in affine coordinates. -/
@[ext] structure EdPoint (K : Type) [Field K] (d : K) where
  x : K
  y : K
  on : -x ^ 2 + y ^ 2 = 1 + d * x ^ 2 * y ^ 2

/-- The two facts on the constant of the curve which make the addition complete. -/
class EdComplete (K : Type) [Field K] (d : K) : Prop where
  nonsquare : ∀ z : K, z ^ 2 ≠ d
  root : ∃ i : K, i ^ 2 = -1
  two : (2 : K) ≠ 0

theorem ed_complete {d : K} [hc : EdComplete K d] {x1 y1 x2 y2 e : K} (h1 : -x1 ^ 2 + y1 ^ 2 = 1 + d * x1 ^ 2 * y1 ^ 2)
    (h2 : -x2 ^ 2 + y2 ^ 2 = 1 + d * x2 ^ 2 * y2 ^ 2) (he : e ^ 2 = 1) : d * x1 * x2 * y1 * y2 ≠ e := by
  intro h
  obtain ⟨i, hi⟩ := hc.root
  have he0 : e ≠ 0 := by rintro rfl; simp at he
  have hx1 : x1 ≠ 0 := by rintro rfl; simp at h; exact he0 h.symm
  have hy1 : y1 ≠ 0 := by rintro rfl; simp at h; exact he0 h.symm
  have a1 : (i * x1 + e * y1) ^ 2 = d * (x1 * y1 * (i * x2 + y2)) ^ 2 := by
    subst h
    linear_combination (x1 ^ 2 - d * x1 ^ 2 * y1 ^ 2 * x2 ^ 2) * hi + h1 - d * x1 ^ 2 * y1 ^ 2 * h2 + (y1 ^ 2 - 1) * he
  have a2 : (i * x1 - e * y1) ^ 2 = d * (x1 * y1 * (i * x2 - y2)) ^ 2 := by
    subst h
    linear_combination (x1 ^ 2 - d * x1 ^ 2 * y1 ^ 2 * x2 ^ 2) * hi + h1 - d * x1 ^ 2 * y1 ^ 2 * h2 + (y1 ^ 2 - 1) * he
  have key : ∀ u v : K, u ^ 2 = d * (x1 * y1 * v) ^ 2 → v = 0 := by
    intro u v huv
    by_contra hv
    apply hc.nonsquare (u / (x1 * y1 * v))
    rw [div_pow, huv]
    field_simp
  have b1 := key _ _ a1
  have b2 := key _ _ a2
  have hy : y2 = 0 := by
    have : 2 * y2 = 0 := by linear_combination b1 - b2
    exact (mul_eq_zero.mp this).resolve_left hc.two
  exact he0 (by rw [← h, hy]; ring)

theorem ed_plus {d : K} [EdComplete K d] (P Q : EdPoint K d) : 1 + d * P.x * Q.x * P.y * Q.y ≠ 0 := by
  intro h
  exact ed_complete (e := -1) P.on Q.on (by ring) (by linear_combination h)

theorem ed_minus {d : K} [EdComplete K d] (P Q : EdPoint K d) : 1 - d * P.x * Q.x * P.y * Q.y ≠ 0 := by
  intro h
  exact ed_complete (e := 1) P.on Q.on (by ring) (by linear_combination -h)

theorem ed_on_of {d N M D E : K} (hD : D ≠ 0) (hE : E ≠ 0) (h : M ^ 2 * D ^ 2 - N ^ 2 * E ^ 2 = D ^ 2 * E ^ 2 + d * N ^ 2 * M ^ 2) :
    -(N / D) ^ 2 + (M / E) ^ 2 = 1 + d * (N / D) ^ 2 * (M / E) ^ 2 := by
  field_simp
  linear_combination h

namespace EdPoint
variable {d : K} [EdComplete K d]

/-- The sum of two points. -/
def add (P Q : EdPoint K d) : EdPoint K d where
  x := (P.x * Q.y + Q.x * P.y) / (1 + d * P.x * Q.x * P.y * Q.y)
  y := (P.y * Q.y + P.x * Q.x) / (1 - d * P.x * Q.x * P.y * Q.y)
  on := by
    have h1 := ed_plus P Q
    have h2 := ed_minus P Q
    have e1 := P.on
    have e2 := Q.on
    apply ed_on_of h1 h2
    linear_combination -(
        (-1)*Q.y^4 + (4)*Q.x^2*Q.y^2 + (2)*Q.x^2*Q.y^2*d + (-2)*Q.x^2*Q.y^4 + (-1)*Q.x^4 + (2)*Q.x^4*Q.y^2 + (2)*Q.x^4*Q.y^4*d
        + (1)*Q.x^4*Q.y^4*d^2 + (1)*P.y^2*Q.x^2*Q.y^4*d + (-1)*P.y^2*Q.x^4*Q.y^2*d + (-1)*P.y^2*Q.x^4*Q.y^4*d^2 + (-1)*P.x^2*Q.x^2*Q.y^4*d
        + (1)*P.x^2*Q.x^4*Q.y^2*d + (1)*P.x^2*Q.x^4*Q.y^4*d^2 + (-1)*P.x^2*P.y^2*Q.x^4*Q.y^4*d^3) * e1 - (
        (-1) + (-1)*Q.y^2 + (1)*Q.x^2 + (-2)*Q.x^2*Q.y^2 + (-1)*Q.x^2*Q.y^2*d + (1)*P.y^2*Q.y^2 + (-1)*P.y^2*Q.x^2 + (2)*P.y^2*Q.x^2*Q.y^2
        + (2)*P.y^2*Q.x^2*Q.y^2*d + (-1)*P.y^4*Q.x^2*Q.y^2*d + (-1)*P.x^2*Q.y^2 + (1)*P.x^2*Q.x^2 + (-2)*P.x^2*Q.x^2*Q.y^2
        + (-2)*P.x^2*Q.x^2*Q.y^2*d + (-1)*P.x^4*Q.x^2*Q.y^2*d) * e2

/-- The neutral point. -/
def zero : EdPoint K d := ⟨0, 1, by ring⟩

/-- The opposite point. -/
def neg (P : EdPoint K d) : EdPoint K d := ⟨-P.x, P.y, by linear_combination P.on⟩

theorem add_x (P Q : EdPoint K d) : (P.add Q).x * (1 + d * P.x * Q.x * P.y * Q.y) = P.x * Q.y + Q.x * P.y :=
  div_mul_cancel₀ _ (ed_plus P Q)

theorem add_y (P Q : EdPoint K d) : (P.add Q).y * (1 - d * P.x * Q.x * P.y * Q.y) = P.y * Q.y + P.x * Q.x :=
  div_mul_cancel₀ _ (ed_minus P Q)

/-- A point is the sum as soon as its coordinates fit. -/
theorem eq_add {P Q S : EdPoint K d} (hx : S.x * (1 + d * P.x * Q.x * P.y * Q.y) = P.x * Q.y + Q.x * P.y)
    (hy : S.y * (1 - d * P.x * Q.x * P.y * Q.y) = P.y * Q.y + P.x * Q.x) : S = P.add Q := by
  ext
  · exact mul_right_cancel₀ (ed_plus P Q) (hx.trans (add_x P Q).symm)
  · exact mul_right_cancel₀ (ed_minus P Q) (hy.trans (add_y P Q).symm)

theorem add_comm' (P Q : EdPoint K d) : P.add Q = Q.add P :=
  eq_add (by have := add_x P Q; linear_combination this) (by have := add_y P Q; linear_combination this)

theorem zero_add' (P : EdPoint K d) : zero.add P = P :=
  (eq_add (by simp [zero]) (by simp [zero])).symm

theorem neg_add' (P : EdPoint K d) : P.neg.add P = zero :=
  (eq_add (by simp [zero, neg]) (by simp only [zero, neg]; have := P.on; linear_combination -this)).symm

theorem add_assoc' (P Q R : EdPoint K d) : (P.add Q).add R = P.add (Q.add R) := by
  have a1 := ed_plus P Q
  have a2 := ed_minus P Q
  have b1 := ed_plus Q R
  have b2 := ed_minus Q R
  have c1 := ed_plus (P.add Q) R
  have c2 := ed_minus (P.add Q) R
  have d1 := ed_plus P (Q.add R)
  have d2 := ed_minus P (Q.add R)
  have lx : (P.add Q).x = (P.x * Q.y + Q.x * P.y) / (1 + d * P.x * Q.x * P.y * Q.y) := rfl
  have ly : (P.add Q).y = (P.y * Q.y + P.x * Q.x) / (1 - d * P.x * Q.x * P.y * Q.y) := rfl
  have rx : (Q.add R).x = (Q.x * R.y + R.x * Q.y) / (1 + d * Q.x * R.x * Q.y * R.y) := rfl
  have ry : (Q.add R).y = (Q.y * R.y + Q.x * R.x) / (1 - d * Q.x * R.x * Q.y * R.y) := rfl
  -- the four denominators, multiplied out
  have DL : (1 + d * P.x * Q.x * P.y * Q.y) * (1 - d * P.x * Q.x * P.y * Q.y) ≠ 0 := mul_ne_zero a1 a2
  have DR : (1 + d * Q.x * R.x * Q.y * R.y) * (1 - d * Q.x * R.x * Q.y * R.y) ≠ 0 := mul_ne_zero b1 b2
  have tl : d * (P.add Q).x * R.x * (P.add Q).y * R.y * ((1 + d * P.x * Q.x * P.y * Q.y) * (1 - d * P.x * Q.x * P.y * Q.y)) =
      d * (P.x * Q.y + Q.x * P.y) * (P.y * Q.y + P.x * Q.x) * R.x * R.y := by
    rw [← add_x P Q, ← add_y P Q]; ring
  have tr : d * P.x * (Q.add R).x * P.y * (Q.add R).y * ((1 + d * Q.x * R.x * Q.y * R.y) * (1 - d * Q.x * R.x * Q.y * R.y)) =
      d * P.x * P.y * (Q.x * R.y + R.x * Q.y) * (Q.y * R.y + Q.x * R.x) := by
    rw [← add_x Q R, ← add_y Q R]; ring
  have L1 := mul_ne_zero c1 DL
  have L2 := mul_ne_zero c2 DL
  have R1 := mul_ne_zero d1 DR
  have R2 := mul_ne_zero d2 DR
  have EL1 : ((P.add Q).add R).x * ((1 + d * (P.add Q).x * R.x * (P.add Q).y * R.y) * ((1 + d * P.x * Q.x * P.y * Q.y) * (1 - d * P.x * Q.x * P.y * Q.y))) =
      (P.x * Q.y + Q.x * P.y) * (1 - d * P.x * Q.x * P.y * Q.y) * R.y + R.x * (P.y * Q.y + P.x * Q.x) * (1 + d * P.x * Q.x * P.y * Q.y) := by
    rw [← mul_assoc, add_x, ← add_x P Q, ← add_y P Q]; ring
  have ER1 : (P.add (Q.add R)).x * ((1 + d * P.x * (Q.add R).x * P.y * (Q.add R).y) * ((1 + d * Q.x * R.x * Q.y * R.y) * (1 - d * Q.x * R.x * Q.y * R.y))) =
      P.x * (Q.y * R.y + Q.x * R.x) * (1 + d * Q.x * R.x * Q.y * R.y) + (Q.x * R.y + R.x * Q.y) * (1 - d * Q.x * R.x * Q.y * R.y) * P.y := by
    rw [← mul_assoc, add_x, ← add_x Q R, ← add_y Q R]; ring
  have EL2 : ((P.add Q).add R).y * ((1 - d * (P.add Q).x * R.x * (P.add Q).y * R.y) * ((1 + d * P.x * Q.x * P.y * Q.y) * (1 - d * P.x * Q.x * P.y * Q.y))) =
      (P.y * Q.y + P.x * Q.x) * (1 + d * P.x * Q.x * P.y * Q.y) * R.y + (P.x * Q.y + Q.x * P.y) * (1 - d * P.x * Q.x * P.y * Q.y) * R.x := by
    rw [← mul_assoc, add_y, ← add_x P Q, ← add_y P Q]; ring
  have ER2 : (P.add (Q.add R)).y * ((1 - d * P.x * (Q.add R).x * P.y * (Q.add R).y) * ((1 + d * Q.x * R.x * Q.y * R.y) * (1 - d * Q.x * R.x * Q.y * R.y))) =
      P.y * (Q.y * R.y + Q.x * R.x) * (1 + d * Q.x * R.x * Q.y * R.y) + P.x * (Q.x * R.y + R.x * Q.y) * (1 - d * Q.x * R.x * Q.y * R.y) := by
    rw [← mul_assoc, add_y, ← add_x Q R, ← add_y Q R]; ring
  have L1' : (1 + d * (P.add Q).x * R.x * (P.add Q).y * R.y) * ((1 + d * P.x * Q.x * P.y * Q.y) * (1 - d * P.x * Q.x * P.y * Q.y)) =
      (1 + d * P.x * Q.x * P.y * Q.y) * (1 - d * P.x * Q.x * P.y * Q.y) + d * (P.x * Q.y + Q.x * P.y) * (P.y * Q.y + P.x * Q.x) * R.x * R.y := by
    rw [← tl]; ring
  have L2' : (1 - d * (P.add Q).x * R.x * (P.add Q).y * R.y) * ((1 + d * P.x * Q.x * P.y * Q.y) * (1 - d * P.x * Q.x * P.y * Q.y)) =
      (1 + d * P.x * Q.x * P.y * Q.y) * (1 - d * P.x * Q.x * P.y * Q.y) - d * (P.x * Q.y + Q.x * P.y) * (P.y * Q.y + P.x * Q.x) * R.x * R.y := by
    rw [← tl]; ring
  have R1' : (1 + d * P.x * (Q.add R).x * P.y * (Q.add R).y) * ((1 + d * Q.x * R.x * Q.y * R.y) * (1 - d * Q.x * R.x * Q.y * R.y)) =
      (1 + d * Q.x * R.x * Q.y * R.y) * (1 - d * Q.x * R.x * Q.y * R.y) + d * P.x * P.y * (Q.x * R.y + R.x * Q.y) * (Q.y * R.y + Q.x * R.x) := by
    rw [← tr]; ring
  have R2' : (1 - d * P.x * (Q.add R).x * P.y * (Q.add R).y) * ((1 + d * Q.x * R.x * Q.y * R.y) * (1 - d * Q.x * R.x * Q.y * R.y)) =
      (1 + d * Q.x * R.x * Q.y * R.y) * (1 - d * Q.x * R.x * Q.y * R.y) - d * P.x * P.y * (Q.x * R.y + R.x * Q.y) * (Q.y * R.y + Q.x * R.x) := by
    rw [← tr]; ring
  rw [L1'] at L1 EL1
  rw [L2'] at L2 EL2
  rw [R1'] at R1 ER1
  rw [R2'] at R2 ER2
  rw [← eq_div_iff L1] at EL1
  rw [← eq_div_iff L2] at EL2
  rw [← eq_div_iff R1] at ER1
  rw [← eq_div_iff R2] at ER2
  ext
  · rw [EL1, ER1, div_eq_div_iff L1 R1]
    linear_combination -(
        (1)*P.y*Q.x*Q.y^4*R.x^2*R.y*d + (1)*P.y*Q.x^2*Q.y^3*R.x*d + (1)*P.y*Q.x^2*Q.y^3*R.x^3*d + (1)*P.y*Q.x^3*Q.y^2*R.y*d
        + (-1)*P.y*Q.x^3*Q.y^2*R.y^3*d + (-1)*P.y*Q.x^3*Q.y^4*R.x^2*R.y*d^2 + (-1)*P.y*Q.x^4*Q.y*R.x*R.y^2*d
        + (-1)*P.y*Q.x^4*Q.y^3*R.x*R.y^2*d^2 + (-1)*P.x*Q.x*Q.y^4*R.x*R.y^2*d + (1)*P.x*Q.x^2*Q.y^3*R.y*d + (-1)*P.x*Q.x^2*Q.y^3*R.y^3*d
        + (1)*P.x*Q.x^3*Q.y^2*R.x*d + (1)*P.x*Q.x^3*Q.y^2*R.x^3*d + (1)*P.x*Q.x^3*Q.y^4*R.x*R.y^2*d^2 + (1)*P.x*Q.x^4*Q.y*R.x^2*R.y*d
        + (1)*P.x*Q.x^4*Q.y^3*R.x^2*R.y*d^2) * P.on - (
        (-1)*P.y*Q.y*R.x + (1)*P.y*Q.y*R.x*R.y^2 + (-1)*P.y*Q.y*R.x^3 + (-1)*P.y*Q.y*R.x^3*R.y^2*d + (-1)*P.y*Q.x*R.y + (1)*P.y*Q.x*R.y^3
        + (-1)*P.y*Q.x*R.x^2*R.y + (-1)*P.y*Q.x*R.x^2*R.y^3*d + (1)*P.y*Q.x*Q.y^2*R.x^2*R.y*d + (1)*P.y*Q.x^2*Q.y*R.x*R.y^2*d
        + (1)*P.y^3*Q.y*R.x + (-1)*P.y^3*Q.y*R.x*R.y^2 + (1)*P.y^3*Q.y*R.x^3 + (1)*P.y^3*Q.y*R.x^3*R.y^2*d + (1)*P.y^3*Q.x*R.y
        + (-1)*P.y^3*Q.x*R.y^3 + (1)*P.y^3*Q.x*R.x^2*R.y + (1)*P.y^3*Q.x*R.x^2*R.y^3*d + (-1)*P.y^3*Q.x*Q.y^2*R.x^2*R.y*d
        + (-1)*P.y^3*Q.x^2*Q.y*R.x*R.y^2*d + (-1)*P.x*Q.y*R.y + (1)*P.x*Q.y*R.y^3 + (-1)*P.x*Q.y*R.x^2*R.y + (-1)*P.x*Q.y*R.x^2*R.y^3*d
        + (-1)*P.x*Q.x*R.x + (1)*P.x*Q.x*R.x*R.y^2 + (-1)*P.x*Q.x*R.x^3 + (-1)*P.x*Q.x*R.x^3*R.y^2*d + (-1)*P.x*Q.x*Q.y^2*R.x*R.y^2*d
        + (-1)*P.x*Q.x^2*Q.y*R.x^2*R.y*d + (1)*P.x*P.y^2*Q.y*R.y + (-1)*P.x*P.y^2*Q.y*R.y^3 + (1)*P.x*P.y^2*Q.y*R.x^2*R.y
        + (1)*P.x*P.y^2*Q.y*R.x^2*R.y^3*d + (1)*P.x*P.y^2*Q.x*R.x + (-1)*P.x*P.y^2*Q.x*R.x*R.y^2 + (1)*P.x*P.y^2*Q.x*R.x^3
        + (1)*P.x*P.y^2*Q.x*R.x^3*R.y^2*d + (1)*P.x*P.y^2*Q.x*Q.y^2*R.x*R.y^2*d + (-1)*P.x*P.y^2*Q.x*Q.y^2*R.x^3*R.y^2*d^2
        + (1)*P.x*P.y^2*Q.x^2*Q.y*R.x^2*R.y*d + (1)*P.x*P.y^2*Q.x^2*Q.y*R.x^2*R.y^3*d^2 + (-1)*P.x^2*P.y*Q.y*R.x
        + (1)*P.x^2*P.y*Q.y*R.x*R.y^2 + (-1)*P.x^2*P.y*Q.y*R.x^3 + (-1)*P.x^2*P.y*Q.y*R.x^3*R.y^2*d + (-1)*P.x^2*P.y*Q.x*R.y
        + (1)*P.x^2*P.y*Q.x*R.y^3 + (-1)*P.x^2*P.y*Q.x*R.x^2*R.y + (-1)*P.x^2*P.y*Q.x*R.x^2*R.y^3*d + (1)*P.x^2*P.y*Q.x*Q.y^2*R.x^2*R.y*d
        + (1)*P.x^2*P.y*Q.x*Q.y^2*R.x^2*R.y^3*d^2 + (1)*P.x^2*P.y*Q.x^2*Q.y*R.x*R.y^2*d + (-1)*P.x^2*P.y*Q.x^2*Q.y*R.x^3*R.y^2*d^2
        + (-1)*P.x^3*Q.y*R.y + (1)*P.x^3*Q.y*R.y^3 + (-1)*P.x^3*Q.y*R.x^2*R.y + (-1)*P.x^3*Q.y*R.x^2*R.y^3*d + (-1)*P.x^3*Q.x*R.x
        + (1)*P.x^3*Q.x*R.x*R.y^2 + (-1)*P.x^3*Q.x*R.x^3 + (-1)*P.x^3*Q.x*R.x^3*R.y^2*d + (-1)*P.x^3*Q.x*Q.y^2*R.x*R.y^2*d
        + (-1)*P.x^3*Q.x^2*Q.y*R.x^2*R.y*d) * Q.on - (
        (1)*P.y*Q.y*R.x + (-1)*P.y*Q.y^3*R.x + (1)*P.y*Q.x*R.y + (-1)*P.y*Q.x*Q.y^2*R.y + (1)*P.y*Q.x^2*Q.y*R.x + (1)*P.y*Q.x^3*R.y
        + (-1)*P.y^3*Q.y*R.x + (1)*P.y^3*Q.y^3*R.x + (-1)*P.y^3*Q.x*R.y + (1)*P.y^3*Q.x*Q.y^2*R.y + (-1)*P.y^3*Q.x^2*Q.y*R.x
        + (-1)*P.y^3*Q.x^3*R.y + (1)*P.x*Q.y*R.y + (-1)*P.x*Q.y^3*R.y + (1)*P.x*Q.x*R.x + (-1)*P.x*Q.x*Q.y^2*R.x + (1)*P.x*Q.x^2*Q.y*R.y
        + (1)*P.x*Q.x^3*R.x + (-1)*P.x*P.y^2*Q.y*R.y + (1)*P.x*P.y^2*Q.y^3*R.y + (-1)*P.x*P.y^2*Q.x*R.x + (1)*P.x*P.y^2*Q.x*Q.y^2*R.x
        + (1)*P.x*P.y^2*Q.x*Q.y^2*R.x*d + (-1)*P.x*P.y^2*Q.x^2*Q.y*R.y + (-1)*P.x*P.y^2*Q.x^2*Q.y*R.y*d + (-1)*P.x*P.y^2*Q.x^3*R.x
        + (1)*P.x^2*P.y*Q.y*R.x + (-1)*P.x^2*P.y*Q.y^3*R.x + (1)*P.x^2*P.y*Q.x*R.y + (-1)*P.x^2*P.y*Q.x*Q.y^2*R.y
        + (-1)*P.x^2*P.y*Q.x*Q.y^2*R.y*d + (1)*P.x^2*P.y*Q.x^2*Q.y*R.x + (1)*P.x^2*P.y*Q.x^2*Q.y*R.x*d + (1)*P.x^2*P.y*Q.x^3*R.y
        + (1)*P.x^3*Q.y*R.y + (-1)*P.x^3*Q.y^3*R.y + (1)*P.x^3*Q.x*R.x + (-1)*P.x^3*Q.x*Q.y^2*R.x + (1)*P.x^3*Q.x^2*Q.y*R.y
        + (1)*P.x^3*Q.x^3*R.x) * R.on
  · rw [EL2, ER2, div_eq_div_iff L2 R2]
    linear_combination -(
        (-1)*P.y*Q.x*Q.y^4*R.x*R.y^2*d + (1)*P.y*Q.x^2*Q.y^3*R.y*d + (-1)*P.y*Q.x^2*Q.y^3*R.y^3*d + (1)*P.y*Q.x^3*Q.y^2*R.x*d
        + (1)*P.y*Q.x^3*Q.y^2*R.x^3*d + (1)*P.y*Q.x^3*Q.y^4*R.x*R.y^2*d^2 + (1)*P.y*Q.x^4*Q.y*R.x^2*R.y*d + (1)*P.y*Q.x^4*Q.y^3*R.x^2*R.y*d^2
        + (1)*P.x*Q.x*Q.y^4*R.x^2*R.y*d + (1)*P.x*Q.x^2*Q.y^3*R.x*d + (1)*P.x*Q.x^2*Q.y^3*R.x^3*d + (1)*P.x*Q.x^3*Q.y^2*R.y*d
        + (-1)*P.x*Q.x^3*Q.y^2*R.y^3*d + (-1)*P.x*Q.x^3*Q.y^4*R.x^2*R.y*d^2 + (-1)*P.x*Q.x^4*Q.y*R.x*R.y^2*d
        + (-1)*P.x*Q.x^4*Q.y^3*R.x*R.y^2*d^2) * P.on - (
        (-1)*P.y*Q.y*R.y + (1)*P.y*Q.y*R.y^3 + (-1)*P.y*Q.y*R.x^2*R.y + (-1)*P.y*Q.y*R.x^2*R.y^3*d + (-1)*P.y*Q.x*R.x + (1)*P.y*Q.x*R.x*R.y^2
        + (-1)*P.y*Q.x*R.x^3 + (-1)*P.y*Q.x*R.x^3*R.y^2*d + (-1)*P.y*Q.x*Q.y^2*R.x*R.y^2*d + (-1)*P.y*Q.x^2*Q.y*R.x^2*R.y*d
        + (1)*P.y^3*Q.y*R.y + (-1)*P.y^3*Q.y*R.y^3 + (1)*P.y^3*Q.y*R.x^2*R.y + (1)*P.y^3*Q.y*R.x^2*R.y^3*d + (1)*P.y^3*Q.x*R.x
        + (-1)*P.y^3*Q.x*R.x*R.y^2 + (1)*P.y^3*Q.x*R.x^3 + (1)*P.y^3*Q.x*R.x^3*R.y^2*d + (1)*P.y^3*Q.x*Q.y^2*R.x*R.y^2*d
        + (1)*P.y^3*Q.x^2*Q.y*R.x^2*R.y*d + (-1)*P.x*Q.y*R.x + (1)*P.x*Q.y*R.x*R.y^2 + (-1)*P.x*Q.y*R.x^3 + (-1)*P.x*Q.y*R.x^3*R.y^2*d
        + (-1)*P.x*Q.x*R.y + (1)*P.x*Q.x*R.y^3 + (-1)*P.x*Q.x*R.x^2*R.y + (-1)*P.x*Q.x*R.x^2*R.y^3*d + (1)*P.x*Q.x*Q.y^2*R.x^2*R.y*d
        + (1)*P.x*Q.x^2*Q.y*R.x*R.y^2*d + (1)*P.x*P.y^2*Q.y*R.x + (-1)*P.x*P.y^2*Q.y*R.x*R.y^2 + (1)*P.x*P.y^2*Q.y*R.x^3
        + (1)*P.x*P.y^2*Q.y*R.x^3*R.y^2*d + (1)*P.x*P.y^2*Q.x*R.y + (-1)*P.x*P.y^2*Q.x*R.y^3 + (1)*P.x*P.y^2*Q.x*R.x^2*R.y
        + (1)*P.x*P.y^2*Q.x*R.x^2*R.y^3*d + (-1)*P.x*P.y^2*Q.x*Q.y^2*R.x^2*R.y*d + (-1)*P.x*P.y^2*Q.x*Q.y^2*R.x^2*R.y^3*d^2
        + (-1)*P.x*P.y^2*Q.x^2*Q.y*R.x*R.y^2*d + (1)*P.x*P.y^2*Q.x^2*Q.y*R.x^3*R.y^2*d^2 + (-1)*P.x^2*P.y*Q.y*R.y + (1)*P.x^2*P.y*Q.y*R.y^3
        + (-1)*P.x^2*P.y*Q.y*R.x^2*R.y + (-1)*P.x^2*P.y*Q.y*R.x^2*R.y^3*d + (-1)*P.x^2*P.y*Q.x*R.x + (1)*P.x^2*P.y*Q.x*R.x*R.y^2
        + (-1)*P.x^2*P.y*Q.x*R.x^3 + (-1)*P.x^2*P.y*Q.x*R.x^3*R.y^2*d + (-1)*P.x^2*P.y*Q.x*Q.y^2*R.x*R.y^2*d
        + (1)*P.x^2*P.y*Q.x*Q.y^2*R.x^3*R.y^2*d^2 + (-1)*P.x^2*P.y*Q.x^2*Q.y*R.x^2*R.y*d + (-1)*P.x^2*P.y*Q.x^2*Q.y*R.x^2*R.y^3*d^2
        + (-1)*P.x^3*Q.y*R.x + (1)*P.x^3*Q.y*R.x*R.y^2 + (-1)*P.x^3*Q.y*R.x^3 + (-1)*P.x^3*Q.y*R.x^3*R.y^2*d + (-1)*P.x^3*Q.x*R.y
        + (1)*P.x^3*Q.x*R.y^3 + (-1)*P.x^3*Q.x*R.x^2*R.y + (-1)*P.x^3*Q.x*R.x^2*R.y^3*d + (1)*P.x^3*Q.x*Q.y^2*R.x^2*R.y*d
        + (1)*P.x^3*Q.x^2*Q.y*R.x*R.y^2*d) * Q.on - (
        (1)*P.y*Q.y*R.y + (-1)*P.y*Q.y^3*R.y + (1)*P.y*Q.x*R.x + (-1)*P.y*Q.x*Q.y^2*R.x + (1)*P.y*Q.x^2*Q.y*R.y + (1)*P.y*Q.x^3*R.x
        + (-1)*P.y^3*Q.y*R.y + (1)*P.y^3*Q.y^3*R.y + (-1)*P.y^3*Q.x*R.x + (1)*P.y^3*Q.x*Q.y^2*R.x + (-1)*P.y^3*Q.x^2*Q.y*R.y
        + (-1)*P.y^3*Q.x^3*R.x + (1)*P.x*Q.y*R.x + (-1)*P.x*Q.y^3*R.x + (1)*P.x*Q.x*R.y + (-1)*P.x*Q.x*Q.y^2*R.y + (1)*P.x*Q.x^2*Q.y*R.x
        + (1)*P.x*Q.x^3*R.y + (-1)*P.x*P.y^2*Q.y*R.x + (1)*P.x*P.y^2*Q.y^3*R.x + (-1)*P.x*P.y^2*Q.x*R.y + (1)*P.x*P.y^2*Q.x*Q.y^2*R.y
        + (1)*P.x*P.y^2*Q.x*Q.y^2*R.y*d + (-1)*P.x*P.y^2*Q.x^2*Q.y*R.x + (-1)*P.x*P.y^2*Q.x^2*Q.y*R.x*d + (-1)*P.x*P.y^2*Q.x^3*R.y
        + (1)*P.x^2*P.y*Q.y*R.y + (-1)*P.x^2*P.y*Q.y^3*R.y + (1)*P.x^2*P.y*Q.x*R.x + (-1)*P.x^2*P.y*Q.x*Q.y^2*R.x
        + (-1)*P.x^2*P.y*Q.x*Q.y^2*R.x*d + (1)*P.x^2*P.y*Q.x^2*Q.y*R.y + (1)*P.x^2*P.y*Q.x^2*Q.y*R.y*d + (1)*P.x^2*P.y*Q.x^3*R.x
        + (1)*P.x^3*Q.y*R.x + (-1)*P.x^3*Q.y^3*R.x + (1)*P.x^3*Q.x*R.y + (-1)*P.x^3*Q.x*Q.y^2*R.y + (1)*P.x^3*Q.x^2*Q.y*R.x
        + (1)*P.x^3*Q.x^3*R.y) * R.on

instance : Add (EdPoint K d) := ⟨add⟩
instance : Zero (EdPoint K d) := ⟨zero⟩
instance : Neg (EdPoint K d) := ⟨neg⟩

instance : AddCommGroup (EdPoint K d) where
  add_assoc := add_assoc'
  zero_add := zero_add'
  add_zero P := (add_comm' P zero).trans (zero_add' P)
  neg_add_cancel := neg_add'
  add_comm := add_comm'
  nsmul := nsmulRec
  zsmul := zsmulRec

end EdPoint
end Verif.Kyber
