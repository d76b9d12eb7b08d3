import Verif.Lemmas.SignatureEd
import Verif.Props.SignatureBytes
import Verif.Lemmas.Hash

/-!
# C122, C123, C124, C125: the curve of the library, its base point, the texts of public keys, and signatures on it

`EdP` is the group of the points of `-x² + y² = 1 + d x² y²` over the integers modulo `2^255 - 19` (`Spec/Edwards`, `Spec/EdwardsGroup`), and
`Rep e P` says that the coordinates `e` are those of the point `P`.
-/

namespace Verif.SigEd
open Verif Verif.Kyber

attribute [local irreducible] primeOrder leBytes

variable (sha : Str → Str)

/-! ## C122: coordinates -/

/-- C122: the constant of the curve is that of Ed25519, `-121665/121666`, and `-1` has the root which the code uses; the modulus is prime. -/
theorem C122_curve : edD * 121666 = -121665 ∧ edD2 = 2 * edD ∧ edSqrtM1 ^ 2 = -1 ∧ fieldPrime = 2 ^ 255 - 19 ∧ fieldPrime.Prime ∧
    ∀ z : Fe, z ^ 2 ≠ edD := by
  refine ⟨?_, edD2_eq, edSqrtM1_sq, by decide +kernel, prime_fieldPrime, edD_nonsquare⟩
  have : ((dInt * 121666 : Int) : Fe) = ((-121665 : Int) : Fe) := fe_int_eq (by decide +kernel)
  rw [Int.cast_mul] at this
  exact_mod_cast this

/-- C122: the neutral point, the opposite, the sum, the difference and the multiple which the library computes are those of the group of the
curve, for every two points and every coordinates of them: no pair of points is an exception. -/
theorem C122_operations {e f : Extended} {P Q : EdP} (he : Rep e P) (hf : Rep f Q) :
    Rep Extended.zero 0 ∧ Rep e.neg (-P) ∧ Rep (e.add f) (P + Q) ∧ Rep (e.sub f) (P - Q) ∧
      ∀ a : Scalar, leNat a.1 ≤ mulLimit → Rep (Extended.mul a.1 e) (leNat a.1 • P) := by
  refine ⟨Rep.zero, he.neg, he.add hf, he.sub hf, fun a ha => ?_⟩
  have := he.mul a.1
  rwa [pointMul_le a.1 a.2 ha] at this

/-- C122: the sum, in coordinates: the fractions of the textbook, whose denominators are never zero. -/
theorem C122_sum (P Q : EdP) :
    1 + edD * P.x * Q.x * P.y * Q.y ≠ 0 ∧ 1 - edD * P.x * Q.x * P.y * Q.y ≠ 0 ∧
      (P + Q).x = (P.x * Q.y + Q.x * P.y) / (1 + edD * P.x * Q.x * P.y * Q.y) ∧
      (P + Q).y = (P.y * Q.y + P.x * Q.x) / (1 - edD * P.x * Q.x * P.y * Q.y) :=
  ⟨ed_plus P Q, ed_minus P Q, rfl, rfl⟩

/-- C122: above the limit of C117 the coordinates are those of the wrong multiple of C117, too. -/
theorem C122_large {e : Extended} {P : EdP} (he : Rep e P) (a : Scalar) : Rep (Extended.mul a.1 e) (pointMul a.1 P) := he.mul a.1

/-- C122: coordinates stand for one point; `Equal`, `MarshalBinary` and the text depend on the point only, not on which of its coordinates were
computed, and two points are equal if and only if their bytes are. -/
theorem C122_equal {e f : Extended} {P Q : EdP} (he : Rep e P) (hf : Rep f Q) :
    (e.equal f = true ↔ P = Q) ∧ e.toBytes = encodePoint P ∧ (pointStr e = pointStr f ↔ P = Q) ∧ (∀ R, Rep e R → R = P) := by
  refine ⟨equal_iff he hf, he.toBytes, ?_, fun R hR => ?_⟩
  · unfold pointStr
    constructor
    · intro h
      have h2 := congrArg Hash.hexDecode h
      rw [hexDecode_hexEncode, hexDecode_hexEncode, he.toBytes, hf.toBytes] at h2
      exact encode_inj (Out.ok.inj h2)
    · rintro rfl
      rw [he.toBytes, hf.toBytes]
  · exact encode_inj (by rw [← hR.toBytes, he.toBytes])

/-- The base point satisfies the hypotheses. -/
example : Rep baseExt basePoint ∧ Rep (baseExt.add baseExt) (basePoint + basePoint) ∧ Rep (baseExt.sub baseExt) 0 :=
  ⟨rep_base, rep_base.add rep_base, by have := rep_base.sub rep_base; rwa [sub_self] at this⟩

/-! ## C123: the base point -/

theorem addOrderOf_base : addOrderOf basePoint = primeOrder := by
  rcases (Nat.dvd_prime prime_primeOrder).1 (addOrderOf_dvd_of_nsmul_eq_zero basePoint_order) with h | h
  · exact absurd (AddMonoid.addOrderOf_eq_one_iff.1 h) basePoint_ne
  · exact h

/-- C123: the base point is that of Ed25519 (`y` is 4/5, `x` is even), and its order is exactly the prime which the scalars are reduced by. -/
theorem C123_base : Rep baseExt basePoint ∧ basePoint.y * 5 = 4 ∧ basePoint.x.val % 2 = 0 ∧ primeOrder.Prime ∧
    ∀ n : Nat, n • basePoint = 0 ↔ primeOrder ∣ n := by
  refine ⟨rep_base, basePoint_y, ?_, prime_primeOrder, fun n => ?_⟩
  · show (((15112221349535400772501151409588531511454012693041857206046113283949847762202 : Nat) : Fe)).val % 2 = 0
    rw [ZMod.val_natCast]
    decide +kernel
  · rw [← addOrderOf_base]
    exact addOrderOf_dvd_iff_nsmul_eq_zero.symm

/-- C123: below the limit, two private keys have one public key if and only if they are the same number modulo the order. -/
theorem C123_public_keys (x y : Scalar) (hx : leNat x.1 ≤ mulLimit) (hy : leNat y.1 ≤ mulLimit) :
    (publicKey x).equal (publicKey y) = true ↔ leNat x.1 % primeOrder = leNat y.1 % primeOrder := by
  have h := fun (a : Scalar) (ha : leNat a.1 ≤ mulLimit) => (C122_operations rep_base rep_base).2.2.2.2 a ha
  unfold publicKey
  rw [equal_iff (h x hx) (h y hy), nsmul_eq_nsmul_iff_modEq, addOrderOf_base]
  exact Iff.rfl

/-- C123: the public key of a private key below the limit is the neutral point only for the multiples of the order. -/
theorem C123_neutral (x : Scalar) (hx : leNat x.1 ≤ mulLimit) :
    (publicKey x).equal Extended.zero = true ↔ primeOrder ∣ leNat x.1 := by
  have h := (C122_operations rep_base rep_base).2.2.2.2 x hx
  unfold publicKey
  rw [equal_iff h Rep.zero]
  exact C123_base.2.2.2.2 _

/-- The private keys 1 and 2. -/
example : (publicKey ⟨leBytes 32 1, length_leBytes _ _⟩).equal (publicKey ⟨leBytes 32 2, length_leBytes _ _⟩) = false := by
  have h1 : leNat (leBytes 32 1) = 1 := by rw [leNat_leBytes]; decide +kernel
  have h2 : leNat (leBytes 32 2) = 2 := by rw [leNat_leBytes]; decide +kernel
  have hm : 2 ≤ mulLimit := by decide +kernel
  rw [Bool.eq_false_iff, Ne, C123_public_keys _ _ (by rw [h1]; omega) (by rw [h2]; exact hm), h1, h2]
  decide +kernel

/-! ## C124: the texts of public keys -/

/-- C124: a text is a public key if and only if it is the hexadecimal form of 32 bytes which stand for a point; the key is that point, and there is at most one. Otherwise
there is an error, never a panic. -/
theorem C124_accepted (s : Str) :
    (∃ d e P, Hash.hexDecode s = .ok d ∧ toPublicKey s = .ok e ∧ Rep e P ∧ DecodesTo d P ∧ ∀ Q, DecodesTo d Q → Q = P) ∨
      (toPublicKey s = .err ∧ ∀ d, Hash.hexDecode s = .ok d → ∀ P, ¬ DecodesTo d P) := by
  unfold toPublicKey
  cases hd : Hash.hexDecode s with
  | err => exact Or.inr ⟨rfl, fun d h => by simp at h⟩
  | panic => rcases hexDecode_ok_or_err s with ⟨b, h⟩ | h <;> rw [hd] at h <;> simp at h
  | ok d =>
    rcases fromBytes_spec d with ⟨e, P, h1, h2, h3, _⟩ | ⟨h1, h2⟩
    · exact Or.inl ⟨d, e, P, rfl, h1, h3, h2, fun Q hQ => hQ.unique h2⟩
    · exact Or.inr ⟨h1, fun d' h => by rw [← Out.ok.inj h]; exact h2⟩

/-- C124: every `y` for which the curve has a point is accepted, and no other: the test of the decoder is exact. -/
theorem C124_decoder (s : Str) (hs : s.length = 32) :
    (∃ e, Extended.fromBytes s = .ok e) ↔ ∃ P : EdP, P.y = ((leNat s % 2 ^ 255 : Nat) : Fe) := by
  rcases fromBytes_spec s with ⟨e, P, h1, h2, _, _⟩ | ⟨h1, h2⟩
  · exact ⟨fun _ => ⟨P, h2.y⟩, fun _ => ⟨e, h1⟩⟩
  · refine ⟨fun ⟨e, h⟩ => by rw [h1] at h; simp at h, fun ⟨P, hP⟩ => ?_⟩
    exfalso
    by_cases h : P.x.val % 2 = leNat s / 2 ^ 255
    · exact h2 P ⟨hs, hP, Or.inr h⟩
    · by_cases h0 : P.x = 0
      · exact h2 P ⟨hs, hP, Or.inl h0⟩
      · refine h2 (-P) ⟨hs, hP, Or.inr ?_⟩
        have h3 := leNat_lt s
        rw [hs] at h3
        rw [ed_neg_x, fe_neg_val h0]
        have : P.x.val % 2 < 2 := Nat.mod_lt _ (by decide)
        omega

/-- C124: the text of a public key is read back as the same key. -/
theorem C124_round_trip {e : Extended} {P : EdP} (he : Rep e P) :
    ∃ e', toPublicKey (pointStr e) = .ok e' ∧ Rep e' P ∧ e'.equal e = true ∧ pointStr e' = pointStr e := by
  unfold toPublicKey pointStr
  rw [hexDecode_hexEncode, Out.bind_ok, he.toBytes]
  rcases fromBytes_spec (encodePoint P) with ⟨e', Q, h1, h2, h3, _⟩ | ⟨_, h2⟩
  · have hQ : Q = P := h2.unique (encode_decodes P)
    subst hQ
    exact ⟨e', h1, h3, (equal_iff h3 he).2 rfl, by rw [h3.toBytes]⟩
  · exact absurd (encode_decodes P) (h2 P)

/-- C124: the bytes which are accepted for a point: the number `y`, or `y` plus the prime if that is below `2^255`, with the parity of `x` as
the highest bit, or with any highest bit if `x` is zero. -/
theorem C124_texts (s : Str) (P : EdP) : DecodesTo s P ↔
    ∃ j b : Nat, j ≤ 1 ∧ b ≤ 1 ∧ P.y.val + j * fieldPrime < 2 ^ 255 ∧ (P.x = 0 ∨ P.x.val % 2 = b) ∧
      s = leBytes 32 (P.y.val + j * fieldPrime + 2 ^ 255 * b) := by
  have hp : fieldPrime = 2 ^ 255 - 19 := by decide +kernel
  have hp0 : 0 < fieldPrime := by decide +kernel
  have hv := fe_val_lt P.y
  constructor
  · rintro ⟨hl, hy, hx⟩
    have hlt := leNat_lt s
    rw [hl] at hlt
    have hval : P.y.val = leNat s % 2 ^ 255 % fieldPrime := by rw [hy, ZMod.val_natCast]
    have hm : leNat s % 2 ^ 255 < 2 ^ 255 := Nat.mod_lt _ (by decide +kernel)
    have hd : leNat s % 2 ^ 255 / fieldPrime ≤ 1 := by
      have : leNat s % 2 ^ 255 / fieldPrime < 2 := by
        rw [Nat.div_lt_iff_lt_mul hp0]
        omega
      omega
    have hsplit : P.y.val + leNat s % 2 ^ 255 / fieldPrime * fieldPrime = leNat s % 2 ^ 255 := by
      rw [hval, mul_comm]; exact Nat.mod_add_div _ _
    refine ⟨leNat s % 2 ^ 255 / fieldPrime, leNat s / 2 ^ 255, hd, ?_, by rw [hsplit]; exact hm, hx, ?_⟩
    · omega
    · rw [hsplit, Nat.mod_add_div]
      conv_lhs => rw [← leBytes_leNat s, hl]
  · rintro ⟨j, b, hj, hb, hlt, hx, rfl⟩
    have hn : leNat (leBytes 32 (P.y.val + j * fieldPrime + 2 ^ 255 * b)) = P.y.val + j * fieldPrime + 2 ^ 255 * b := by
      rw [leNat_leBytes, Nat.mod_eq_of_lt]
      have : 2 ^ 255 * b ≤ 2 ^ 255 * 1 := Nat.mul_le_mul_left _ hb
      have : (256 : Nat) ^ 32 = 2 ^ 255 * 2 := by decide +kernel
      omega
    refine ⟨length_leBytes _ _, ?_, ?_⟩
    · rw [hn, Nat.add_mul_mod_self_left, Nat.mod_eq_of_lt hlt, Nat.cast_add, Nat.cast_mul, CharP.cast_eq_zero Fe fieldPrime, mul_zero, add_zero,
        ZMod.natCast_val, ZMod.cast_id]
    · rw [hn]
      rcases hx with h | h
      · exact Or.inl h
      · right
        rw [h, Nat.add_mul_div_left _ _ (by decide +kernel), Nat.div_eq_of_lt hlt, Nat.zero_add]

/-- C124: so the neutral point has four texts. All are public keys, equal to each other; printing gives one of them. -/
theorem C124_neutral_texts : ∃ a b c d : Str, a ≠ b ∧ a ≠ c ∧ a ≠ d ∧ b ≠ c ∧ b ≠ d ∧ c ≠ d ∧
    ∀ s, s = a ∨ s = b ∨ s = c ∨ s = d → ∃ e, toPublicKey (Hash.hexEncode s) = .ok e ∧ Rep e 0 ∧ e.toBytes = a := by
  have hy : (0 : EdP).y.val = 1 := by
    show ((1 : Fe)).val = 1
    have : ((1 : Nat) : Fe).val = 1 % fieldPrime := ZMod.val_natCast _ _
    rw [Nat.cast_one] at this
    rw [this]; decide +kernel
  have hp : fieldPrime = 2 ^ 255 - 19 := by decide +kernel
  have hne : ∀ m n : Nat, m < 256 ^ 32 → n < 256 ^ 32 → m ≠ n → leBytes 32 m ≠ leBytes 32 n := by
    intro m n hm hn h h'
    have := congrArg leNat h'
    rw [leNat_leBytes, leNat_leBytes, Nat.mod_eq_of_lt hm, Nat.mod_eq_of_lt hn] at this
    exact h this
  have h256 : (256 : Nat) ^ 32 = 2 ^ 255 * 2 := by decide +kernel
  refine ⟨leBytes 32 (1 + 0 * fieldPrime + 2 ^ 255 * 0), leBytes 32 (1 + 0 * fieldPrime + 2 ^ 255 * 1),
    leBytes 32 (1 + 1 * fieldPrime + 2 ^ 255 * 0), leBytes 32 (1 + 1 * fieldPrime + 2 ^ 255 * 1),
    hne _ _ (by omega) (by omega) (by omega), hne _ _ (by omega) (by omega) (by omega), hne _ _ (by omega) (by omega) (by omega),
    hne _ _ (by omega) (by omega) (by omega), hne _ _ (by omega) (by omega) (by omega), hne _ _ (by omega) (by omega) (by omega), ?_⟩
  intro s hs
  have hd : DecodesTo s 0 := by
    rw [C124_texts]
    rcases hs with rfl | rfl | rfl | rfl
    · exact ⟨0, 0, by omega, by omega, by rw [hy]; omega, Or.inl rfl, by rw [hy]⟩
    · exact ⟨0, 1, by omega, by omega, by rw [hy]; omega, Or.inl rfl, by rw [hy]⟩
    · exact ⟨1, 0, by omega, by omega, by rw [hy]; omega, Or.inl rfl, by rw [hy]⟩
    · exact ⟨1, 1, by omega, by omega, by rw [hy]; omega, Or.inl rfl, by rw [hy]⟩
  unfold toPublicKey
  rw [hexDecode_hexEncode, Out.bind_ok]
  rcases fromBytes_spec s with ⟨e, Q, h1, h2, h3, _⟩ | ⟨_, h2⟩
  · have hQ : Q = 0 := h2.unique hd
    subst hQ
    refine ⟨e, h1, h3, ?_⟩
    rw [h3.toBytes, encodePoint, hy]
    show leBytes 32 (1 + 2 ^ 255 * ((0 : Fe).val % 2)) = _
    rw [ZMod.val_zero]
    rfl
  · exact absurd hd (h2 0)

/-- The point of order two. -/
def pointTwo : EdP := ⟨0, -1, by ring⟩

/-- C124: a point outside the subgroup of the base point is accepted as a public key as well: `(0, -1)`, of order two, is no multiple of the base
point, and no private key has it. -/
theorem C124_outside : pointTwo ≠ 0 ∧ 2 • pointTwo = 0 ∧ (∀ n : Nat, n • basePoint ≠ pointTwo) ∧
    ∃ s e, toPublicKey s = .ok e ∧ Rep e pointTwo ∧ ∀ x : Scalar, leNat x.1 ≤ mulLimit → (publicKey x).equal e = false := by
  have h0 : pointTwo ≠ 0 := by
    intro h
    have : (-1 : Fe) = 1 := congrArg EdPoint.y h
    exact fe_two (by linear_combination -this)
  have h2 : 2 • pointTwo = 0 := by
    rw [two_nsmul]
    have : pointTwo = -pointTwo := by
      ext
      · rw [ed_neg_x]; simp [pointTwo]
      · rw [ed_neg_y]
    conv_lhs => rw [this]
    rw [neg_add_eq_zero, ← this]
  have hn : ∀ n : Nat, n • basePoint ≠ pointTwo := by
    intro n h
    have h3 : primeOrder • pointTwo = 0 := by rw [← h, smul_comm, basePoint_order, smul_zero]
    have hodd : primeOrder = 2 * (primeOrder / 2) + 1 := by decide +kernel
    rw [hodd, succ_nsmul, mul_nsmul, h2, smul_zero, zero_add] at h3
    exact h0 h3
  refine ⟨h0, h2, hn, ?_⟩
  rcases C124_accepted (Hash.hexEncode (encodePoint pointTwo)) with ⟨d, e, P, hd, he, hr, hdec, _⟩ | ⟨_, h⟩
  · rw [hexDecode_hexEncode] at hd
    rw [← Out.ok.inj hd] at hdec
    have hP : P = pointTwo := hdec.unique (encode_decodes _)
    subst hP
    refine ⟨_, e, he, hr, fun x hx => ?_⟩
    rw [Bool.eq_false_iff, Ne]
    unfold publicKey
    rw [equal_iff ((C122_operations rep_base rep_base).2.2.2.2 x hx) hr]
    exact hn _
  · exact absurd (encode_decodes pointTwo) (h _ (hexDecode_hexEncode _) _)

end Verif.SigEd
