import Verif.Spec.EdwardsLimbs
import Verif.Lemmas.FieldLimbsPack
import Verif.Lemmas.Edwards

/-! # The coordinates in limbs compute what the coordinates in the field compute -/

namespace Verif.Kyber
open Verif

/-! ## Field elements -/

theorem fe_prime_zero : (((2 ^ 255 - 19 : Int)) : Fe) = 0 := by
  have : (((2 ^ 255 - 19 : Int)) : Fe) = ((0 : Int) : Fe) := fe_int_eq (by decide +kernel)
  rw [this, Int.cast_zero]

theorem Lim.mono {k l : Int} {f : FeL} {x : Fe} (h : Lim k f x) (hkl : k ≤ l) : Lim l f x := ⟨h.bd.mono hkl, h.val⟩

theorem Lim.mul {a b : Int} {f g : FeL} {x y : Fe} (hf : Lim a f x) (hg : Lim b g y) (ha : a ≤ 3 := by decide) (hb : b ≤ 3 := by decide) :
    Lim 1 (Limb.mul f g) (x * y) := by
  obtain ⟨w, k, e⟩ := mul_sound (hf.bd.mono ha) (hg.bd.mono hb)
  refine ⟨w, ?_⟩
  rw [e, Int.cast_add, Int.cast_mul, Int.cast_mul k, fe_prime_zero, hf.val, hg.val, mul_zero, add_zero]

theorem Lim.square {a : Int} {f : FeL} {x : Fe} (hf : Lim a f x) (ha : a ≤ 3 := by decide) : Lim 1 (Limb.square f) (x * x) := by
  obtain ⟨w, k, e⟩ := square_sound (hf.bd.mono ha)
  refine ⟨w, ?_⟩
  rw [e, Int.cast_add, Int.cast_mul, Int.cast_mul k, fe_prime_zero, hf.val, mul_zero, add_zero]

theorem Lim.square2 {a : Int} {f : FeL} {x : Fe} (hf : Lim a f x) (ha : a ≤ 3 := by decide) : Lim 1 (Limb.square2 f) (2 * (x * x)) := by
  obtain ⟨w, k, e⟩ := square2_sound (hf.bd.mono ha)
  refine ⟨w, ?_⟩
  rw [e, Int.cast_add, Int.cast_mul, Int.cast_mul k, fe_prime_zero, Int.cast_mul, hf.val, mul_zero, add_zero]
  simp

theorem Lim.add {a b : Int} {f g : FeL} {x y : Fe} (hf : Lim a f x) (hg : Lim b g y) (hab : a + b ≤ 3 := by decide) :
    Lim (a + b) (Limb.add f g) (x + y) := by
  obtain ⟨w, e⟩ := add_sound hf.bd hg.bd hab
  exact ⟨w, by rw [e, Int.cast_add, hf.val, hg.val]⟩

theorem Lim.sub {a b : Int} {f g : FeL} {x y : Fe} (hf : Lim a f x) (hg : Lim b g y) (hab : a + b ≤ 3 := by decide) :
    Lim (a + b) (Limb.sub f g) (x - y) := by
  obtain ⟨w, e⟩ := sub_sound hf.bd hg.bd hab
  exact ⟨w, by rw [e, Int.cast_sub, hf.val, hg.val]⟩

theorem Lim.neg {a : Int} {f : FeL} {x : Fe} (hf : Lim a f x) (ha : a ≤ 3 := by decide) : Lim a (Limb.neg f) (-x) := by
  obtain ⟨w, e⟩ := neg_sound hf.bd ha
  exact ⟨w, by rw [e, Int.cast_neg, hf.val]⟩

/-- A bound which can be computed. -/
theorem Bd.of_check {f : FeL} (k : Int) (h : (decide (f.length = 10) && (List.range 10).all (fun i => decide (-(k * tight i) ≤ (fat f i).toInt) &&
    decide ((fat f i).toInt ≤ k * tight i))) = true) : Bd k f := by
  simp only [Bool.and_eq_true, decide_eq_true_eq, List.all_eq_true, List.mem_range] at h
  exact ⟨h.1, fun i hi => (h.2 i hi).1, fun i hi => (h.2 i hi).2⟩

theorem Lim.zero : Lim 1 Limb.zero 0 := by
  refine ⟨Bd.of_check 1 (by decide), ?_⟩
  rw [show feVal Limb.zero = 0 by decide +kernel, Int.cast_zero]

theorem Lim.one : Lim 1 Limb.one 1 := by
  refine ⟨Bd.of_check 1 (by decide), ?_⟩
  rw [show feVal Limb.one = 1 by decide +kernel, Int.cast_one]

theorem Lim.d : Lim 1 dLimbs edD := ⟨Bd.of_check 1 (by decide), by rw [show feVal dLimbs = dInt by decide +kernel]; rfl⟩
theorem Lim.d2 : Lim 1 d2Limbs edD2 := ⟨Bd.of_check 1 (by decide), by rw [show feVal d2Limbs = d2Int by decide +kernel]; rfl⟩
theorem Lim.sqrtM1 : Lim 1 sqrtM1Limbs edSqrtM1 := ⟨Bd.of_check 1 (by decide), by rw [show feVal sqrtM1Limbs = sqrtM1Int by decide +kernel]; rfl⟩

theorem Lim.squareN {f : FeL} {x : Fe} (n : Nat) (hf : Lim 1 f x) : Lim 1 (Limb.squareN n f) (sqN n x) := by
  induction n generalizing f x with
  | zero => exact hf
  | succ n ih => exact ih hf.square

theorem Lim.invert {a : Int} {f : FeL} {x : Fe} (hf : Lim a f x) (ha : a ≤ 3 := by decide) : Lim 1 (Limb.invert f) (feInvert x) := by
  unfold Limb.invert feInvert
  extract_lets t0 t1 t2 t3 t4 t5 t6 t7 t8 t9 t10 t11 t12 t13 t14 t15 t16 t17 t18 t19 t20 u0 u1 u2 u3 u4 u5 u6 u7 u8 u9 u10 u11 u12 u13 u14 u15 u16 u17 u18 u19 u20
  have h0 : Lim 1 t0 u0 := hf.square ha
  have h1 : Lim 1 t1 u1 := h0.squareN 2
  have h2 : Lim 1 t2 u2 := hf.mul h1 ha
  have h3 : Lim 1 t3 u3 := h0.mul h2
  have h4 : Lim 1 t4 u4 := h3.square
  have h5 : Lim 1 t5 u5 := h2.mul h4
  have h6 : Lim 1 t6 u6 := h5.squareN 5
  have h7 : Lim 1 t7 u7 := h6.mul h5
  have h8 : Lim 1 t8 u8 := h7.squareN 10
  have h9 : Lim 1 t9 u9 := h8.mul h7
  have h10 : Lim 1 t10 u10 := h9.squareN 20
  have h11 : Lim 1 t11 u11 := h10.mul h9
  have h12 : Lim 1 t12 u12 := h11.squareN 10
  have h13 : Lim 1 t13 u13 := h12.mul h7
  have h14 : Lim 1 t14 u14 := h13.squareN 50
  have h15 : Lim 1 t15 u15 := h14.mul h13
  have h16 : Lim 1 t16 u16 := h15.squareN 100
  have h17 : Lim 1 t17 u17 := h16.mul h15
  have h18 : Lim 1 t18 u18 := h17.squareN 50
  have h19 : Lim 1 t19 u19 := h18.mul h13
  have h20 : Lim 1 t20 u20 := h19.squareN 5
  exact h20.mul h3

theorem Lim.pow22523 {a : Int} {f : FeL} {x : Fe} (hf : Lim a f x) (ha : a ≤ 3 := by decide) : Lim 1 (Limb.pow22523 f) (fePow22523 x) := by
  unfold Limb.pow22523 fePow22523
  extract_lets t0 t1 t2 t3 t4 t5 t6 t7 t8 t9 t10 t11 t12 t13 t14 t15 t16 t17 t18 t19 t20 u0 u1 u2 u3 u4 u5 u6 u7 u8 u9 u10 u11 u12 u13 u14 u15 u16 u17 u18 u19 u20
  have h0 : Lim 1 t0 u0 := hf.square ha
  have h1 : Lim 1 t1 u1 := h0.squareN 2
  have h2 : Lim 1 t2 u2 := hf.mul h1 ha
  have h3 : Lim 1 t3 u3 := h0.mul h2
  have h4 : Lim 1 t4 u4 := h3.square
  have h5 : Lim 1 t5 u5 := h2.mul h4
  have h6 : Lim 1 t6 u6 := h5.squareN 5
  have h7 : Lim 1 t7 u7 := h6.mul h5
  have h8 : Lim 1 t8 u8 := h7.squareN 10
  have h9 : Lim 1 t9 u9 := h8.mul h7
  have h10 : Lim 1 t10 u10 := h9.squareN 20
  have h11 : Lim 1 t11 u11 := h10.mul h9
  have h12 : Lim 1 t12 u12 := h11.squareN 10
  have h13 : Lim 1 t13 u13 := h12.mul h7
  have h14 : Lim 1 t14 u14 := h13.squareN 50
  have h15 : Lim 1 t15 u15 := h14.mul h13
  have h16 : Lim 1 t16 u16 := h15.squareN 100
  have h17 : Lim 1 t17 u17 := h16.mul h15
  have h18 : Lim 1 t18 u18 := h17.squareN 50
  have h19 : Lim 1 t19 u19 := h18.mul h13
  have h20 : Lim 1 t20 u20 := h19.squareN 2
  exact h20.mul hf (by decide) ha

theorem Lim.fromBytes (s : Str) : Lim 1 (Limb.fromBytes s) (feFromBytes s) := by
  obtain ⟨w, k, e⟩ := fromBytes_sound s
  refine ⟨w, ?_⟩
  rw [e, Int.cast_add, Int.cast_mul, fe_prime_zero, mul_zero, add_zero, Int.cast_natCast]
  rfl

theorem fieldPrime_int : (fieldPrime : Int) = 2 ^ 255 - 19 := by decide +kernel

theorem Lim.val_eq {k : Int} {f : FeL} {x : Fe} (h : Lim k f x) : (x.val : Int) = feVal f % (2 ^ 255 - 19) := by
  rw [← h.val, ZMod.val_intCast, fieldPrime_int]

theorem Lim.toBytes {k : Int} {f : FeL} {x : Fe} (h : Lim k f x) (hk : k ≤ 3 := by decide) : Limb.toBytes f = feToBytes x := by
  apply leNat_inj
  · rw [feToBytes, length_leBytes]; rfl
  · have h1 := toBytes_sound (h.bd.mono hk)
    rw [← h.val_eq] at h1
    have h2 : leNat (Limb.toBytes f) = x.val := by exact_mod_cast h1
    have h3 := fe_val_lt x
    have h4 := fieldPrime_lt
    rw [h2, feToBytes, leNat_leBytes, Nat.mod_eq_of_lt]
    norm_num at h4 ⊢
    omega

theorem Lim.isNegative {k : Int} {f : FeL} {x : Fe} (h : Lim k f x) (hk : k ≤ 3 := by decide) : Limb.isNegative f = feIsNegative x := by
  rw [Limb.isNegative, feIsNegative, h.toBytes hk]

theorem Lim.normal {k : Int} {f : FeL} {x : Fe} (h : Lim k f x) (hk : k ≤ 3 := by decide) : Lim 2 (Limb.normal f) x := by
  obtain ⟨n1, n2, n3⟩ := normal_sound (h.bd.mono hk)
  have ht : ∀ i, (2 : Int) ^ Limb.width i ≤ 2 * tight i := by
    intro i
    unfold Limb.width tight
    split <;> decide
  refine ⟨⟨n1, fun i hi => ?_, fun i hi => ?_⟩, ?_⟩
  · have := (n2 i hi).1; have := tight_pos i; show _ ≤ fi _ i; omega
  · have := (n2 i hi).2; have := ht i; show fi _ i ≤ _; omega
  · rw [n3, ← h.val_eq, Int.cast_natCast, ZMod.natCast_val, ZMod.cast_id', id]

theorem foldl_or_zero (l : Str) (a : UInt8) : l.foldl (fun x b => x ||| b) a = 0 ↔ a = 0 ∧ leNat l = 0 := by
  induction l generalizing a with
  | nil => simp [leNat]
  | cons b l ih =>
    rw [List.foldl_cons, ih, UInt8.or_eq_zero_iff, leNat]
    constructor
    · rintro ⟨⟨rfl, rfl⟩, h⟩; simp [h]
    · rintro ⟨rfl, h⟩
      have h1 : b.toNat = 0 := by omega
      have h2 : b = 0 := UInt8.toNat_inj.1 (by simpa using h1)
      exact ⟨⟨rfl, h2⟩, by omega⟩

theorem smear (x : UInt8) :
    ((fun x : UInt8 => let x := x ||| (x >>> 4); let x := x ||| (x >>> 2); let x := x ||| (x >>> 1); (x &&& 1).toUInt32.toInt32) x = 1) ↔ x ≠ 0 := by
  have key : ∀ n : Fin 256, ((fun x : UInt8 => let x := x ||| (x >>> 4); let x := x ||| (x >>> 2); let x := x ||| (x >>> 1); (x &&& 1).toUInt32.toInt32)
      (UInt8.ofNat n) = 1) ↔ UInt8.ofNat n ≠ 0 := by decide +kernel
  have := key ⟨x.toNat, x.toNat_lt⟩
  simpa using this

theorem Lim.isNonZero {k : Int} {f : FeL} {x : Fe} (h : Lim k f x) (hk : k ≤ 3 := by decide) : Limb.isNonZero f = 1 ↔ x ≠ 0 := by
  unfold Limb.isNonZero
  have h1 := foldl_or_zero (Limb.toBytes f) 0
  have h2 := toBytes_sound (h.bd.mono hk)
  rw [← h.val_eq] at h2
  have h3 : leNat (Limb.toBytes f) = x.val := by exact_mod_cast h2
  rw [h3, ZMod.val_eq_zero] at h1
  rw [ne_eq, ← (show ((0 : UInt8) = 0 ∧ x = 0) ↔ x = 0 by simp), ← h1]
  exact smear _

/-! ## Points -/

attribute [local irreducible] Limb.mul Limb.square Limb.square2 Limb.add Limb.sub Limb.neg Limb.invert Limb.pow22523 Limb.normal Limb.toBytes Limb.fromBytes

/-- Completed coordinates. -/
structure LimC (c : LCompleted) (C : Completed) : Prop where
  X : Lim 3 c.X C.X
  Y : Lim 3 c.Y C.Y
  Z : Lim 3 c.Z C.Z
  T : Lim 3 c.T C.T

/-- Projective coordinates. -/
structure LimP (p : LProjective) (P : Projective) : Prop where
  X : Lim 1 p.X P.X
  Y : Lim 1 p.Y P.Y
  Z : Lim 1 p.Z P.Z

/-- Cached coordinates. -/
structure LimK (c : LCached) (C : Cached) : Prop where
  yPlusX : Lim 3 c.yPlusX C.yPlusX
  yMinusX : Lim 3 c.yMinusX C.yMinusX
  Z : Lim 1 c.Z C.Z
  T2d : Lim 1 c.T2d C.T2d

theorem LimC.toProjective {c : LCompleted} {C : Completed} (h : LimC c C) : LimP c.toProjective C.toProjective := by
  unfold LCompleted.toProjective Completed.toProjective
  constructor <;> dsimp only
  · exact h.X.mul h.T
  · exact h.Y.mul h.Z
  · exact h.Z.mul h.T

theorem LimC.toExtended {c : LCompleted} {C : Completed} (h : LimC c C) : LimE c.toExtended C.toExtended := by
  unfold LCompleted.toExtended Completed.toExtended
  constructor <;> dsimp only
  · exact (h.X.mul h.T).mono (by decide)
  · exact h.Y.mul h.Z
  · exact h.Z.mul h.T
  · exact h.X.mul h.Y

theorem LimP.double {p : LProjective} {P : Projective} (h : LimP p P) : LimC p.double P.double := by
  have hX := h.X.square
  have hZ := h.Y.square
  have hT := h.Z.square2
  have t0 := (h.X.add h.Y).square
  have hY := hZ.add hX
  have hZ' := hZ.sub hX
  unfold LProjective.double Projective.double
  constructor <;> dsimp only
  · exact t0.sub hY
  · exact hY.mono (by decide)
  · exact hZ'.mono (by decide)
  · exact hT.sub hZ'

theorem LimE.zero : LimE LExtended.zero Extended.zero := ⟨Lim.zero.mono (by decide), Lim.one, Lim.one, Lim.zero⟩

theorem LimE.neg {e : LExtended} {E : Extended} (h : LimE e E) : LimE e.neg E.neg := by
  unfold LExtended.neg Extended.neg
  constructor <;> dsimp only
  · exact h.X.neg
  · exact h.Y
  · exact h.Z
  · exact h.T.neg

theorem LimE.toCached {e : LExtended} {E : Extended} (h : LimE e E) : LimK e.toCached E.toCached := by
  unfold LExtended.toCached Extended.toCached
  constructor <;> dsimp only
  · exact h.Y.add h.X
  · exact h.Y.sub h.X
  · exact h.Z
  · exact h.T.mul Lim.d2

theorem LimC.add {e : LExtended} {E : Extended} {c : LCached} {C : Cached} (h : LimE e E) (k : LimK c C) : LimC (LCompleted.add e c) (Completed.add E C) := by
  have cZ := (h.Y.add h.X).mul k.yPlusX
  have cY := (h.Y.sub h.X).mul k.yMinusX
  have cT := k.T2d.mul h.T
  have cX := h.Z.mul k.Z
  have t0 := cX.add cX
  unfold LCompleted.add Completed.add
  constructor <;> dsimp only
  · exact (cZ.sub cY).mono (by decide)
  · exact (cZ.add cY).mono (by decide)
  · exact t0.add cT
  · exact t0.sub cT

theorem LimC.sub {e : LExtended} {E : Extended} {c : LCached} {C : Cached} (h : LimE e E) (k : LimK c C) : LimC (LCompleted.sub e c) (Completed.sub E C) := by
  have cZ := (h.Y.add h.X).mul k.yMinusX
  have cY := (h.Y.sub h.X).mul k.yPlusX
  have cT := k.T2d.mul h.T
  have cX := h.Z.mul k.Z
  have t0 := cX.add cX
  unfold LCompleted.sub Completed.sub
  constructor <;> dsimp only
  · exact (cZ.sub cY).mono (by decide)
  · exact (cZ.add cY).mono (by decide)
  · exact t0.sub cT
  · exact t0.add cT

theorem LimK.zero : LimK LCached.zero Cached.zero := ⟨Lim.one.mono (by decide), Lim.one.mono (by decide), Lim.one, Lim.zero⟩

theorem LimK.neg {c : LCached} {C : Cached} (h : LimK c C) : LimK c.neg C.neg := by
  unfold LCached.neg Cached.neg
  constructor <;> dsimp only
  · exact h.yMinusX
  · exact h.yPlusX
  · exact h.Z
  · exact h.T2d.neg

theorem LimK.cmove_zero {c u : LCached} {C : Cached} (h : LimK c C) : c.cmove u 0 = c := by
  unfold LCached.cmove
  rw [Kyber.cmove_zero _ _ h.yPlusX.bd.len, Kyber.cmove_zero _ _ h.yMinusX.bd.len, Kyber.cmove_zero _ _ h.Z.bd.len, Kyber.cmove_zero _ _ h.T2d.bd.len]

theorem LimK.cmove_one {c u : LCached} {U : Cached} (h : LimK u U) : c.cmove u 1 = u := by
  unfold LCached.cmove
  rw [Kyber.cmove_one _ _ h.yPlusX.bd.len, Kyber.cmove_one _ _ h.yMinusX.bd.len, Kyber.cmove_one _ _ h.Z.bd.len, Kyber.cmove_one _ _ h.T2d.bd.len]

theorem bit_eq {b : Int32} (h : b = 0 ∨ b = 1) (hb : b ≠ 1) : b = 0 := h.resolve_right hb

theorem equal32_bit (b c : Int32) : equal32 b c = 0 ∨ equal32 b c = 1 := by
  unfold equal32
  generalize (b ^^^ c).toUInt32 - 1 = x
  have : (x >>> 31).toNat < 2 := by
    have := x.toNat_lt
    rw [UInt32.toNat_shiftRight]
    simp only [UInt32.toNat_ofNat]
    rw [Nat.shiftRight_eq_div_pow]
    norm_num
    omega
  generalize x >>> 31 = y at this
  have hy : y = 0 ∨ y = 1 := by
    rcases (show y.toNat = 0 ∨ y.toNat = 1 by omega) with h | h
    · left; exact UInt32.toNat_inj.1 (by simpa using h)
    · right; exact UInt32.toNat_inj.1 (by simpa using h)
  rcases hy with rfl | rfl
  · left; rfl
  · right; rfl

theorem negative32_bit (b : Int32) : negative32 b = 0 ∨ negative32 b = 1 := by
  unfold negative32
  generalize b >>> 31 = x
  have h1 : (x &&& 1).toBitVec = BitVec.ofNat 32 (x.toBitVec.toNat % 2) := by
    rw [Int32.toBitVec_and]
    apply BitVec.eq_of_toNat_eq
    rw [BitVec.toNat_and]
    show _ &&& 1 = _
    rw [Nat.and_one_is_mod, BitVec.toNat_ofNat]
    omega
  rcases Nat.mod_two_eq_zero_or_one x.toBitVec.toNat with h | h
  · left; apply Int32.toBitVec_inj.1; rw [h1, h]; rfl
  · right; apply Int32.toBitVec_inj.1; rw [h1, h]; rfl

theorem LimK.cmove {c u : LCached} {C U : Cached} (h : LimK c C) (k : LimK u U) {b : Int32} (hb : b = 0 ∨ b = 1) :
    LimK (c.cmove u b) (if b = 1 then U else C) := by
  rcases hb with rfl | rfl
  · rw [h.cmove_zero, if_neg (by decide)]; exact h
  · rw [k.cmove_one, if_pos rfl]; exact k

theorem LimK.table {e : LExtended} {E : Extended} (h : LimE e E) : ∀ i, LimK (lcachedTable e i) (cachedTable E i)
  | 0 => h.toCached
  | i + 1 => (LimC.add h (LimK.table h i)).toExtended.toCached

theorem LimK.select {e : LExtended} {E : Extended} (h : LimE e E) (b : Int32) : LimK (lselectTable e b) (selectTable E b) := by
  have hf : ∀ (x : Int32) (l : List Nat) (c : LCached) (C : Cached), LimK c C →
      LimK (l.foldl (fun c i => c.cmove (lcachedTable e i) (equal32 x (Int32.ofNat (i + 1)))) c)
        (l.foldl (fun c i => if equal32 x (Int32.ofNat (i + 1)) = 1 then cachedTable E i else c) C) := by
    intro x l
    induction l with
    | nil => intro c C hc; exact hc
    | cons i l ih =>
      intro c C hc
      simp only [List.foldl_cons]
      exact ih _ _ (hc.cmove (LimK.table h i) (equal32_bit _ _))
  simp only [lselectTable, selectTable]
  exact (hf _ _ _ _ LimK.zero).cmove (hf _ _ _ _ LimK.zero).neg (negative32_bit _)

theorem LimC.turn {e : LExtended} {E : Extended} (h : LimE e E) {t : LCompleted} {T : Completed} (ht : LimC t T) (d : Int8) :
    LimC (lmultTurn e t d) (multTurn E T d) := by
  simp only [lmultTurn, multTurn]
  exact LimC.add (LimP.double (LimP.double (LimP.double (LimP.double ht.toProjective).toProjective).toProjective).toProjective).toExtended
    (LimK.select h _)

theorem LimE.mul {e : LExtended} {E : Extended} (h : LimE e E) (a : Str) : LimE (LExtended.mul a e) (Extended.mul a E) := by
  have hf : ∀ (l : List Int8) (t : LCompleted) (T : Completed), LimC t T → LimC (l.foldl (lmultTurn e) t) (l.foldl (multTurn E) T) := by
    intro l
    induction l with
    | nil => intro t T ht; exact ht
    | cons d l ih => intro t T ht; exact ih _ _ (ht.turn h d)
  unfold LExtended.mul Extended.mul
  cases (digits a).reverse with
  | nil => exact LimE.zero
  | cons top rest => exact (hf _ _ _ (LimC.add LimE.zero (LimK.select h _))).toExtended

theorem LimE.add {e f : LExtended} {E F : Extended} (h : LimE e E) (k : LimE f F) : LimE (e.add f) (E.add F) := (LimC.add h k.toCached).toExtended

theorem LimE.sub {e f : LExtended} {E F : Extended} (h : LimE e E) (k : LimE f F) : LimE (e.sub f) (E.sub F) := (LimC.sub h k.toCached).toExtended

theorem LimE.toBytes {e : LExtended} {E : Extended} (h : LimE e E) : e.toBytes = E.toBytes := by
  unfold LExtended.toBytes Extended.toBytes
  dsimp only
  have hr := h.Z.invert
  rw [(h.Y.mul hr).toBytes, (h.X.mul hr).isNegative]

theorem LimE.base : LimE lbaseExt baseExt := by
  refine ⟨⟨Bd.of_check 2 (by decide), ?_⟩, ⟨Bd.of_check 1 (by decide), ?_⟩, ⟨Bd.of_check 1 (by decide), ?_⟩, ⟨Bd.of_check 1 (by decide), ?_⟩⟩
  · rw [show feVal lbaseExt.X = baseInts.getD 0 0 by decide +kernel]; rfl
  · rw [show feVal lbaseExt.Y = baseInts.getD 1 0 by decide +kernel]; rfl
  · rw [show feVal lbaseExt.Z = baseInts.getD 2 0 by decide +kernel]; rfl
  · rw [show feVal lbaseExt.T = baseInts.getD 3 0 by decide +kernel]; rfl

theorem LimE.withSign (s : Str) {X Y : FeL} {x y : Fe} (hX : Lim 1 X x) (hY : Lim 1 Y y) :
    LimE (LExtended.withSign s X Y) (let X := if feIsNegative x ≠ s.getD 31 0 >>> 7 then -x else x; ⟨X, y, 1, X * y⟩) := by
  unfold LExtended.withSign
  dsimp only
  rw [hX.isNegative]
  by_cases hs : feIsNegative x ≠ s.getD 31 0 >>> 7
  · rw [if_pos hs, if_pos hs]
    constructor <;> dsimp only
    · exact hX.normal.neg
    · exact hY
    · exact Lim.one
    · exact hX.normal.neg.mul hY
  · rw [if_neg hs, if_neg hs]
    constructor <;> dsimp only
    · exact hX.normal
    · exact hY
    · exact Lim.one
    · exact hX.normal.mul hY

/-- Reading bytes: the same results, the same errors. -/
theorem LimE.fromBytes (s : Str) : (∃ e E, LExtended.fromBytes s = .ok e ∧ Extended.fromBytes s = .ok E ∧ LimE e E) ∨
    (LExtended.fromBytes s = .err ∧ Extended.fromBytes s = .err) := by
  unfold LExtended.fromBytes Extended.fromBytes
  by_cases hl : s.length ≠ 32
  · rw [if_pos hl, if_pos hl]; exact Or.inr ⟨rfl, rfl⟩
  rw [if_neg hl, if_neg hl]
  dsimp only
  have hY := Lim.fromBytes s
  have hu0 := hY.square
  have hu := hu0.sub Lim.one
  have hv := (hu0.mul Lim.d).add Lim.one
  have hv3 := hv.square.mul hv
  have hX := ((((hv3.square.mul hv).mul hu).pow22523).mul hv3).mul hu
  have hvxx := hX.square.mul hv
  have hc1 := (hvxx.sub hu).isNonZero
  have hc2 := (hvxx.add hu).isNonZero
  have hX2 := hX.mul Lim.sqrtM1
  clear hvxx hv3 hu hu0
  generalize Limb.isNonZero (Limb.sub _ _) = n1 at *
  generalize Limb.isNonZero (Limb.add _ _) = n2 at *
  by_cases g1 : n1 = 1
  · rw [if_pos g1, if_pos (hc1.1 g1)]
    by_cases g2 : n2 = 1
    · rw [if_pos g2, if_pos (hc2.1 g2)]
      exact Or.inr ⟨rfl, rfl⟩
    · rw [if_neg g2, if_neg (fun h => g2 (hc2.2 h))]
      exact Or.inl ⟨_, _, rfl, rfl, LimE.withSign s hX2 hY⟩
  · rw [if_neg g1, if_neg (fun h => g1 (hc1.2 h))]
    exact Or.inl ⟨_, _, rfl, rfl, LimE.withSign s hX hY⟩

end Verif.Kyber
