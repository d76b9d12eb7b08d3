import Verif.Spec.SignatureBytes

/-! # The bytes of the signatures against the algebra -/

namespace Verif.SigBytes
open Verif Verif.Kyber

theorem primeOrder_lt : primeOrder < 256 ^ 32 := by decide +kernel
theorem primeOrder_le_limit : primeOrder ≤ mulLimit := by decide +kernel
theorem primeOrder_pos : 0 < primeOrder := by decide +kernel

theorem scalar_ext {a b : Scalar} (h : leNat a.1 = leNat b.1) : a = b :=
  Subtype.ext (leNat_inj (by rw [a.2, b.2]) h)

theorem residue_val (a : Scalar) : (residue a).val = leNat a.1 % primeOrder := by
  unfold residue; rw [ZMod.val_natCast]

theorem reduced_iff (a : Scalar) : Reduced a ↔ a = ofResidue (residue a) := by
  constructor
  · intro h
    apply scalar_ext
    rw [leNat_ofResidue, residue_val, Nat.mod_eq_of_lt h]
  · intro h
    unfold Reduced
    rw [h, leNat_ofResidue]
    exact (residue a).val_lt

theorem reduced_ofResidue (z : ZMod primeOrder) : Reduced (ofResidue z) := by
  unfold Reduced; rw [leNat_ofResidue]; exact z.val_lt

theorem ofResidue_val (z : ZMod primeOrder) : (ofResidue z).1 = leBytes 32 z.val := rfl

theorem marshal_eq (a : Scalar) : marshal a.1 = (ofResidue (residue a)).1 := by
  rw [ofResidue_val, residue_val]
  unfold marshal
  rfl

attribute [local irreducible] ofResidue residue primeOrder leBytes

theorem setBytes_eq (b : Str) : leNat (setBytes b) = leNat b % primeOrder := by
  unfold setBytes
  rw [leNat_leBytes, Nat.mod_eq_of_lt]
  exact lt_trans (Nat.mod_lt _ primeOrder_pos) primeOrder_lt

theorem reduced_sub (a b : Scalar) : Reduced (sub a b) := by
  have h := leNat_scSub a.1 b.1 a.2 b.2
  have h2 := Int.emod_lt_of_pos ((leNat a.1 : Int) - leNat b.1) (b := primeOrder) (by exact_mod_cast primeOrder_pos)
  rw [← h] at h2
  exact_mod_cast h2

theorem reduced_mul (a b : Scalar) : Reduced (mul a b) := by
  unfold Reduced mul; rw [leNat_scMul a.1 b.1 a.2 b.2]; exact Nat.mod_lt _ primeOrder_pos

theorem reduced_oneDiv (e : Scalar) : Reduced (oneDiv e) := by
  unfold Reduced oneDiv
  show leNat (scMul one (scInv e.1)) < _
  rw [leNat_scMul one (scInv e.1) rfl (length_scInv e.1 e.2)]; exact Nat.mod_lt _ primeOrder_pos

theorem residue_sub (a b : Scalar) : residue (sub a b) = residue a - residue b := by
  have h := congrArg (Int.cast : Int → ZMod primeOrder) (leNat_scSub a.1 b.1 a.2 b.2)
  rw [ZMod.intCast_mod, Int.cast_sub, Int.cast_natCast, Int.cast_natCast, Int.cast_natCast] at h
  unfold residue
  exact h

theorem residue_mul (a b : Scalar) : residue (mul a b) = residue a * residue b := by
  have h := toZ_scMul a.1 b.1 a.2 b.2
  unfold residue
  exact h

theorem residue_oneDiv (e : Scalar) : residue (oneDiv e) = 1 / residue e := by
  have hd : ∀ s : Scalar, residue s = Kyber.toZ s.1 := by intro s; unfold residue Kyber.toZ; rfl
  rw [hd, hd]
  show Kyber.toZ (scMul one (scInv e.1)) = 1 / Kyber.toZ e.1
  rw [toZ_scMul one (scInv e.1) rfl (length_scInv e.1 e.2), toZ_scInv e.1 e.2]
  have : Kyber.toZ one = 1 := by unfold Kyber.toZ; rw [leNat_one]; exact Nat.cast_one
  rw [this, one_div, one_mul]

theorem sub_eq (a b : Scalar) : sub a b = ofResidue (residue a - residue b) := by
  rw [← residue_sub]; exact (reduced_iff _).1 (reduced_sub a b)

variable {P : Type} [AddCommGroup P] [DecidableEq P] (g : Group P)

theorem createHash_eq (m : Str) : createHash g m = ofResidue ((curveOf g).createHash m) := by
  refine (reduced_iff _).1 ?_
  unfold Reduced createHash
  show leNat (setBytes _) < _
  rw [setBytes_eq]; exact Nat.mod_lt _ primeOrder_pos

theorem scalarStr_eq (a : Scalar) : scalarStr a = Signature.scalarStr (curveOf g) (residue a) := by
  unfold scalarStr Signature.scalarStr; rw [marshal_eq]; rfl

theorem pointStr_eq (p : P) : pointStr g p = Signature.pointStr (curveOf g) p := rfl

theorem genK_eq (x : Scalar) (m : Str) : genK g x m = ofResidue (Signature.genK (curveOf g) (residue x) m) := by
  unfold genK Signature.genK
  rw [createHash_eq, scalarStr_eq g]

/-- Multiplication by a reduced scalar, of any point. -/
theorem pointMul_ofResidue (z : ZMod primeOrder) (p : P) : pointMul (ofResidue z).1 p = Signature.smul z p := by
  rw [pointMul_le _ (ofResidue z).2 (by
    have := reduced_ofResidue z; have := primeOrder_le_limit; unfold Reduced at *; omega), leNat_ofResidue]
  rfl

/-- Multiplication of the base point by any scalar below the limit. -/
theorem pointMul_base (a : Scalar) (h : leNat a.1 ≤ mulLimit) : pointMul a.1 g.G = Signature.smul (residue a) g.G := by
  rw [pointMul_le _ a.2 h, Signature.smul, residue_val, Signature.mod_smul _ _ g.G_order]

theorem publicKey_eq (x : Scalar) (h : leNat x.1 ≤ mulLimit) :
    publicKey g x = Signature.publicKey (curveOf g) (residue x) := pointMul_base g x h

theorem sigPublicKey_eq (sig : Sig P) (h : leNat sig.s.1 ≤ mulLimit) (m : Str) :
    sig.publicKey g m = Signature.Sig.publicKey (curveOf g) ⟨sig.r, residue sig.s⟩ m := by
  unfold Sig.publicKey Signature.Sig.publicKey
  simp only
  have h1 : oneDiv (createHash g (m ++ pointStr g sig.r)) =
      ofResidue (1 / (curveOf g).createHash (m ++ pointStr g sig.r)) := by
    rw [(reduced_iff _).1 (reduced_oneDiv _), residue_oneDiv]; rfl
  rw [h1, pointMul_ofResidue, pointMul_base g _ h]
  rfl

theorem sigVerify_eq (sig : Sig P) (h : leNat sig.s.1 ≤ mulLimit) (rnd : Str) :
    sig.verify g rnd = Signature.Sig.verify (curveOf g) rnd ⟨sig.r, residue sig.s⟩ := by
  unfold Sig.verify Signature.Sig.verify
  simp only
  rw [sigPublicKey_eq g sig h, createHash_eq, pointMul_ofResidue, pointMul_base g _ h]
  rfl

/-- A signature of the algebraic model, in bytes. -/
def sigBytes (s : Signature.Sig primeOrder P) : Sig P := ⟨s.r, ofResidue s.s⟩

/-- A ring signature of the algebraic model, in bytes. -/
def ringBytes (s : Signature.RingSig primeOrder P) : RingSig P := ⟨s.ring, s.s.map ofResidue, ofResidue s.e⟩

/-- A ring signature of bytes, modulo the order. -/
def ringResidue (s : RingSig P) : Signature.RingSig primeOrder P := ⟨s.ring, s.s.map residue, residue s.e⟩

theorem limit_ofResidue (z : ZMod primeOrder) : leNat (ofResidue z).1 ≤ mulLimit := by
  have := reduced_ofResidue z; have := primeOrder_le_limit; unfold Reduced at *; omega

theorem sign_bytes (rnd : Str) (x : Scalar) (msg : Str) :
    sign g rnd x msg = sigBytes <$> Signature.sign (curveOf g) rnd (residue x) msg := by
  unfold sign Signature.sign createSignature Signature.createSignature
  simp only
  rw [genK_eq, pointMul_ofResidue, createHash_eq, sub_eq, residue_mul, residue_ofResidue, residue_ofResidue,
    sigVerify_eq g _ (limit_ofResidue _), residue_ofResidue]
  show (if Signature.Sig.verify (curveOf g) rnd _ = true then _ else _) = _
  split <;> rename_i h
  · rw [if_pos (by exact h)]; rfl
  · rw [if_neg (by exact h)]; rfl

/-! ## Rings -/

theorem readSlot_map (l : List (Option (ZMod primeOrder))) (i : Nat) :
    readSlot (l.map (Option.map ofResidue)) i = ofResidue <$> Signature.readSlot l i := by
  unfold readSlot Signature.readSlot
  rw [List.getElem?_map]
  cases h : l[i]? with
  | none => rfl
  | some o => cases o <;> rfl

theorem ringLoop_map (x : Scalar) (msg : Str) (ring : List P) (signer : Nat) (fuel i : Nat)
    (es ss : List (Option (ZMod primeOrder))) :
    ringLoop g x msg ring signer fuel i (es.map (Option.map ofResidue)) (ss.map (Option.map ofResidue)) =
      (fun r => (r.1.map (Option.map ofResidue), r.2.map (Option.map ofResidue))) <$>
        Signature.ringLoop (curveOf g) (residue x) msg ring signer fuel i es ss := by
  induction fuel generalizing i es ss with
  | zero => rfl
  | succ fuel ih =>
    rw [ringLoop, Signature.ringLoop]
    by_cases h : i = signer
    · simp [h]
    · simp only [h, if_false]
      rw [readSlot_map, genK_eq]
      cases Signature.readSlot es i with
      | err => rfl
      | panic => rfl
      | ok ei =>
        simp only [Out.map_ok, Out.bind_ok]
        cases index ring i with
        | err => rfl
        | panic => rfl
        | ok pi =>
          simp only [Out.bind_ok]
          rw [pointMul_ofResidue, pointMul_ofResidue, createHash_eq]
          have e1 : ∀ (l : List (Option (ZMod primeOrder))) (j : Nat) (z : ZMod primeOrder),
              (l.map (Option.map ofResidue)).set j (some (ofResidue z)) = (l.set j (some z)).map (Option.map ofResidue) := by
            intro l j z; rw [List.map_set]; rfl
          rw [e1, e1, ih]
          rfl

theorem mapOut_nonNil (l : List (Option (ZMod primeOrder))) :
    mapOut nonNil (l.map (Option.map ofResidue)) = (List.map ofResidue) <$> mapOut Signature.nonNil l := by
  induction l with
  | nil => rfl
  | cons o l ih =>
    cases o with
    | none => rfl
    | some z =>
      simp only [List.map_cons, mapOut, ih, Option.map_some, nonNil, Signature.nonNil, Out.bind_ok]
      cases mapOut Signature.nonNil l <;> rfl

theorem ringSign_bytes (x : Scalar) (hx : leNat x.1 ≤ mulLimit) (msg : Str) (ring : List P) :
    ringSign g x msg ring = ringBytes <$> Signature.ringSign (curveOf g) (residue x) msg ring := by
  unfold ringSign Signature.ringSign
  rw [publicKey_eq g x hx]
  cases Signature.signerIndex ring (Signature.publicKey (curveOf g) (residue x)) with
  | none => rfl
  | some signer =>
    simp only
    rw [genK_eq, pointMul_ofResidue, createHash_eq]
    have e0 : (List.replicate ring.length (none : Option Scalar)) =
        (List.replicate ring.length (none : Option (ZMod primeOrder))).map (Option.map ofResidue) := by simp
    have e1 : ∀ (l : List (Option (ZMod primeOrder))) (j : Nat) (z : ZMod primeOrder),
        (l.map (Option.map ofResidue)).set j (some (ofResidue z)) = (l.set j (some z)).map (Option.map ofResidue) := by
      intro l j z; rw [List.map_set]; rfl
    have hG : (curveOf g).G = g.G := rfl
    have hP : Signature.pointStr (curveOf g) = pointStr g := rfl
    rw [e0, e1, ringLoop_map, hG, hP]
    cases Signature.ringLoop (curveOf g) (residue x) msg ring signer ring.length ((signer + 1) % ring.length) _ _ with
    | err => rfl
    | panic => rfl
    | ok r =>
      obtain ⟨es, ss⟩ := r
      simp only [Out.map_ok, Out.bind_ok]
      rw [readSlot_map]
      cases Signature.readSlot es signer with
      | err => rfl
      | panic => rfl
      | ok esi =>
        simp only [Out.map_ok, Out.bind_ok]
        rw [sub_eq, residue_mul, residue_ofResidue, residue_ofResidue, e1, mapOut_nonNil]
        cases mapOut Signature.nonNil _ with
        | err => rfl
        | panic => rfl
        | ok s =>
          simp only [Out.map_ok, Out.bind_ok]
          rw [readSlot_map]
          cases Signature.readSlot es 0 <;> rfl

theorem index_map {α β} (f : α → β) (l : List α) (i : Nat) : index (l.map f) i = f <$> index l i := by
  unfold index
  rw [List.getElem?_map]
  cases l[i]? <;> rfl

theorem verifyLoop_bytes (msg : Str) (s : List Scalar) (hs : ∀ a ∈ s, leNat a.1 ≤ mulLimit) (ring : List P) (i : Nat)
    (z : ZMod primeOrder) :
    verifyLoop g msg s i ring (ofResidue z) =
      ofResidue <$> Signature.verifyLoop (curveOf g) msg (s.map residue) i ring z := by
  induction ring generalizing i z with
  | nil => rfl
  | cons p ring ih =>
    rw [verifyLoop, Signature.verifyLoop, index_map]
    cases h : index s i with
    | err => rfl
    | panic => rfl
    | ok a =>
      have ha : a ∈ s := by
        unfold index at h
        split at h
        · rename_i b hb
          simp at h; subst h
          exact List.mem_of_getElem? hb
        · simp at h
      simp only [Out.map_ok, Out.bind_ok]
      rw [pointMul_base g a (hs a ha), pointMul_ofResidue, createHash_eq, ih]
      rfl

theorem verify_bytes (rs : RingSig P) (he : Reduced rs.e) (hs : ∀ a ∈ rs.s, leNat a.1 ≤ mulLimit) (msg : Str) :
    rs.verify g msg = Signature.RingSig.verify (curveOf g) (ringResidue rs) msg := by
  have h1 : rs.e = ofResidue (residue rs.e) := (reduced_iff _).1 he
  have hl := verifyLoop_bytes g msg rs.s hs rs.ring 0 (residue rs.e)
  rw [← h1] at hl
  unfold RingSig.verify Signature.RingSig.verify ringResidue
  rw [hl]
  cases Signature.verifyLoop (curveOf g) msg (rs.s.map residue) 0 rs.ring (residue rs.e) with
  | err => rfl
  | panic => rfl
  | ok z =>
    have hiff : (rs.e = ofResidue z) ↔ (residue rs.e = z) := by
      constructor
      · intro h; rw [h, residue_ofResidue]
      · intro h; rw [h1, h]
    show Out.ok (decide (rs.e = ofResidue z)) = Out.ok (decide (residue rs.e = z))
    congr 1
    exact decide_eq_decide.2 hiff

theorem ringResidue_ringBytes (s : Signature.RingSig primeOrder P) : ringResidue (ringBytes s) = s := by
  unfold ringResidue ringBytes
  simp only [List.map_map, residue_ofResidue]
  have : (residue ∘ ofResidue) = id := funext residue_ofResidue
  rw [this, List.map_id]

theorem fromStringToScalar_hex (a : Scalar) (more : Str) :
    fromStringToScalar (Hash.hexEncode (a.1 ++ more)) = .ok a := by
  unfold fromStringToScalar
  rw [hexDecode_hexEncode, Out.bind_ok]
  unfold unmarshalFrom
  rw [dif_pos (by rw [List.length_append, a.2]; omega)]
  congr 1
  apply Subtype.ext
  show (a.1 ++ more).take 32 = a.1
  rw [List.take_append_of_le_length (by rw [a.2]), List.take_of_length_le (by rw [a.2])]

/-- The reduced scalar of the same residue. -/
theorem fromStringToScalar_str (a : Scalar) : fromStringToScalar (scalarStr a) = .ok (ofResidue (residue a)) := by
  have h := fromStringToScalar_hex (ofResidue (residue a)) []
  rw [List.append_nil, ← marshal_eq] at h
  exact h

theorem fromStringToPoint_str (p : P) : fromStringToPoint g (pointStr g p) = .ok p := Signature.point_roundtrip (curveOf g) p

theorem mapOut_map {α β γ} (f : β → Out γ) (h : α → β) (k : α → γ) (l : List α) (hk : ∀ a ∈ l, f (h a) = .ok (k a)) :
    mapOut f (l.map h) = .ok (l.map k) := by
  induction l with
  | nil => rfl
  | cons a l ih =>
    simp only [List.map_cons, mapOut]
    rw [hk a (by simp), ih (fun b hb => hk b (by simp [hb]))]
    rfl

theorem toSignature_str (rnd : Str) (sig : Sig P) :
    toSignature g rnd (sig.toStr g) = createSignature g rnd sig.r (ofResidue (residue sig.s)) := by
  unfold toSignature Sig.toStr
  rw [Codec.b64Decode_encode, Out.bind_ok, Codec.split_append _ _ _ (show _ ∉ pointStr g sig.r from Signature.delim_hex _),
    Codec.split_of_not_mem _ _ (show _ ∉ scalarStr sig.s from Signature.delim_hex _)]
  simp only
  rw [fromStringToPoint_str, Out.bind_ok, fromStringToScalar_str, Out.bind_ok]

theorem toRingSignature_str (rs : RingSig P) :
    toRingSignature g (rs.toStr g) = .ok ⟨rs.ring, rs.s.map (fun a => ofResidue (residue a)), ofResidue (residue rs.e)⟩ := by
  have hlen : ∀ a : Scalar, (marshal a.1).length = 32 := fun a => by rw [marshal_eq]; exact (ofResidue _).2
  unfold toRingSignature RingSig.toStr
  rw [Codec.b64Decode_encode, Out.bind_ok,
    Codec.split_append _ _ _ (Signature.delim_joinElems _ (by
      intro s hs; obtain ⟨p, _, rfl⟩ := List.mem_map.1 hs; exact Signature.delim_hex _)),
    Codec.split_append _ _ _ (Signature.delim_joinElems _ (by
      intro s hs; obtain ⟨p, _, rfl⟩ := List.mem_map.1 hs; exact Signature.delim_hex _)),
    Codec.split_of_not_mem _ _ (show _ ∉ scalarStr rs.e from Signature.delim_hex _)]
  have hparse : ∀ {α γ : Type} (f : Str → Out γ) (str : α → Str) (k : α → γ) (l : List α)
      (_ : ∀ a, Signature.elementDelimiter ∉ str a) (_ : ∀ a, str a ≠ []) (_ : ∀ a, f (str a) = .ok (k a)),
      Signature.parseElems f (Signature.joinElems (l.map str)) = .ok (l.map k) := by
    intro α γ f str k l h1 h2 h3
    unfold Signature.parseElems
    rw [Signature.split_joinElems _ (by
      intro s hs; obtain ⟨a, _, rfl⟩ := List.mem_map.1 hs; exact h1 a), List.filter_append, List.filter_eq_self.mpr]
    · simp only [List.filter_cons, List.filter_nil]
      simp only [ne_eq, not_true_eq_false, decide_false, Bool.false_eq_true, if_false, List.append_nil]
      exact mapOut_map f str k l (fun a _ => h3 a)
    · intro s hs
      obtain ⟨a, _, rfl⟩ := List.mem_map.1 hs
      simp [h2 a]
  simp only
  rw [hparse (fromStringToPoint g) (pointStr g) id rs.ring (fun p => Signature.elem_hex _)
      (fun p => Signature.hexEncode_ne_nil _ (g.encP_len p)) (fun p => fromStringToPoint_str g p),
    Out.bind_ok,
    hparse fromStringToScalar scalarStr (fun a => ofResidue (residue a)) rs.s (fun p => Signature.elem_hex _)
      (fun a => Signature.hexEncode_ne_nil _ (hlen a)) fromStringToScalar_str,
    Out.bind_ok, fromStringToScalar_str, Out.bind_ok, List.map_id]
  rfl

end Verif.SigBytes
