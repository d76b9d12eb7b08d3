import Verif.Lemmas.SignatureBytes
import Verif.Props.Signature

/-!
# C117, C118, C119: keys and signatures on the bytes of the library

The points are any commutative group with a base point whose order divides `primeOrder`; `n • A` is the sum of `n` times
the point `A`. A scalar is any 32 bytes, and `leNat` is their number.
-/

namespace Verif.SigBytes
open Verif Verif.Kyber

attribute [local irreducible] ofResidue residue primeOrder leBytes

variable {P : Type} [AddCommGroup P] [DecidableEq P] (g : Group P)

/-! ## C117: multiplication of a point -/

/-- C117: the limit is `0x8777…7`. Every scalar whose last byte is below 128 is under it. -/
theorem C117_limit : mulLimit = 0x8777777777777777777777777777777777777777777777777777777777777777 ∧
    2 ^ 255 ≤ mulLimit ∧ mulLimit < 2 ^ 256 := by
  refine ⟨?_, ?_, ?_⟩ <;> decide +kernel

/-- C117: below the limit the multiplication is exact, for every point, inside the subgroup of the base point or not. -/
theorem C117_mul (a : Scalar) (A : P) (h : leNat a.1 ≤ mulLimit) : pointMul a.1 A = leNat a.1 • A :=
  pointMul_le a.1 a.2 h A

/-- What is lost above the limit is not a multiple of the order. -/
theorem top_not_dvd : ∀ top : Nat, 9 ≤ top → top ≤ 16 → ¬ primeOrder ∣ 16 ^ 63 * top := by
  intro top h1 h2
  interval_cases top <;> decide +kernel

theorem nsmul_ne_zero_of_not_dvd {A : P} (hA : primeOrder • A = 0) (hne : A ≠ 0) {n : Nat} (hn : ¬ primeOrder ∣ n) :
    n • A ≠ 0 := by
  intro h
  have h1 : addOrderOf A ∣ primeOrder := addOrderOf_dvd_of_nsmul_eq_zero hA
  have h2 : addOrderOf A ∣ n := addOrderOf_dvd_of_nsmul_eq_zero h
  rcases (Nat.dvd_prime prime_primeOrder).1 h1 with h3 | h3
  · exact hne (AddMonoid.addOrderOf_eq_one_iff.1 h3)
  · exact hn (h3 ▸ h2)

/-- C117: above the limit the highest digit is dropped: the result lacks 9 to 16 times `16^63` times the point. For a
point of the subgroup of prime order other than zero it is therefore always wrong. -/
theorem C117_mul_wrong (a : Scalar) (h : mulLimit < leNat a.1) :
    ∃ top : Nat, 9 ≤ top ∧ top ≤ 16 ∧
      (∀ A : P, leNat a.1 • A = pointMul a.1 A + (16 ^ 63 * top) • A) ∧
      (∀ A : P, primeOrder • A = 0 → A ≠ 0 → pointMul a.1 A ≠ leNat a.1 • A) := by
  obtain ⟨top, h0, h16, hiff, hmul⟩ := pointMul_spec (P := P) a.1 a.2
  have h9 : 9 ≤ top := by
    have : ¬ top ≤ 8 := fun h' => absurd (hiff.1 h') (by omega)
    omega
  obtain ⟨n, rfl⟩ := Int.eq_ofNat_of_zero_le h0
  have hn9 : 9 ≤ n := by omega
  have hn16 : n ≤ 16 := by omega
  have hA : ∀ A : P, leNat a.1 • A = pointMul a.1 A + (16 ^ 63 * n) • A := by
    intro A
    rw [hmul A, if_neg (by omega)]
    rw [sub_smul, ← natCast_zsmul, ← natCast_zsmul, Nat.cast_mul, Nat.cast_pow]
    exact (sub_add_cancel _ _).symm
  refine ⟨n, hn9, hn16, hA, fun A hA0 hne heq => ?_⟩
  have h1 := hA A
  rw [heq] at h1
  exact nsmul_ne_zero_of_not_dvd hA0 hne (top_not_dvd n hn9 hn16) (left_eq_add.1 h1)

/-- C117: so the public key of a private key above the limit is not the base point times the private key, and the
signatures made with it are those of another public key: the key recovered from them is not `PublicKey()`. -/
theorem C117_large_key (hG : g.G ≠ 0) (rnd msg : Str) (x : Scalar) (hx : mulLimit < leNat x.1)
    (hrnd : leNat (createHash g (rnd ++ pointStr g (pointMul (genK g x msg).1 g.G))).1 ≠ 0)
    (hmsg : leNat (createHash g (msg ++ pointStr g (pointMul (genK g x msg).1 g.G))).1 ≠ 0) :
    ∃ sig, sign g rnd x msg = .ok sig ∧ sig.publicKey g msg = leNat x.1 • g.G ∧
      publicKey g x ≠ leNat x.1 • g.G ∧ sig.publicKey g msg ≠ publicKey g x := by
  have hne : publicKey g x ≠ leNat x.1 • g.G := by
    obtain ⟨_, _, _, _, h⟩ := C117_mul_wrong (P := P) x hx
    exact h g.G g.G_order hG
  have e0 : ∀ m, leNat (createHash g m).1 ≠ 0 → (curveOf g).createHash m ≠ 0 := by
    intro m h h'
    rw [createHash_eq, h', leNat_ofResidue] at h
    exact h (ZMod.val_zero)
  have eK : pointMul (genK g x msg).1 g.G =
      Signature.smul (Signature.genK (curveOf g) (residue x) msg) (curveOf g).G := by
    rw [genK_eq, pointMul_ofResidue]; rfl
  rw [eK] at hrnd hmsg
  obtain ⟨sig, h1, h2⟩ := Signature.C15_sign_recovers_key (curveOf g) rnd msg (residue x)
    (e0 _ hrnd) (e0 _ hmsg)
  have h3 : sign g rnd x msg = .ok (sigBytes sig) := by rw [sign_bytes, h1]; rfl
  have h4 : (sigBytes sig).publicKey g msg = leNat x.1 • g.G := by
    rw [sigPublicKey_eq g _ (limit_ofResidue _)]
    show Signature.Sig.publicKey (curveOf g) ⟨sig.r, residue (ofResidue sig.s)⟩ msg = _
    rw [residue_ofResidue]
    show Signature.Sig.publicKey (curveOf g) sig msg = _
    rw [h2]
    show Signature.smul (residue x) g.G = _
    rw [Signature.smul, residue_val, Signature.mod_smul _ _ g.G_order]
  exact ⟨_, h3, h4, hne, fun h => hne (h ▸ h4)⟩

/-- C117: and the ring signature which such a key makes, for the ring of its own public key, verifies only if two
different points have the same challenge. -/
theorem C117_large_key_ring (hG : g.G ≠ 0) (msg : Str) (x : Scalar) (hx : mulLimit < leNat x.1)
    (he : leNat (createHash g (msg ++ pointStr g (pointMul (genK g x msg).1 g.G))).1 ≠ 0) :
    ∃ rs, ringSign g x msg [publicKey g x] = .ok rs ∧
      (rs.verify g msg = .ok true → ∃ p q : P, p ≠ q ∧
        createHash g (msg ++ pointStr g p) = createHash g (msg ++ pointStr g q)) := by
  obtain ⟨top, ht9, ht16, hmul, _⟩ := C117_mul_wrong (P := P) x hx
  generalize hk : genK g x msg = k at he
  generalize hec : createHash g (msg ++ pointStr g (pointMul k.1 g.G)) = e at he
  refine ⟨⟨[publicKey g x], [sub k (mul e x)], e⟩, ?_, fun hv => ?_⟩
  · unfold ringSign
    simp [Signature.signerIndex, ringLoop, readSlot, mapOut, nonNil, hk, hec]
  · have hv' : e = createHash g (msg ++ pointStr g (pointMul (sub k (mul e x)).1 g.G + pointMul e.1 (publicKey g x))) := by
      have hl : RingSig.verify g ⟨[publicKey g x], [sub k (mul e x)], e⟩ msg =
          .ok (decide (e = createHash g (msg ++ pointStr g (pointMul (sub k (mul e x)).1 g.G + pointMul e.1 (publicKey g x))))) := rfl
      rw [hl] at hv
      exact of_decide_eq_true (Out.ok.inj hv)
    refine ⟨_, _, ?_, hec.trans hv'⟩
    have hk1 : k = ofResidue (residue k) := by rw [← hk, genK_eq, residue_ofResidue]
    have he1 : e = ofResidue (residue e) := by rw [← hec, createHash_eq, residue_ofResidue]
    have hxG : Signature.smul (residue x) g.G = leNat x.1 • g.G := by
      rw [Signature.smul, residue_val, Signature.mod_smul _ _ g.G_order]
    have hpk : publicKey g x = Signature.smul (residue x) g.G - (16 ^ 63 * top) • g.G := by
      rw [hxG, hmul g.G]; exact (add_sub_cancel_right _ _).symm
    have e1 : pointMul k.1 g.G = Signature.smul (residue k) g.G := by
      conv_lhs => rw [hk1]
      exact pointMul_ofResidue _ _
    have e2 : pointMul (sub k (mul e x)).1 g.G =
        Signature.smul (residue k) g.G - Signature.smul (residue e) (Signature.smul (residue x) g.G) := by
      rw [sub_eq, pointMul_ofResidue, residue_mul, Signature.smul_sub' _ _ _ g.G_order,
        Signature.smul_mul' _ _ _ g.G_order]
    have e3 : pointMul e.1 (publicKey g x) = Signature.smul (residue e) (publicKey g x) := by
      conv_lhs => rw [he1]
      exact pointMul_ofResidue _ _
    rw [e1, e2, e3, hpk]
    intro h
    have h2 : Signature.smul (residue e) (Signature.smul (residue x) g.G - (16 ^ 63 * top) • g.G) =
        Signature.smul (residue e) (Signature.smul (residue x) g.G) - Signature.smul (residue e) ((16 ^ 63 * top) • g.G) := by
      unfold Signature.smul; rw [smul_sub]
    rw [h2] at h
    have h3 : Signature.smul (residue e) ((16 ^ 63 * top) • g.G) = 0 := by
      have : Signature.smul (residue k) g.G - Signature.smul (residue e) ((16 ^ 63 * top) • g.G) =
          Signature.smul (residue k) g.G := by
        conv_rhs => rw [h]
        abel
      exact sub_eq_self.1 this
    have h4 : primeOrder • ((16 ^ 63 * top) • g.G) = 0 := by
      rw [smul_comm, g.G_order, smul_zero]
    have h5 := nsmul_ne_zero_of_not_dvd g.G_order hG (top_not_dvd top ht9 ht16)
    have h6 := (Signature.smul_eq_zero' _ _ h4 h5).1 h3
    rw [he1, leNat_ofResidue, h6] at he
    exact he ZMod.val_zero

/-! ## C118: the algebra is what the bytes do -/

/-- C118: for private keys below the limit, `PublicKey`, `RingSign`, and for all private keys `Sign`, compute what the
algebraic model computes modulo the order; so do `Signature.PublicKey` and `Verify` for responses below the limit. The
curve `curveOf g` has the same points, the same base point, the same texts and the same hash. -/
theorem C118_refines (rnd msg : Str) (x : Scalar) (ring : List P) (sig : Sig P) (rs : RingSig P) :
    (sign g rnd x msg = sigBytes <$> Signature.sign (curveOf g) rnd (residue x) msg) ∧
    (leNat x.1 ≤ mulLimit → publicKey g x = Signature.publicKey (curveOf g) (residue x) ∧
      ringSign g x msg ring = ringBytes <$> Signature.ringSign (curveOf g) (residue x) msg ring) ∧
    (leNat sig.s.1 ≤ mulLimit →
      sig.publicKey g msg = Signature.Sig.publicKey (curveOf g) ⟨sig.r, residue sig.s⟩ msg ∧
      sig.verify g rnd = Signature.Sig.verify (curveOf g) rnd ⟨sig.r, residue sig.s⟩) ∧
    (Reduced rs.e → (∀ a ∈ rs.s, leNat a.1 ≤ mulLimit) →
      rs.verify g msg = Signature.RingSig.verify (curveOf g) (ringResidue rs) msg) :=
  ⟨sign_bytes g rnd x msg, fun h => ⟨publicKey_eq g x h, ringSign_bytes g x h msg ring⟩,
    fun h => ⟨sigPublicKey_eq g sig h msg, sigVerify_eq g sig h rnd⟩, fun h1 h2 => verify_bytes g rs h1 h2 msg⟩

theorem hash_ne_zero (m : Str) (h : leNat (createHash g m).1 ≠ 0) : (curveOf g).createHash m ≠ 0 := by
  intro h'
  rw [createHash_eq, h', leNat_ofResidue] at h
  exact h ZMod.val_zero

/-- C118: a signature of a private key below the limit tells its public key, and its text gives it back. -/
theorem C118_sign (rnd msg : Str) (x : Scalar) (hx : leNat x.1 ≤ mulLimit)
    (hrnd : leNat (createHash g (rnd ++ pointStr g (pointMul (genK g x msg).1 g.G))).1 ≠ 0)
    (hmsg : leNat (createHash g (msg ++ pointStr g (pointMul (genK g x msg).1 g.G))).1 ≠ 0) :
    ∃ sig, sign g rnd x msg = .ok sig ∧ sig.publicKey g msg = publicKey g x ∧ publicKey g x = leNat x.1 • g.G ∧
      toSignature g rnd (sig.toStr g) = .ok sig := by
  have eK : pointMul (genK g x msg).1 g.G =
      Signature.smul (Signature.genK (curveOf g) (residue x) msg) (curveOf g).G := by
    rw [genK_eq, pointMul_ofResidue]; rfl
  rw [eK] at hrnd hmsg
  obtain ⟨sig, h1, h2⟩ := Signature.C15_sign_recovers_key (curveOf g) rnd msg (residue x)
    (hash_ne_zero g _ hrnd) (hash_ne_zero g _ hmsg)
  have h3 : sign g rnd x msg = .ok (sigBytes sig) := by rw [sign_bytes, h1]; rfl
  refine ⟨_, h3, ?_, C117_mul x g.G hx, ?_⟩
  · rw [publicKey_eq g x hx, sigPublicKey_eq g _ (limit_ofResidue _)]
    show Signature.Sig.publicKey (curveOf g) ⟨sig.r, residue (ofResidue sig.s)⟩ msg = _
    rw [residue_ofResidue]
    exact h2
  · rw [toSignature_str]
    show createSignature g rnd sig.r (ofResidue (residue (ofResidue sig.s))) = _
    rw [residue_ofResidue]
    have h4 : sign g rnd x msg = createSignature g rnd sig.r (ofResidue sig.s) := by
      obtain ⟨r1, r2⟩ := Signature.sign_eq (curveOf g) h1
      have h5 := h3
      unfold sign createSignature at h5 ⊢
      simp only at h5 ⊢
      split at h5
      · rename_i hv
        have h6 := Out.ok.inj h5
        have h7 : pointMul (genK g x msg).1 g.G = sig.r := congrArg Sig.r h6
        have h8 := congrArg Sig.s h6
        simp only at h8
        rw [h8, h7]
        rfl
      · exact absurd h5 (by simp)
    rw [← h4, h3]

/-- C118: a member of the ring whose private key is below the limit makes a signature which verifies and whose text gives
it back; whoever is not a member gets an error. -/
theorem C118_ring (msg : Str) (x : Scalar) (hx : leNat x.1 ≤ mulLimit) (ring : List P) :
    (leNat x.1 • g.G ∈ ring → ∃ rs, ringSign g x msg ring = .ok rs ∧ rs.ring = ring ∧ rs.verify g msg = .ok true ∧
      toRingSignature g (rs.toStr g) = .ok rs) ∧
    (leNat x.1 • g.G ∉ ring → ringSign g x msg ring = .err) := by
  have hpk : Signature.publicKey (curveOf g) (residue x) = leNat x.1 • g.G := by
    rw [← publicKey_eq g x hx]; exact C117_mul x g.G hx
  refine ⟨fun hm => ?_, fun hm => ?_⟩
  · obtain ⟨rs, h1, h2, h3⟩ := Signature.C17_ring_sign_verifies (curveOf g) (residue x) msg ring (hpk ▸ hm)
    refine ⟨ringBytes rs, by rw [ringSign_bytes g x hx, h1]; rfl, h2, ?_, ?_⟩
    · rw [verify_bytes g _ (reduced_ofResidue _) (by
        intro a ha
        obtain ⟨z, _, rfl⟩ := List.mem_map.1 ha
        exact limit_ofResidue z), ringResidue_ringBytes]
      exact h3
    · rw [toRingSignature_str]
      unfold ringBytes
      simp only [List.map_map, residue_ofResidue]
      congr 2
      apply List.map_congr_left
      intro z _
      show ofResidue (residue (ofResidue z)) = _
      rw [residue_ofResidue]
  · rw [ringSign_bytes g x hx, (Signature.C18_ring_sign_error_iff (curveOf g) (residue x) msg ring).1.2 (hpk ▸ hm)]
    rfl

/-! ## C119: one residue, several forms -/

/-- Two scalars of one residue. -/
def Same (a b : Scalar) : Prop := leNat a.1 % primeOrder = leNat b.1 % primeOrder

theorem Same.residue {a b : Scalar} (h : Same a b) : residue a = residue b := by
  unfold SigBytes.residue
  exact (ZMod.natCast_eq_natCast_iff' _ _ _).2 h

/-- C119: two private keys of one residue make the same signatures, and below the limit they have one public key and
make the same ring signatures. -/
theorem C119_private_keys (x y : Scalar) (h : Same x y) (rnd msg : Str) (ring : List P) :
    sign g rnd x msg = sign g rnd y msg ∧ privateKeyStr x = privateKeyStr y ∧
      (leNat x.1 ≤ mulLimit → leNat y.1 ≤ mulLimit →
        publicKey g x = publicKey g y ∧ ringSign g x msg ring = ringSign g y msg ring) := by
  refine ⟨by rw [sign_bytes, sign_bytes, h.residue], ?_, fun hx hy => ⟨?_, ?_⟩⟩
  · unfold privateKeyStr; rw [scalarStr_eq g, scalarStr_eq g, h.residue]
  · rw [publicKey_eq g x hx, publicKey_eq g y hy, h.residue]
  · rw [ringSign_bytes g x hx, ringSign_bytes g y hy, h.residue]

/-- C119: the text of a private key is read up to its 64th digit, any 32 bytes are a key, and what is printed is the
reduced key. -/
theorem C119_private_key_text (x : Scalar) (more : Str) :
    toPrivateKey (Hash.hexEncode (x.1 ++ more)) = .ok x ∧
      ∃ y, toPrivateKey (privateKeyStr x) = .ok y ∧ Same x y ∧ Reduced y ∧ (Reduced x → y = x) := by
  refine ⟨fromStringToScalar_hex x more, ofResidue (residue x), fromStringToScalar_str x, ?_, reduced_ofResidue _,
    fun h => ((reduced_iff x).1 h).symm⟩
  unfold Same
  rw [leNat_ofResidue, residue_val, Nat.mod_mod]

/-- C119: the responses of a ring signature can be replaced by others of the same residues below the limit: the new
signature is another one, verifies if and only if the old one does, and has the same text. -/
theorem C119_responses (ring : List P) (s s' : List Scalar) (e : Scalar) (msg : Str)
    (h : List.Forall₂ (fun a b => Same a b ∧ leNat a.1 ≤ mulLimit ∧ leNat b.1 ≤ mulLimit) s s') :
    RingSig.verify g ⟨ring, s, e⟩ msg = RingSig.verify g ⟨ring, s', e⟩ msg ∧
      RingSig.toStr g ⟨ring, s, e⟩ = RingSig.toStr g ⟨ring, s', e⟩ := by
  have hidx : ∀ i, (index s i = .panic ∧ index s' i = .panic) ∨
      ∃ a b, index s i = .ok a ∧ index s' i = .ok b ∧ pointMul a.1 g.G = pointMul b.1 g.G := by
    intro i
    induction h generalizing i with
    | nil => left; exact ⟨rfl, rfl⟩
    | @cons a b l l' hab hl ih =>
      cases i with
      | zero =>
        right
        refine ⟨a, b, rfl, rfl, ?_⟩
        rw [pointMul_base g a hab.2.1, pointMul_base g b hab.2.2, hab.1.residue]
      | succ i => exact ih i
  have hloop : ∀ (ring : List P) (i : Nat) (e : Scalar), verifyLoop g msg s i ring e = verifyLoop g msg s' i ring e := by
    intro ring
    induction ring with
    | nil => intro i e; rfl
    | cons p ring ih =>
      intro i e
      rw [verifyLoop, verifyLoop]
      rcases hidx i with ⟨h1, h2⟩ | ⟨a, b, h1, h2, h3⟩
      · rw [h1, h2]; rfl
      · rw [h1, h2, Out.bind_ok, Out.bind_ok, h3, ih]
  constructor
  · unfold RingSig.verify
    simp only
    rw [hloop]
  · unfold RingSig.toStr
    simp only
    have : s.map scalarStr = s'.map scalarStr := by
      clear hidx hloop
      induction h with
      | nil => rfl
      | cons hab _ ih => rw [List.map_cons, List.map_cons, ih, scalarStr_eq g, scalarStr_eq g, hab.1.residue]
    rw [this]

/-- C119: a first challenge which is not reduced never verifies, unless the ring is empty. -/
theorem C119_challenge (rs : RingSig P) (hr : rs.ring ≠ []) (he : ¬ Reduced rs.e) (msg : Str) :
    rs.verify g msg ≠ .ok true := by
  have hloop : ∀ (ring : List P) (i : Nat) (e e' : Scalar), (ring ≠ [] ∨ Reduced e) →
      verifyLoop g msg rs.s i ring e = .ok e' → Reduced e' := by
    intro ring
    induction ring with
    | nil =>
      intro i e e' h h2
      rw [verifyLoop] at h2
      rw [← Out.ok.inj h2]
      rcases h with h | h
      · exact absurd rfl h
      · exact h
    | cons p ring ih =>
      intro i e e' _ h2
      rw [verifyLoop] at h2
      cases hi : index rs.s i with
      | err => rw [hi] at h2; simp at h2
      | panic => rw [hi] at h2; simp at h2
      | ok a =>
        rw [hi, Out.bind_ok] at h2
        refine ih _ _ _ (Or.inr ?_) h2
        rw [createHash_eq]; exact reduced_ofResidue _
  unfold RingSig.verify
  cases h : verifyLoop g msg rs.s 0 rs.ring rs.e with
  | err => simp
  | panic => simp
  | ok e' =>
    have := hloop _ _ _ _ (Or.inl hr) h
    intro h2
    have h3 : rs.e = e' := of_decide_eq_true (Out.ok.inj h2)
    exact he (h3 ▸ this)

/-- C119: printing and parsing gives the reduced ring signature. So a ring signature with a challenge which is not reduced
does not verify, and the one read back from its own text can. -/
theorem C119_ring_text (rs : RingSig P) :
    ∃ rs', toRingSignature g (rs.toStr g) = .ok rs' ∧ rs'.ring = rs.ring ∧ Same rs.e rs'.e ∧ Reduced rs'.e ∧
      List.Forall₂ (fun a b => Same a b ∧ Reduced b) rs.s rs'.s := by
  have hsame : ∀ a : Scalar, Same a (ofResidue (residue a)) := by
    intro a; unfold Same; rw [leNat_ofResidue, residue_val, Nat.mod_mod]
  refine ⟨_, toRingSignature_str g rs, rfl, hsame _, reduced_ofResidue _, ?_⟩
  simp only
  induction rs.s with
  | nil => exact List.Forall₂.nil
  | cons a l ih => exact List.Forall₂.cons ⟨hsame a, reduced_ofResidue _⟩ ih

/-- C119: a plain signature with any 32 bytes as its response, below the limit or not, passes verification for every point
of the subgroup, unless the sampled challenge is zero. -/
theorem C119_any_response (rnd : Str) (sig : Sig P) (hr : primeOrder • sig.r = 0)
    (he : leNat (createHash g (rnd ++ pointStr g sig.r)).1 ≠ 0) : sig.verify g rnd = true := by
  have he' := hash_ne_zero g _ he
  unfold Sig.verify
  apply decide_eq_true
  unfold Sig.publicKey
  simp only
  have hy : primeOrder • (sig.r - pointMul sig.s.1 g.G) = 0 := by
    obtain ⟨top, _, _, _, hmul⟩ := pointMul_spec (P := P) sig.s.1 sig.s.2
    rw [hmul g.G, smul_sub, hr, smul_comm, g.G_order, smul_zero, sub_zero]
  have h1 : oneDiv (createHash g (rnd ++ pointStr g sig.r)) =
      ofResidue (1 / (curveOf g).createHash (rnd ++ pointStr g sig.r)) := by
    rw [(reduced_iff _).1 (reduced_oneDiv _), residue_oneDiv]; rfl
  rw [h1, pointMul_ofResidue, createHash_eq, pointMul_ofResidue, ← Signature.smul_mul' _ _ _ hy,
    mul_one_div_cancel he', Signature.smul_one']
  abel

/-- C119: if its response is above the limit, the signature read back from the text of a signature is that of another
public key. -/
theorem C119_text_changes_key (hG : g.G ≠ 0) (rnd msg : Str) (sig sig' : Sig P) (hs : mulLimit < leNat sig.s.1)
    (he : leNat (createHash g (msg ++ pointStr g sig.r)).1 ≠ 0) (h : toSignature g rnd (sig.toStr g) = .ok sig') :
    sig'.publicKey g msg ≠ sig.publicKey g msg := by
  have he' := hash_ne_zero g _ he
  have hsig' : sig' = ⟨sig.r, ofResidue (residue sig.s)⟩ := by
    rw [toSignature_str] at h
    unfold createSignature at h
    simp only at h
    split at h
    · exact (Out.ok.inj h).symm
    · exact absurd h (by simp)
  subst hsig'
  have h1 : oneDiv (createHash g (msg ++ pointStr g sig.r)) =
      ofResidue (1 / (curveOf g).createHash (msg ++ pointStr g sig.r)) := by
    rw [(reduced_iff _).1 (reduced_oneDiv _), residue_oneDiv]; rfl
  unfold Sig.publicKey
  simp only
  rw [h1, pointMul_ofResidue (P := P) (1 / _), pointMul_ofResidue (P := P) (1 / _)]
  obtain ⟨top, ht9, ht16, hmul, _⟩ := C117_mul_wrong (P := P) sig.s hs
  have h2 : pointMul (ofResidue (residue sig.s)).1 g.G = pointMul sig.s.1 g.G + (16 ^ 63 * top) • g.G := by
    rw [← hmul g.G, pointMul_ofResidue, Signature.smul, residue_val, Signature.mod_smul _ _ g.G_order]
  rw [h2]
  intro h3
  generalize hz : 1 / (curveOf g).createHash (msg ++ pointStr g sig.r) = z at h3
  have hz0 : z ≠ 0 := by rw [← hz]; exact one_div_ne_zero he'
  have h4 : Signature.smul z ((16 ^ 63 * top) • g.G) = 0 := by
    unfold Signature.smul at h3 ⊢
    rw [smul_sub, smul_sub, smul_add] at h3
    have := sub_right_injective h3
    exact left_eq_add.1 this.symm
  have h5 : primeOrder • ((16 ^ 63 * top) • g.G) = 0 := by rw [smul_comm, g.G_order, smul_zero]
  exact hz0 ((Signature.smul_eq_zero' _ _ h5 (nsmul_ne_zero_of_not_dvd g.G_order hG (top_not_dvd top ht9 ht16))).1 h4)

/-! ## Non-vacuity

The group is that of the integers modulo the order, with base point 1 and the identity as hash. -/

/-- 32 bytes 255: above the limit. -/
def bigKey : Scalar := ⟨List.replicate 32 255, rfl⟩
/-- The scalar three. -/
def threeKey : Scalar := ⟨3 :: List.replicate 31 0, rfl⟩
/-- The order plus three: not reduced, below the limit. -/
def threeAgain : Scalar := ⟨leBytes 32 (primeOrder + 3), length_leBytes _ _⟩

/-- C117: the hypotheses hold, and the ring signature really does not verify. -/
example : mulLimit < leNat bigKey.1 ∧
    leNat (createHash toyGroup (lit "12" ++ pointStr toyGroup (pointMul (genK toyGroup bigKey (lit "m")).1 toyGroup.G))).1 ≠ 0 ∧
    leNat (createHash toyGroup (lit "m" ++ pointStr toyGroup (pointMul (genK toyGroup bigKey (lit "m")).1 toyGroup.G))).1 ≠ 0 ∧
    toyGroup.G ≠ 0 := by decide +kernel
example : (do let rs ← ringSign toyGroup bigKey (lit "m") [publicKey toyGroup bigKey]; rs.verify toyGroup (lit "m")) =
    .ok false := by decide +kernel

/-- C118, C119: a key and another form of it, both below the limit; a ring of two. -/
example : Same threeKey threeAgain ∧ threeKey ≠ threeAgain ∧ leNat threeAgain.1 ≤ mulLimit ∧ ¬ Reduced threeAgain ∧
    Reduced threeKey ∧ leNat threeKey.1 • toyGroup.G ∈ [(5 : ZMod primeOrder), 3] := by
  unfold Same Reduced; decide +kernel
example : (do let rs ← ringSign toyGroup threeAgain (lit "m") [5, 3]; rs.verify toyGroup (lit "m")) = .ok true := by
  decide +kernel
/-- C118: both challenges are not zero. -/
example : leNat (createHash toyGroup (lit "12" ++ pointStr toyGroup (pointMul (genK toyGroup threeKey (lit "m")).1 toyGroup.G))).1 ≠ 0 ∧
    leNat (createHash toyGroup (lit "m" ++ pointStr toyGroup (pointMul (genK toyGroup threeKey (lit "m")).1 toyGroup.G))).1 ≠ 0 := by
  decide +kernel
/-- C119: a signature whose text is read, with another key. -/
example : leNat (createHash toyGroup (lit "m" ++ pointStr toyGroup toyGroup.G)).1 ≠ 0 ∧
    toSignature toyGroup (lit "12") (Sig.toStr toyGroup ⟨toyGroup.G, bigKey⟩) ≠ .err := by
  refine ⟨by decide +kernel, ?_⟩
  rw [toSignature_str]
  unfold createSignature
  simp only
  rw [if_pos (C119_any_response toyGroup _ _ toyGroup.G_order (by decide +kernel))]
  simp

end Verif.SigBytes
