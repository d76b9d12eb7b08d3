import Verif.Lemmas.Signature
import Verif.Spec.Signature
import Verif.Props.Hash

/-!
# Signatures: C15 - C22

All theorems hold for every prime `L`, every commutative group of points and all encodings and hashes that
satisfy the laws in `Curve`.  `toy` is an instance on which the examples run.
-/

namespace Verif.Signature
open Verif

variable {L : Nat} {P : Type} [AddCommGroup P] [DecidableEq P] [hL : Fact L.Prime] (c : Curve L P)

/-! ## C15 -/

/-- C15: whenever the sampled challenge of `createSignature` is not zero, `Sign` succeeds, and the public key
computed from the signature and the message is the key of the signer. -/
theorem C15_sign_recovers_key (rnd msg : Str) (x : ZMod L)
    (hrnd : c.createHash (rnd ++ pointStr c (smul (genK c x msg) c.G)) ≠ 0)
    (hmsg : c.createHash (msg ++ pointStr c (smul (genK c x msg) c.G)) ≠ 0) :
    ∃ sig, sign c rnd x msg = .ok sig ∧ sig.publicKey c msg = publicKey c x := by
  have key : ∀ e' : ZMod L, e' ≠ 0 → ∀ k s : ZMod L,
      smul e' (smul (1 / e') (smul k c.G - smul s c.G)) = smul k c.G - smul s c.G := by
    intro e' he' k s
    rw [← smul_sub' _ _ _ c.G_order, ← smul_mul' _ _ _ c.G_order, ← smul_mul' _ _ _ c.G_order,
      ← mul_assoc, mul_one_div_cancel he', one_mul]
  refine ⟨⟨smul (genK c x msg) c.G,
    genK c x msg - c.createHash (msg ++ pointStr c (smul (genK c x msg) c.G)) * x⟩, ?_, ?_⟩
  · simp only [sign, createSignature]
    rw [if_pos]
    unfold Sig.verify
    apply decide_eq_true
    simp only [Sig.publicKey]
    rw [key _ hrnd]; abel
  · simp only [Sig.publicKey, publicKey]
    rw [← smul_sub' _ _ _ c.G_order, ← smul_mul' _ _ _ c.G_order]
    congr 1
    field_simp
    ring

/-- C15: the recovered key depends on the message: read with another message the signature gives the key of
`(e / e') * x`; it is the signer's key exactly when both challenges agree (for a non-trivial base point and
private key). -/
theorem C15_other_message (rnd msg msg' : Str) (x : ZMod L) (sig : Sig L P) (hG : c.G ≠ 0) (hx : x ≠ 0)
    (hsign : sign c rnd x msg = .ok sig) (he' : sigChallenge c sig msg' ≠ 0) :
    sig.publicKey c msg' = publicKey c (sigChallenge c sig msg / sigChallenge c sig msg' * x) ∧
    (sig.publicKey c msg' = publicKey c x ↔ sigChallenge c sig msg' = sigChallenge c sig msg) := by
  have h1 : sig.r = smul (genK c x msg) c.G ∧ sig.s = genK c x msg - sigChallenge c sig msg * x := by
    simp only [sign, createSignature] at hsign
    split at hsign
    · simp at hsign; subst hsign; exact ⟨rfl, rfl⟩
    · simp at hsign
  have h2 : sig.publicKey c msg' = publicKey c (sigChallenge c sig msg / sigChallenge c sig msg' * x) := by
    unfold Sig.publicKey publicKey
    change smul (1 / sigChallenge c sig msg') _ = _
    rw [h1.2]
    nth_rewrite 1 [h1.1]
    rw [← smul_sub' _ _ _ c.G_order, ← smul_mul' _ _ _ c.G_order]
    congr 1; ring
  refine ⟨h2, ?_⟩
  rw [h2]
  unfold publicKey
  rw [smul_inj _ _ _ c.G_order hG]
  constructor
  · intro h
    have h3 : sigChallenge c sig msg / sigChallenge c sig msg' = 1 := mul_right_cancel₀ hx (by rw [h, one_mul])
    exact ((div_eq_one_iff_eq he').mp h3).symm
  · intro h; rw [h, div_self (h ▸ he'), one_mul]

/-! ## C16 -/

/-- C16: `Verify` takes neither key nor message and accepts every pair of a subgroup point and a scalar,
provided the sampled challenge is not zero. -/
theorem C16_verify_accepts_everything (rnd : Str) (sig : Sig L P) (hr : L • sig.r = 0)
    (he : sigChallenge c sig rnd ≠ 0) : sig.verify c rnd = true := by
  unfold Sig.verify
  apply decide_eq_true
  simp only [Sig.publicKey]
  have hy : L • (sig.r - smul sig.s c.G) = 0 := by
    rw [smul_sub, hr, smul_order _ _ c.G_order, sub_zero]
  unfold sigChallenge at he
  rw [← smul_mul' _ _ _ hy, mul_one_div_cancel he, smul_one']
  abel

/-- C16: so for every point `r = k * G` and scalar `s` the text of `(r, s)` is accepted as a signature by
the parser: there are signatures without any private key. -/
theorem C16_forged_text_accepted (rnd : Str) (k s : ZMod L)
    (he : c.createHash (rnd ++ pointStr c (smul k c.G)) ≠ 0) :
    toSignature c rnd (Sig.toStr c ⟨smul k c.G, s⟩) = .ok ⟨smul k c.G, s⟩ := by
  unfold toSignature Sig.toStr
  rw [Codec.b64Decode_encode, Out.bind_ok,
    Codec.split_append _ _ _ (delim_point _ _), Codec.split_of_not_mem _ _ (delim_scalar _ _)]
  simp only [point_roundtrip, scalar_roundtrip, Out.bind_ok, createSignature]
  rw [if_pos]
  exact C16_verify_accepts_everything c rnd _ (smul_order _ _ c.G_order) he

/-- C16: the only sampled challenge that can reject a subgroup pair is zero, and then exactly the pairs with
`s * G = r` pass. -/
theorem C16_zero_challenge (rnd : Str) (sig : Sig L P) (he : sigChallenge c sig rnd = 0) :
    sig.verify c rnd = true ↔ smul sig.s c.G = sig.r := by
  unfold sigChallenge at he
  simp [Sig.verify, Sig.publicKey, he, smul_zero']

/-! ## C17, C18 -/

/-- C17: a ring signature made by a member of the ring verifies, for all rings and messages. -/
theorem C17_ring_sign_verifies (x : ZMod L) (msg : Str) (ring : List P) (hmem : publicKey c x ∈ ring) :
    ∃ rs, ringSign c x msg ring = .ok rs ∧ rs.ring = ring ∧ rs.verify c msg = .ok true := by
  obtain ⟨signer, hsig⟩ : ∃ i, signerIndex ring (publicKey c x) = some i := by
    cases h : signerIndex ring (publicKey c x) with
    | none => exact absurd hmem (signerIndex_none.mp h)
    | some i => exact ⟨i, rfl⟩
  obtain ⟨rs, hok, hring, hlen, he, hs⟩ := ringSign_spec c x msg ring signer hsig
  have hr : 0 < ring.length := List.length_pos_of_mem hmem
  refine ⟨rs, hok, hring, ?_⟩
  have hv := verifyLoop_drop c msg ring rs.s (fun j => chalAt c x msg ring signer (j % ring.length)) 0
    ring.length (by omega) (by
      intro j hj
      refine ⟨_, hs j hj, ?_⟩
      simp only [Nat.mod_eq_of_lt hj]
      exact chalAt_step c x msg ring signer j hsig hj)
  simp only [List.drop_zero, Nat.zero_mod, Nat.mod_self] at hv
  unfold RingSig.verify
  rw [hring, he, hv]
  simp

/-- C18: `RingSign` fails exactly when the public key of the signer is not in the ring, and it never
panics. -/
theorem C18_ring_sign_error_iff (x : ZMod L) (msg : Str) (ring : List P) :
    (ringSign c x msg ring = .err ↔ publicKey c x ∉ ring) ∧ ringSign c x msg ring ≠ .panic := by
  by_cases hmem : publicKey c x ∈ ring
  · obtain ⟨rs, hok, _⟩ := C17_ring_sign_verifies c x msg ring hmem
    rw [hok]; simp [hmem]
  · have := signerIndex_none.mpr hmem
    simp [ringSign, this, hmem]

/-! ## C19 -/

/-- C19: a signature with an empty ring verifies for every message. -/
theorem C19_empty_ring_verifies (s : List (ZMod L)) (e : ZMod L) (msg : Str) :
    RingSig.verify c (⟨[], s, e⟩ : RingSig L P) msg = .ok true := by
  simp [RingSig.verify, verifyLoop]

/-- C19: such a signature can be had from text, by anybody. -/
theorem C19_empty_ring_text (e : ZMod L) :
    toRingSignature c (RingSig.toStr c (⟨[], [], e⟩ : RingSig L P)) = .ok ⟨[], [], e⟩ := by
  unfold toRingSignature RingSig.toStr
  rw [Codec.b64Decode_encode, Out.bind_ok,
    Codec.split_append _ _ _ (by simp [joinElems]), Codec.split_append _ _ _ (by simp [joinElems]),
    Codec.split_of_not_mem _ _ (delim_scalar _ _)]
  simp only [scalar_roundtrip, Out.bind_ok]
  simp [joinElems, parseElems, Codec.split, mapOut]

theorem verifyLoop_panic_iff (msg : Str) (s : List (ZMod L)) (i : Nat) (ring : List P) (e : ZMod L)
    (hi : i ≤ s.length) : verifyLoop c msg s i ring e = .panic ↔ s.length < i + ring.length := by
  induction ring generalizing i e with
  | nil => simp [verifyLoop]; omega
  | cons p rest ih =>
    simp only [verifyLoop, index]
    rcases Nat.lt_or_ge i s.length with h | h
    · rw [List.getElem?_eq_getElem h]
      simp only [Out.bind_ok]
      rw [ih (i + 1) _ (by omega)]
      simp only [List.length_cons]; omega
    · rw [List.getElem?_eq_none h]
      simp only [Out.bind_panic, List.length_cons, true_iff]; omega

theorem verifyLoop_no_err (msg : Str) (s : List (ZMod L)) (i : Nat) (ring : List P) (e : ZMod L) :
    verifyLoop c msg s i ring e ≠ .err := by
  induction ring generalizing i e with
  | nil => simp [verifyLoop]
  | cons p rest ih =>
    simp only [verifyLoop, index]
    cases s[i]? <;> simp [ih]

/-- C19: verification panics exactly when there are fewer responses than ring members. -/
theorem C19_panics_iff (rs : RingSig L P) (msg : Str) :
    rs.verify c msg = .panic ↔ rs.s.length < rs.ring.length := by
  have h := verifyLoop_panic_iff c msg rs.s 0 rs.ring rs.e (Nat.zero_le _)
  unfold RingSig.verify
  cases hv : verifyLoop c msg rs.s 0 rs.ring rs.e <;> simp [hv] at h ⊢ <;> omega

/-- C19: every response after the first `n`, for a ring of `n` members, is ignored. -/
theorem C19_extra_responses_ignored (ring : List P) (s extra : List (ZMod L)) (e : ZMod L) (msg : Str)
    (h : ring.length ≤ s.length) :
    RingSig.verify c ⟨ring, s ++ extra, e⟩ msg = RingSig.verify c ⟨ring, s, e⟩ msg := by
  have : ∀ (ring : List P) (i : Nat) (e : ZMod L), i + ring.length ≤ s.length →
      verifyLoop c msg (s ++ extra) i ring e = verifyLoop c msg s i ring e := by
    intro ring
    induction ring with
    | nil => intros; rfl
    | cons p rest ih =>
      intro i e hi
      simp only [List.length_cons] at hi
      have hlt : i < s.length := by omega
      simp only [verifyLoop, index]
      rw [List.getElem?_append_left hlt, List.getElem?_eq_getElem hlt]
      simp only [Out.bind_ok]
      exact ih _ _ (by omega)
  unfold RingSig.verify
  rw [this ring 0 e (by omega)]

/-! ## C20 -/

theorem sign_eq {rnd msg : Str} {x : ZMod L} {sig : Sig L P} (h : sign c rnd x msg = .ok sig) :
    sig.r = smul (genK c x msg) c.G ∧ sig.s = genK c x msg - sigChallenge c sig msg * x := by
  simp only [sign, createSignature] at h
  split at h
  · simp at h; subst h; exact ⟨rfl, rfl⟩
  · simp at h

theorem ringSign_public {x : ZMod L} {msg : Str} {ring : List P} {rs : RingSig L P}
    (h : ringSign c x msg ring = .ok rs) :
    ∃ signer, signerIndex ring (publicKey c x) = some signer ∧ signer < ring.length ∧
      (∀ i < ring.length, publicChallenge c rs msg i = chalAt c x msg ring signer i) ∧
      (∀ j < ring.length, rs.s.getD j 0 = if j = signer then
        genK c x msg - chalAt c x msg ring signer j * x else genK c x (msg ++ itoaNat j)) := by
  cases hi : signerIndex ring (publicKey c x) with
  | none => simp [ringSign, hi] at h
  | some signer =>
    obtain ⟨rs', hok, hring, hlen, he, hs⟩ := ringSign_spec c x msg ring signer hi
    rw [h] at hok; simp at hok; subst hok
    have hsl : signer < ring.length := (List.getElem?_eq_some_iff.mp (signerIndex_some hi)).1
    have hget : ∀ j < ring.length, rs.s.getD j 0 = if j = signer then
        genK c x msg - chalAt c x msg ring signer j * x else genK c x (msg ++ itoaNat j) := by
      intro j hj; simp only [List.getD, hs j hj, Option.getD_some]
    refine ⟨signer, rfl, hsl, ?_, hget⟩
    intro i
    induction i with
    | zero => intro _; simp [publicChallenge, he]
    | succ i ih =>
      intro hlt
      simp only [publicChallenge]
      rw [ih (by omega), hget i (by omega), hring, chalAt_step c x msg ring signer i hi (by omega),
        Nat.mod_eq_of_lt hlt]

/-- C20: `Sign(m)` and `RingSign(m)` use one nonce. At some ring position `i` (the signer's) the public values
give the private key, whenever the two challenges differ. -/
theorem C20_sign_and_ring_leak (rnd msg : Str) (x : ZMod L) (ring : List P) (sig : Sig L P) (rs : RingSig L P)
    (h1 : sign c rnd x msg = .ok sig) (h2 : ringSign c x msg ring = .ok rs) :
    ∃ i < ring.length, ring[i]? = some (publicKey c x) ∧
      (publicChallenge c rs msg i ≠ sigChallenge c sig msg →
        x = (sig.s - rs.s.getD i 0) / (publicChallenge c rs msg i - sigChallenge c sig msg)) := by
  obtain ⟨signer, hi, hlt, hch, hs⟩ := ringSign_public c h2
  refine ⟨signer, hlt, signerIndex_some hi, ?_⟩
  intro hne
  rw [hs signer hlt, if_pos rfl, ← hch signer hlt, (sign_eq c h1).2]
  rw [eq_div_iff (sub_ne_zero.mpr hne)]
  ring

/-- C20: two ring signatures of one message by one key (over different rings) leak the key likewise. -/
theorem C20_two_rings_leak (msg : Str) (x : ZMod L) (ring ring' : List P) (rs rs' : RingSig L P)
    (h1 : ringSign c x msg ring = .ok rs) (h2 : ringSign c x msg ring' = .ok rs') :
    ∃ i < ring.length, ∃ j < ring'.length,
      ring[i]? = some (publicKey c x) ∧ ring'[j]? = some (publicKey c x) ∧
      (publicChallenge c rs' msg j ≠ publicChallenge c rs msg i →
        x = (rs.s.getD i 0 - rs'.s.getD j 0) / (publicChallenge c rs' msg j - publicChallenge c rs msg i)) := by
  obtain ⟨i, hi, hlt, hch, hs⟩ := ringSign_public c h1
  obtain ⟨j, hj, hlt', hch', hs'⟩ := ringSign_public c h2
  refine ⟨i, hlt, j, hlt', signerIndex_some hi, signerIndex_some hj, ?_⟩
  intro hne
  rw [hs i hlt, if_pos rfl, ← hch i hlt, hs' j hlt', if_pos rfl, ← hch' j hlt',
    eq_div_iff (sub_ne_zero.mpr hne)]
  ring

/-- C20: the response of any *other* member `i` in `RingSign(m)` is the nonce of `Sign(m ++ i)`, so these two
signatures give the private key with one subtraction and one division. -/
theorem C20_decoy_response_leak (rnd msg : Str) (x : ZMod L) (ring : List P) (rs : RingSig L P) (i : Nat)
    (sig : Sig L P) (hi : i < ring.length) (hne : ring[i]? ≠ some (publicKey c x))
    (h1 : ringSign c x msg ring = .ok rs) (h2 : sign c rnd x (msg ++ itoaNat i) = .ok sig)
    (he : sigChallenge c sig (msg ++ itoaNat i) ≠ 0) :
    x = (rs.s.getD i 0 - sig.s) / sigChallenge c sig (msg ++ itoaNat i) := by
  obtain ⟨signer, hsi, hlt, hch, hs⟩ := ringSign_public c h1
  have : i ≠ signer := by
    rintro rfl; exact hne (signerIndex_some hsi)
  rw [hs i hi, if_neg this, (sign_eq c h2).2, eq_div_iff he]
  ring

/-- C20: signing is deterministic and ring signatures by one key of one message over one ring are equal, so
the signer of a message can be linked. -/
theorem C20_responses_linkable (msg : Str) (x : ZMod L) (ring ring' : List P) (rs rs' : RingSig L P) (i : Nat)
    (hi : i < ring.length) (hi' : i < ring'.length)
    (hne : ring[i]? ≠ some (publicKey c x)) (hne' : ring'[i]? ≠ some (publicKey c x))
    (h1 : ringSign c x msg ring = .ok rs) (h2 : ringSign c x msg ring' = .ok rs') :
    rs.s.getD i 0 = rs'.s.getD i 0 := by
  obtain ⟨s1, hs1, _, _, hg1⟩ := ringSign_public c h1
  obtain ⟨s2, hs2, _, _, hg2⟩ := ringSign_public c h2
  rw [hg1 i hi, hg2 i hi', if_neg, if_neg]
  · rintro rfl; exact hne' (signerIndex_some hs2)
  · rintro rfl; exact hne (signerIndex_some hs1)

/-! ## C21 -/

/-- C21: private keys survive printing and parsing. -/
theorem C21_private_key (x : ZMod L) : toPrivateKey c (privateKeyStr c x) = .ok x := scalar_roundtrip c x

/-- C21: public keys survive printing and parsing. -/
theorem C21_public_key (p : P) : toPublicKey c (pointStr c p) = .ok p := point_roundtrip c p

/-- C21: a plain signature survives printing and parsing exactly when the parser's sampled verification accepts
it; otherwise the parser reports an error. -/
theorem C21_signature (rnd : Str) (sig : Sig L P) :
    toSignature c rnd (sig.toStr c) = if sig.verify c rnd then .ok sig else .err := by
  unfold toSignature Sig.toStr
  rw [Codec.b64Decode_encode, Out.bind_ok,
    Codec.split_append _ _ _ (delim_point _ _), Codec.split_of_not_mem _ _ (delim_scalar _ _)]
  simp [point_roundtrip, scalar_roundtrip, createSignature]

/-- C21: every ring signature survives printing and parsing. -/
theorem C21_ring_signature (rs : RingSig L P) : toRingSignature c (rs.toStr c) = .ok rs := by
  unfold toRingSignature RingSig.toStr
  rw [Codec.b64Decode_encode, Out.bind_ok,
    Codec.split_append _ _ _ (delim_joinElems _ (by simp [pointStr, delim_hex])),
    Codec.split_append _ _ _ (delim_joinElems _ (by simp [scalarStr, delim_hex])),
    Codec.split_of_not_mem _ _ (delim_scalar _ _)]
  have h1 : parseElems (fromStringToPoint c) (joinElems (rs.ring.map (pointStr c))) = .ok rs.ring :=
    parse_joinElems (pointStr c) _ _ (fun a => elem_hex _)
      (fun a => hexEncode_ne_nil _ (c.encP_len a)) (point_roundtrip c)
  have h2 : parseElems (fromStringToScalar c) (joinElems (rs.s.map (scalarStr c))) = .ok rs.s :=
    parse_joinElems (scalarStr c) _ _ (fun a => elem_hex _)
      (fun a => hexEncode_ne_nil _ (c.encS_len a)) (scalar_roundtrip c)
  simp only [h1, h2, scalar_roundtrip, Out.bind_ok, Out.pure_eq]

/-- C21: printing is injective. -/
theorem C21_text_injective (rs rs' : RingSig L P) (h : rs.toStr c = rs'.toStr c) : rs = rs' := by
  have h1 := C21_ring_signature c rs
  rw [h, C21_ring_signature c rs'] at h1
  simpa using h1.symm

/-! ## C22 -/

theorem checkHashes_ok (sha : Str → Hash) (ring : List P) (hs : List Hash) (hl : hs.length = ring.length) :
    checkHashes c sha ring hs = .ok true ↔ hs = ring.map (fun p => Hash.fromBytes sha (c.encP p)) := by
  induction ring generalizing hs with
  | nil => simp at hl; simp [checkHashes, hl]
  | cons p ps ih =>
    cases hs with
    | nil => simp at hl
    | cons h hs =>
      have hf : Hash.fromString sha (pointStr c p) = .ok (Hash.fromBytes sha (c.encP p)) := by
        simp [Hash.fromString, pointStr, hexDecode_hexEncode]
      simp only [checkHashes, hf, Out.bind_ok, List.map_cons, List.cons.injEq]
      by_cases hc : Hash.compare (Hash.fromBytes sha (c.encP p)) h = true
      · have := Subtype.ext ((C04_compare_iff _ _).mp hc)
        simp only [hc, Bool.not_true, Bool.false_eq_true, if_false]
        rw [ih hs (by simpa using hl)]
        constructor
        · intro h2; exact ⟨this.symm, h2⟩
        · exact fun h2 => h2.2
      · simp only [hc, Bool.not_false, if_true]
        constructor
        · intro h2; simp at h2
        · rintro ⟨rfl, _⟩
          exact absurd ((C04_compare_iff _ _).mpr rfl) hc

/-- C22: `ToVerification` accepts exactly when the ring signature verifies for the message and the given list is,
in order, the list of the hashes of the ring's keys. It never returns "false without an error". -/
theorem C22_verification_iff (sha : Str → Hash) (rs : RingSig L P) (msg : Str) (hashes : List Hash) :
    toVerification c sha rs msg hashes = .ok true ↔
      rs.verify c msg = .ok true ∧ hashes = rs.ring.map (fun p => Hash.fromBytes sha (c.encP p)) := by
  unfold toVerification
  cases hv : rs.verify c msg with
  | err => simp
  | panic => simp
  | ok b =>
    cases b with
    | false => simp
    | true =>
      simp only [Out.bind_ok, Bool.not_true, Bool.false_eq_true, if_false, true_and, ne_eq, ite_not]
      split
      · rename_i hl
        exact checkHashes_ok c sha _ _ hl
      · rename_i hl
        constructor
        · intro h; simp at h
        · rintro rfl; simp at hl

/-- C22: the answer is never `(false, nil)`. -/
theorem C22_never_false (sha : Str → Hash) (rs : RingSig L P) (msg : Str) (hashes : List Hash) :
    toVerification c sha rs msg hashes ≠ .ok false := by
  have hch : ∀ (ring : List P) (hs : List Hash), checkHashes c sha ring hs ≠ .ok false := by
    intro ring
    induction ring with
    | nil => simp [checkHashes]
    | cons p ps ih =>
      intro hs
      cases hs with
      | nil => simp [checkHashes]
      | cons h hs =>
        simp only [checkHashes]
        cases Hash.fromString sha (pointStr c p) with
        | ok ph =>
          simp only [Out.bind_ok]
          split
          · simp
          · exact ih hs
        | err => simp
        | panic => simp
  unfold toVerification
  cases hv : rs.verify c msg with
  | err => simp
  | panic => simp
  | ok b =>
    simp only [Out.bind_ok]
    split
    · simp
    · split
      · simp
      · exact hch _ _

/-- C22: nothing ties a ring to distinct keys or to one hash per key: with an empty ring and no hashes the
verification is positive for every message and every scalar. -/
theorem C22_empty_accepted (sha : Str → Hash) (s : List (ZMod L)) (e : ZMod L) (msg : Str) :
    toVerification c sha (⟨[], s, e⟩ : RingSig L P) msg [] = .ok true :=
  (C22_verification_iff c sha _ _ _).mpr ⟨C19_empty_ring_verifies c s e msg, rfl⟩

/-! ## The hypotheses are met -/

section Examples

/-- C15: a concrete signing that meets both challenge hypotheses. -/
theorem toy_challenges : toy.createHash (lit "12" ++ pointStr toy (smul (genK toy 3 (lit "m")) toy.G)) ≠ 0 ∧
    toy.createHash (lit "m" ++ pointStr toy (smul (genK toy 3 (lit "m")) toy.G)) ≠ 0 ∧
    toy.createHash (lit "n" ++ pointStr toy (smul (genK toy 3 (lit "m")) toy.G)) ≠ 0 := by
  decide +kernel

/-- C15: a signature read with two messages. -/
example : ∃ sig, sign toy (lit "12") 3 (lit "m") = .ok sig ∧ sigChallenge toy sig (lit "n") ≠ 0 ∧
    toy.G ≠ 0 ∧ (3 : ZMod 7) ≠ 0 := by
  obtain ⟨sig, h, _⟩ := C15_sign_recovers_key toy (lit "12") (lit "m") 3 toy_challenges.1 toy_challenges.2.1
  refine ⟨sig, h, ?_, by decide, by decide⟩
  unfold sigChallenge
  rw [(sign_eq toy h).1]
  exact toy_challenges.2.2

/-- C16: a pair nobody signed. -/
example : sigChallenge toy ⟨(5 : ZMod 7), 2⟩ (lit "12") ≠ 0 ∧ 7 • (5 : ZMod 7) = 0 := by decide +kernel

/-- C17: a ring with three members, the signer in the middle, and with the same key twice. -/
example : publicKey toy 3 ∈ [(5 : ZMod 7), 3, 3] := by decide +kernel
example : ringSign toy 3 (lit "m") [(5 : ZMod 7), 3, 3] ≠ .err := by
  rw [ne_eq, (C18_ring_sign_error_iff toy 3 _ _).1]; decide +kernel

/-- C20: a signature and a ring signature of one message whose challenges differ, and a decoy. -/
example : ∃ sig rs, sign toy (lit "12") 3 (lit "m") = .ok sig ∧
    ringSign toy 3 (lit "m") [(5 : ZMod 7), 3] = .ok rs ∧
    publicChallenge toy rs (lit "m") 1 ≠ sigChallenge toy sig (lit "m") := by
  obtain ⟨sig, h, _⟩ := C15_sign_recovers_key toy (lit "12") (lit "m") 3 toy_challenges.1 toy_challenges.2.1
  refine ⟨sig, _, h, rfl, ?_⟩
  unfold sigChallenge
  rw [(sign_eq toy h).1]
  decide +kernel

end Examples

end Verif.Signature
