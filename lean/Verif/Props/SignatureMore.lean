import Verif.Props.Signature

/-!
# More properties of the signatures: verification, nonces, texts
-/

namespace Verif.Signature
open Verif

variable {L : Nat} {P : Type} [AddCommGroup P] [DecidableEq P] [hL : Fact L.Prime]
variable (c : Curve L P)

/-! ## C62: what the verification of a ring signature checks -/

/-- C62: with enough responses, `Verify` is true exactly when the chain of challenges, which starts with the seed and goes once
around the ring, ends with the seed; otherwise it is false. -/
theorem C62_verify_iff (rs : RingSig L P) (msg : Str) (h : rs.ring.length ≤ rs.s.length) :
    rs.verify c msg = .ok (decide (publicChallenge c rs msg rs.ring.length = rs.e)) := by
  have := verifyLoop_take c msg rs.ring rs.s (publicChallenge c rs msg) rs.ring.length le_rfl (fun j hj => by
    have hj' : j < rs.s.length := by omega
    refine ⟨rs.s[j], by simp [hj'], ?_⟩
    simp [publicChallenge, List.getD, hj'])
  rw [List.take_length] at this
  unfold RingSig.verify
  rw [show rs.e = publicChallenge c rs msg 0 from rfl, this]
  simp only [Out.bind_ok, Out.pure_eq, Out.ok.injEq]
  rw [show publicChallenge c rs msg 0 = rs.e from rfl]
  simp [eq_comm]

theorem hexEncode_length (s : Str) : (Hash.hexEncode s).length = 2 * s.length := by
  induction s with
  | nil => rfl
  | cons a s ih => simp only [Hash.hexEncode, List.length_cons, ih]; omega

theorem pointStr_length (p : P) : (pointStr c p).length = 64 := by
  simp [pointStr, hexEncode_length, c.encP_len]

theorem scalarStr_length (a : ZMod L) : (scalarStr c a).length = 64 := by
  simp [scalarStr, hexEncode_length, c.encS_len]

/-- C62: a ring signature of a non-empty ring which verifies for two messages gives a collision of the scalar hash, between a
text which is the one message with a point and a text which is the other message with a point. -/
theorem C62_message_bound (rs : RingSig L P) (hr : rs.ring ≠ []) (msg msg' : Str) (hne : msg ≠ msg')
    (h : rs.verify c msg = .ok true) (h' : rs.verify c msg' = .ok true) :
    ∃ p p' : P, msg ++ pointStr c p ≠ msg' ++ pointStr c p' ∧
      c.createHash (msg ++ pointStr c p) = c.createHash (msg' ++ pointStr c p') := by
  have hlen : rs.ring.length ≤ rs.s.length := by
    by_contra hc
    rw [(C19_panics_iff c rs msg).mpr (by omega)] at h
    cases h
  rw [C62_verify_iff c rs _ hlen] at h h'
  simp only [Out.ok.injEq, decide_eq_true_eq] at h h'
  obtain ⟨n, hn⟩ : ∃ n, rs.ring.length = n + 1 := Nat.exists_eq_succ_of_ne_zero (by simpa using hr)
  rw [hn] at h h'
  simp only [publicChallenge] at h h'
  refine ⟨_, _, ?_, h.trans h'.symm⟩
  intro e
  exact hne (List.append_inj_left' e (by simp [pointStr_length]))

/-- A ring signature which verifies for its message and not for another one. -/
example : ∃ rs, ringSign toy 3 (lit "m") [(5 : ZMod 7), 3] = .ok rs ∧ rs.verify toy (lit "m") = .ok true ∧
    rs.verify toy (lit "n") = .ok false ∧ rs.ring ≠ [] := by
  refine ⟨_, rfl, ?_, ?_, by decide⟩
  · decide +kernel
  · decide +kernel

/-! ## C63: nonces -/

/-- C63: if two signatures (of any keys and messages) have the same point `r`, they were made with the same key and message, or
the scalar hash has a collision between the texts from which the nonces were made. -/
theorem C63_nonce_not_reused (rnd rnd' msg msg' : Str) (x x' : ZMod L) (sig sig' : Sig L P) (hG : c.G ≠ 0)
    (h : sign c rnd x msg = .ok sig) (h' : sign c rnd' x' msg' = .ok sig') (hr : sig.r = sig'.r) :
    (x = x' ∧ msg = msg') ∨ (msg ++ scalarStr c x ≠ msg' ++ scalarStr c x' ∧
      c.createHash (msg ++ scalarStr c x) = c.createHash (msg' ++ scalarStr c x')) := by
  rw [(sign_eq c h).1, (sign_eq c h').1, smul_inj _ _ _ c.G_order hG] at hr
  by_cases e : msg ++ scalarStr c x = msg' ++ scalarStr c x'
  · left
    obtain ⟨e1, e2⟩ := List.append_inj' e (by simp [scalarStr_length])
    refine ⟨?_, e1⟩
    have h1 := scalar_roundtrip c x
    rw [e2, scalar_roundtrip c x'] at h1
    simpa using h1.symm
  · exact .inr ⟨e, hr⟩

/-- Two signatures of different messages with different points. -/
example : ∃ sig sig', sign toy (lit "12") 3 (lit "m") = .ok sig ∧ sign toy (lit "12") 3 (lit "n") = .ok sig' ∧
    sig.r ≠ sig'.r ∧ toy.G ≠ 0 := by
  refine ⟨⟨smul (genK toy 3 (lit "m")) toy.G, genK toy 3 (lit "m") - toy.createHash (lit "m" ++
      pointStr toy (smul (genK toy 3 (lit "m")) toy.G)) * 3⟩, ⟨smul (genK toy 3 (lit "n")) toy.G, genK toy 3 (lit "n") -
      toy.createHash (lit "n" ++ pointStr toy (smul (genK toy 3 (lit "n")) toy.G)) * 3⟩, ?_, ?_, ?_, by decide⟩
  · decide +kernel
  · decide +kernel
  · decide +kernel

/-- C63: signing is deterministic but for the sampled self-check: two runs which succeed give the same signature. -/
theorem C63_deterministic (rnd rnd' msg : Str) (x : ZMod L) (sig sig' : Sig L P)
    (h : sign c rnd x msg = .ok sig) (h' : sign c rnd' x msg = .ok sig') : sig = sig' := by
  simp only [sign, createSignature] at h h'
  split at h
  · split at h'
    · simp at h h'; rw [← h, ← h']
    · cases h'
  · cases h

/-! ## C64: texts are not canonical -/

/-- C64: line breaks may be put anywhere into the text of a signature or a ring signature without effect. -/
theorem C64_linebreaks_ignored (rnd a b : Str) (nl : UInt8) (h : nl = 10 ∨ nl = 13) :
    toSignature c rnd (a ++ nl :: b) = toSignature c rnd (a ++ b) ∧
      toRingSignature c (a ++ nl :: b) = toRingSignature c (a ++ b) := by
  have : Codec.b64Decode (a ++ nl :: b) = Codec.b64Decode (a ++ b) := by
    unfold Codec.b64Decode
    rcases h with rfl | rfl <;> simp [List.filter_cons]
  simp only [toSignature, toRingSignature, this, and_self]

example : ∃ sig, toSignature toy (lit "12") ((Sig.toStr toy ⟨(5 : ZMod 7), 2⟩).take 4 ++ 10 ::
    (Sig.toStr toy ⟨(5 : ZMod 7), 2⟩).drop 4) = .ok sig := by
  refine ⟨⟨5, 2⟩, ?_⟩
  rw [(C64_linebreaks_ignored toy _ _ _ _ (.inl rfl)).1, List.take_append_drop, C21_signature]
  decide +kernel

open Codec in
theorem b64Quanta_shape (s : Str) (b : Str) (h : b64Quanta s = .ok b) :
    s.length % 4 = 0 ∧ ∃ d p, s = d ++ List.replicate p pad ∧ p ≤ 2 ∧ (∀ x ∈ d, (b64Val x).isSome) ∧
      4 * b.length = 3 * s.length - 4 * p := by
  fun_induction b64Quanta s generalizing b with
  | case1 => simp at h; subst h; exact ⟨rfl, [], 0, by simp⟩
  | case2 a1 a2 a3 a4 rest w x y z hw hx hy hz ih =>
    simp only [Out.bind_eq_ok] at h
    obtain ⟨r, hr, h⟩ := h
    simp at h
    subst h
    obtain ⟨h1, d, p, h2, h3, h4, h5⟩ := ih r hr
    refine ⟨by simp; omega, a1 :: a2 :: a3 :: a4 :: d, p, by simp [h2], h3, ?_, ?_⟩
    · intro q hq
      simp only [List.mem_cons] at hq
      rcases hq with rfl | rfl | rfl | rfl | hq
      · simp [*]
      · simp [*]
      · simp [*]
      · simp [*]
      · exact h4 q hq
    · simp only [List.length_cons]
      have : p ≤ rest.length := by rw [h2]; simp
      omega
  | case3 a1 a2 a3 a4 rest w x y hw hx hy hz hc =>
    simp at h
    subst h
    obtain ⟨rfl, rfl⟩ := hc
    refine ⟨by simp, [a1, a2, a3], 1, rfl, by omega, ?_, by simp⟩
    intro q hq
    simp only [List.mem_cons, List.not_mem_nil, or_false] at hq
    rcases hq with rfl | rfl | rfl <;> simp [*]
  | case5 a1 a2 a3 a4 rest w x hw hx hy hz hc =>
    simp at h
    subst h
    obtain ⟨rfl, rfl, rfl⟩ := hc
    refine ⟨by simp, [a1, a2], 2, rfl, by omega, ?_, by simp⟩
    intro q hq
    simp only [List.mem_cons, List.not_mem_nil, or_false] at hq
    rcases hq with rfl | rfl <;> simp [*]
  | _ => simp at h

/-- C64: a text is decoded only if, without its line breaks, it consists of whole groups of four characters of the alphabet of
which at most the last two are padding; then the length of the decoded text is the usual one. -/
theorem C64_base64_shape (s b : Str) (h : Codec.b64Decode s = .ok b) :
    ∃ d p, s.filter (fun x => x ≠ 10 ∧ x ≠ 13) = d ++ List.replicate p Codec.pad ∧ p ≤ 2 ∧ (d.length + p) % 4 = 0 ∧
      (∀ x ∈ d, (Codec.b64Val x).isSome) ∧ 4 * b.length + p = 3 * d.length := by
  obtain ⟨h1, d, p, h2, h3, h4, h5⟩ := b64Quanta_shape _ b h
  refine ⟨d, p, by convert h2, h3, ?_, h4, ?_⟩
  · have := congrArg List.length h2
    simp only [List.length_append, List.length_replicate] at this
    omega
  · have := congrArg List.length h2
    simp only [List.length_append, List.length_replicate] at this
    have : p ≤ d.length := by
      by_contra hc
      have : (d.length + p) % 4 = 0 := by omega
      have : d = [] := by
        cases d with
        | nil => rfl
        | cons x xs => simp at *; omega
      subst this
      simp at *
      omega
    omega

example : Codec.b64Decode (lit "YW\nI=") = .ok (lit "ab") := by decide +kernel

end Verif.Signature
