import Verif.Props.SignatureMore

/-!
# What a ring signature tells about its signer
-/

namespace Verif.Signature
open Verif

variable {L : Nat} {P : Type} [AddCommGroup P] [DecidableEq P] [hL : Fact L.Prime]
variable (c : Curve L P)

/-- C111: `RingSign` makes its signature in this way, at the first position of its key, with the nonce of `Sign`. -/
theorem C111_made (x : ZMod L) (msg : Str) (ring : List P) (rs : RingSig L P) (h : ringSign c x msg ring = .ok rs) :
    ∃ j, rs.ring = ring ∧ (∀ i < j, ring[i]? ≠ some (publicKey c x)) ∧ RingMade c msg rs j x (genK c x msg) ∧
      ∀ i < ring.length, i ≠ j → rs.s[i]? = some (genK c x (msg ++ itoaNat i)) := by
  cases hi : signerIndex ring (publicKey c x) with
  | none => simp [ringSign, hi] at h
  | some signer =>
    obtain ⟨rs', hok, hring, hlen, he, hs⟩ := ringSign_spec c x msg ring signer hi
    rw [h] at hok; simp at hok; subst hok
    have hsl : signer < ring.length := (List.getElem?_eq_some_iff.mp (signerIndex_some hi)).1
    have hget : ∀ j < ring.length, rs.s.getD j 0 = if j = signer then
        genK c x msg - chalAt c x msg ring signer j * x else genK c x (msg ++ itoaNat j) := by
      intro j hj; simp only [List.getD, hs j hj, Option.getD_some]
    refine ⟨signer, hring, ?_, ⟨by rw [hlen, hring], by rw [hring]; exact signerIndex_some hi, chalAt c x msg ring signer, ?_, ?_, ?_, he⟩, ?_⟩
    · clear h hs hget he hlen hring hsl
      induction ring generalizing signer with
      | nil => simp
      | cons p ring ih =>
        simp only [signerIndex] at hi
        split at hi
        · simp at hi; subst hi; simp
        · rename_i hp
          simp at hi
          obtain ⟨m, hm, rfl⟩ := hi
          intro i hi
          cases i with
          | zero => simpa using hp
          | succ i => simpa using ih m hm i (by omega)
    · rw [hring]
      have hr : 0 < ring.length := by omega
      have hb : (signer + 1) % ring.length < ring.length := Nat.mod_lt _ hr
      unfold chalAt
      rw [Nat.add_comm _ ring.length, Nat.add_sub_cancel, Nat.mod_self]
      rfl
    · intro i hi' hne
      rw [hring] at hi' ⊢
      rw [← chalAt_step c x msg ring signer i hi hi', if_neg hne, hget i hi', if_neg hne]
    · rw [hget signer hsl, if_pos rfl]
    · intro i hi' hne
      rw [hs i hi', if_neg hne]

/-- The challenges of a signature which was made in this way are the public ones. -/
theorem made_challenges {msg : Str} {rs : RingSig L P} {j : Nat} {x k : ZMod L} {e : Nat → ZMod L} (hj : rs.ring[j]? = some (publicKey c x))
    (h1 : e ((j + 1) % rs.ring.length) = c.createHash (msg ++ pointStr c (smul k c.G)))
    (h2 : ∀ i < rs.ring.length, i ≠ j → e ((i + 1) % rs.ring.length) =
      c.createHash (msg ++ pointStr c (smul (rs.s.getD i 0) c.G + smul (e i) (rs.ring.getD i 0))))
    (h3 : rs.s.getD j 0 = k - e j * x) (h4 : rs.e = e 0) : ∀ i, i < rs.ring.length → publicChallenge c rs msg i = e i ∧
      publicChallenge c rs msg (i + 1) = e ((i + 1) % rs.ring.length) := by
  intro i
  have step : ∀ i < rs.ring.length, publicChallenge c rs msg i = e i → publicChallenge c rs msg (i + 1) = e ((i + 1) % rs.ring.length) := by
    intro i hi he
    simp only [publicChallenge, he]
    by_cases hij : i = j
    · subst hij
      have hg : rs.ring.getD i 0 = publicKey c x := by simp [List.getD, hj]
      rw [h1, h3, hg, publicKey, ← smul_mul' _ _ _ c.G_order, ← smul_add' _ _ _ c.G_order, sub_add_cancel]
    · rw [h2 i hi hij]
  induction i with
  | zero => intro hi; exact ⟨h4, step 0 hi h4⟩
  | succ i ih =>
    intro hi
    have := (ih (by omega)).2
    rw [Nat.mod_eq_of_lt hi] at this
    exact ⟨this, step _ hi this⟩

/-- C111: every signature which is made in this way, by any member with any nonce and any other responses, verifies. -/
theorem C111_verifies (msg : Str) (rs : RingSig L P) (j : Nat) (x k : ZMod L) (h : RingMade c msg rs j x k) : rs.verify c msg = .ok true := by
  obtain ⟨hl, hj, e, h1, h2, h3, h4⟩ := h
  have hjl : j < rs.ring.length := (List.getElem?_eq_some_iff.mp hj).1
  rw [C62_verify_iff c rs msg (by omega)]
  have := (made_challenges c hj h1 h2 h3 h4 (rs.ring.length - 1) (by omega)).2
  have hr : rs.ring.length - 1 + 1 = rs.ring.length := by omega
  rw [hr, Nat.mod_self] at this
  rw [this, h4]
  simp

/-- C111: a signature which verifies (with one response for every member) could have been made by every member, with exactly one nonce each. -/
theorem C111_everyone (msg : Str) (rs : RingSig L P) (hv : rs.verify c msg = .ok true) (hl : rs.s.length = rs.ring.length) (j : Nat) (x : ZMod L)
    (hj : rs.ring[j]? = some (publicKey c x)) : ∃! k, RingMade c msg rs j x k := by
  have hjl : j < rs.ring.length := (List.getElem?_eq_some_iff.mp hj).1
  have hr : 0 < rs.ring.length := by omega
  rw [C62_verify_iff c rs msg (by omega)] at hv
  have hround : publicChallenge c rs msg rs.ring.length = rs.e := by simpa using hv
  have hstep : ∀ i < rs.ring.length, publicChallenge c rs msg ((i + 1) % rs.ring.length) = publicChallenge c rs msg (i + 1) := by
    intro i hi
    rcases Nat.lt_or_ge (i + 1) rs.ring.length with h | h
    · rw [Nat.mod_eq_of_lt h]
    · have : i + 1 = rs.ring.length := by omega
      rw [this, Nat.mod_self, hround]
      rfl
  have hg : rs.ring.getD j 0 = publicKey c x := by simp [List.getD, hj]
  refine ⟨rs.s.getD j 0 + publicChallenge c rs msg j * x, ⟨hl, hj, publicChallenge c rs msg, ?_, ?_, by ring, rfl⟩, ?_⟩
  · rw [hstep j hjl]
    simp only [publicChallenge]
    rw [hg, publicKey, ← smul_mul' _ _ _ c.G_order, ← smul_add' _ _ _ c.G_order]
  · intro i hi _
    rw [hstep i hi]
    rfl
  · rintro k ⟨_, _, e, h1, h2, h3, h4⟩
    have := (made_challenges c hj h1 h2 h3 h4 j hjl).1
    rw [h3, this]
    ring

/-- C111: hence the signatures which one member can make are the signatures which any other member can make. -/
theorem C111_ambiguous (msg : Str) (rs : RingSig L P) (j j' : Nat) (x x' : ZMod L) (hj : rs.ring[j]? = some (publicKey c x))
    (hj' : rs.ring[j']? = some (publicKey c x')) : (∃ k, RingMade c msg rs j x k) ↔ ∃ k, RingMade c msg rs j' x' k := by
  constructor
  · rintro ⟨k, h⟩
    obtain ⟨k', h', _⟩ := C111_everyone c msg rs (C111_verifies c msg rs j x k h) h.1 j' x' hj'
    exact ⟨k', h'⟩
  · rintro ⟨k, h⟩
    obtain ⟨k', h', _⟩ := C111_everyone c msg rs (C111_verifies c msg rs j' x' k h) h.1 j x hj
    exact ⟨k', h'⟩

/-- C111, violation: the nonce of `RingSign` is the one of `Sign`. Whoever has a plain signature of the same message by a member sees the position of
the signer: there the point of the ring signature is the point of the plain signature. -/
theorem C111_exposed (rnd msg : Str) (x : ZMod L) (ring : List P) (sig : Sig L P) (rs : RingSig L P) (h1 : sign c rnd x msg = .ok sig)
    (h2 : ringSign c x msg ring = .ok rs) : ∃ j, ring[j]? = some (publicKey c x) ∧ commitment c rs msg j = sig.r := by
  obtain ⟨j, hr, _, ⟨hl, hj, e, a1, a2, a3, a4⟩, _⟩ := C111_made c x msg ring rs h2
  have hjl : j < rs.ring.length := (List.getElem?_eq_some_iff.mp hj).1
  refine ⟨j, by rw [← hr]; exact hj, ?_⟩
  have hg : rs.ring.getD j 0 = publicKey c x := by simp [List.getD, hj]
  unfold commitment
  rw [(made_challenges c hj a1 a2 a3 a4 j hjl).1, a3, hg, publicKey, ← smul_mul' _ _ _ c.G_order, ← smul_add' _ _ _ c.G_order, sub_add_cancel,
    (sign_eq c h1).1]

/-- C111: two responses to different challenges for the same point give the key away. -/
theorem C111_two_answers (hG : c.G ≠ 0) (msg msg' : Str) (rs rs' : RingSig L P) (i i' : Nat) (x : ZMod L) (hi : rs.ring[i]? = some (publicKey c x))
    (hi' : rs'.ring[i']? = some (publicKey c x)) (hc : commitment c rs msg i = commitment c rs' msg' i')
    (hne : publicChallenge c rs msg i ≠ publicChallenge c rs' msg' i') :
    x = (rs'.s.getD i' 0 - rs.s.getD i 0) / (publicChallenge c rs msg i - publicChallenge c rs' msg' i') := by
  have hg : rs.ring.getD i 0 = publicKey c x := by simp [List.getD, hi]
  have hg' : rs'.ring.getD i' 0 = publicKey c x := by simp [List.getD, hi']
  unfold commitment at hc
  rw [hg, hg', publicKey, ← smul_mul' _ _ _ c.G_order, ← smul_add' _ _ _ c.G_order, ← smul_mul' _ _ _ c.G_order, ← smul_add' _ _ _ c.G_order,
    smul_inj _ _ _ c.G_order hG] at hc
  rw [eq_div_iff (sub_ne_zero.mpr hne)]
  have : x * (publicChallenge c rs msg i - publicChallenge c rs' msg' i') =
      (rs.s.getD i 0 + publicChallenge c rs msg i * x) - publicChallenge c rs' msg' i' * x - rs.s.getD i 0 := by ring
  rw [this, hc]
  ring

/-- A ring of three different keys. The signature of the second one could have been made by the first one, but a plain signature shows who made it: at the
other positions the points differ. -/
example : ∃ rs, ringSign toy 3 (lit "m") [(5 : ZMod 7), 3, 2] = .ok rs ∧ rs.verify toy (lit "m") = .ok true ∧ rs.s.length = rs.ring.length ∧
    rs.ring[0]? = some (publicKey toy 5) ∧ (∃ k, RingMade toy (lit "m") rs 0 5 k) ∧ (∃ k, RingMade toy (lit "m") rs 1 3 k) := by
  obtain ⟨rs, h, hv⟩ : ∃ rs, ringSign toy 3 (lit "m") [(5 : ZMod 7), 3, 2] = .ok rs ∧ rs.verify toy (lit "m") = .ok true := ⟨_, rfl, by decide +kernel⟩
  obtain ⟨j, hr, _, hm, _⟩ := C111_made toy _ _ _ _ h
  have h0 : rs.ring[0]? = some (publicKey toy 5) := by rw [hr]; decide +kernel
  have h1 : rs.ring[1]? = some (publicKey toy 3) := by rw [hr]; decide +kernel
  exact ⟨rs, h, hv, hm.1, h0, (C111_everyone toy _ rs hv hm.1 0 5 h0).exists, (C111_everyone toy _ rs hv hm.1 1 3 h1).exists⟩

end Verif.Signature
