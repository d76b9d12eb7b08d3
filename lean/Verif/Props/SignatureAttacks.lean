import Verif.Lemmas.SignatureAttacks
import Verif.Spec.SignatureAttacks
import Verif.Props.SignatureMore
import Verif.Props.Edwards

/-!
# C129, C130: private keys from signatures, and ring signatures of others, in the machine words of the library

`Spec/SignatureAttacks` has the programs. They use public data only.
-/

namespace Verif.SigLimb
open Verif Verif.Kyber
open Verif.SigEd (OutRel edGroup)
open Verif.SigBytes (ofResidue residue curveOf)

attribute [local irreducible] primeOrder leBytes SigBytes.ofResidue SigBytes.residue

variable (sha : Str → Str)

theorem reduced_leNat {a x : Scalar} (ha : SigBytes.Reduced a) (h : residue a = residue x) : leNat a.1 = leNat x.1 % primeOrder := by
  rw [← SigBytes.residue_val x, ← h, SigBytes.residue_val, Nat.mod_eq_of_lt ha]

/-- C129: whoever signs a message plainly and in a ring gives away the private key: for the position of the signer, `keyFromBoth` computes it, unless the two
challenges are the same. -/
theorem C129_both (rnd msg : Str) (x : Scalar) (hx : leNat x.1 ≤ mulLimit) (ring : List LExtended) (hring : ∀ p ∈ ring, ∃ P, LRep p P) (sig : Sig) (rs : RingSig)
    (h1 : sign sha rnd x msg = .ok sig) (h2 : ringSign sha x msg ring = .ok rs) :
    ∃ i p, ring[i]? = some p ∧ p.equal (publicKey x) = true ∧ ∃ e, challengeAt sha rs msg i = .ok e ∧
      (e ≠ sigChallenge sha sig msg → ∃ k, keyFromBoth sha sig rs msg i = .ok k ∧ leNat k.1 = leNat x.1 % primeOrder) := by
  obtain ⟨Ring, hR⟩ := exists_points hring
  obtain ⟨S, hS, r1, s1⟩ := sign_algebra sha h1
  obtain ⟨RS, hRS, r2, s2, e2⟩ := ringSign_algebra sha hx hR h2
  obtain ⟨i, hi, hk, hleak⟩ := Signature.C20_sign_and_ring_leak (curveOf (edGroup sha)) rnd msg (residue x) Ring S RS hS hRS
  obtain ⟨_, hrr, _, hmade, _⟩ := Signature.C111_made (curveOf (edGroup sha)) (residue x) msg Ring RS hRS
  have hsl : RS.s.length = Ring.length := by rw [← hrr]; exact hmade.1
  have hil : i < ring.length := by rw [hR.length_eq]; exact hi
  have hrl : rs.ring.length = Ring.length := by rw [r2.length_eq, hrr]
  have hss : rs.s.length = Ring.length := by rw [s2, List.length_map, hsl]
  have hch := challenge_algebra sha r2 (by rw [s2, List.map_map, show (residue ∘ ofResidue) = id from funext SigBytes.residue_ofResidue, List.map_id])
    (fun a ha => by
      rw [s2] at ha
      obtain ⟨z, _, rfl⟩ := List.mem_map.1 ha
      exact SigBytes.limit_ofResidue z) e2 msg i (by omega) (by omega)
  have hpk : LRep (publicKey x) (Signature.publicKey (curveOf (edGroup sha)) (residue x)) := by
    rw [← SigBytes.publicKey_eq (edGroup sha) x hx]; exact publicKey_rep sha x
  have hp : LRep ring[i] (Ring[i]) := by
    have := List.forall₂_iff_get.1 hR
    exact this.2 i hil hi
  have hq : Ring[i] = Signature.publicKey (curveOf (edGroup sha)) (residue x) := by
    rw [List.getElem?_eq_getElem hi] at hk
    exact Option.some.inj hk
  refine ⟨i, ring[i], List.getElem?_eq_getElem hil, (lequal_iff hp hpk).2 hq, _, hch, fun hne => ?_⟩
  have hc : sigChallenge sha sig msg = ofResidue (Signature.sigChallenge (curveOf (edGroup sha)) S msg) := hash_algebra sha r1 msg
  have hne' : Signature.publicChallenge (curveOf (edGroup sha)) RS msg i ≠ Signature.sigChallenge (curveOf (edGroup sha)) S msg := by
    intro h; rw [h, ← hc] at hne; exact hne rfl
  have hx' := hleak hne'
  have hsi : i < RS.s.length := by omega
  have hidx : index rs.s i = .ok (ofResidue (RS.s.getD i 0)) := by
    unfold index
    rw [s2, List.getElem?_map, List.getElem?_eq_getElem hsi]
    simp [List.getD, hsi]
  refine ⟨SigBytes.mul (SigBytes.sub sig.s (ofResidue (RS.s.getD i 0))) (SigBytes.oneDiv (SigBytes.sub
    (ofResidue (Signature.publicChallenge (curveOf (edGroup sha)) RS msg i)) (sigChallenge sha sig msg))), ?_, ?_⟩
  · unfold keyFromBoth challengeAt
    rw [hch, Out.bind_ok, hidx]
    rfl
  · apply reduced_leNat (SigBytes.reduced_mul _ _)
    rw [SigBytes.residue_mul, SigBytes.residue_sub, SigBytes.residue_oneDiv, SigBytes.residue_sub, hc, s1]
    simp only [SigBytes.residue_ofResidue]
    rw [mul_one_div]
    exact hx'.symm

/-- C129: likewise a ring signature of a message and a plain signature of the message followed by the number of another member: that member's response is the nonce. -/
theorem C129_decoy (rnd msg : Str) (x : Scalar) (hx : leNat x.1 ≤ mulLimit) (ring : List LExtended) (hring : ∀ p ∈ ring, ∃ P, LRep p P) (sig : Sig) (rs : RingSig)
    (i : Nat) (p : LExtended) (hi : ring[i]? = some p) (hp : p.equal (publicKey x) = false)
    (h1 : ringSign sha x msg ring = .ok rs) (h2 : sign sha rnd x (msg ++ itoaNat i) = .ok sig)
    (he : leNat (sigChallenge sha sig (msg ++ itoaNat i)).1 ≠ 0) :
    ∃ k, keyFromDecoy sha rs sig msg i = .ok k ∧ leNat k.1 = leNat x.1 % primeOrder := by
  obtain ⟨Ring, hR⟩ := exists_points hring
  obtain ⟨S, hS, r1, s1⟩ := sign_algebra sha h2
  obtain ⟨RS, hRS, r2, s2, e2⟩ := ringSign_algebra sha hx hR h1
  obtain ⟨_, hrr, _, hmade, _⟩ := Signature.C111_made (curveOf (edGroup sha)) (residue x) msg Ring RS hRS
  have hsl : RS.s.length = Ring.length := by rw [← hrr]; exact hmade.1
  obtain ⟨hil, hpi⟩ := List.getElem?_eq_some_iff.1 hi
  have hi' : i < Ring.length := by rw [← hR.length_eq]; exact hil
  have hpk : LRep (publicKey x) (Signature.publicKey (curveOf (edGroup sha)) (residue x)) := by
    rw [← SigBytes.publicKey_eq (edGroup sha) x hx]; exact publicKey_rep sha x
  have hrep : LRep p Ring[i] := by rw [← hpi]; exact (List.forall₂_iff_get.1 hR).2 i hil hi'
  have hne : Ring[i]? ≠ some (Signature.publicKey (curveOf (edGroup sha)) (residue x)) := by
    rw [List.getElem?_eq_getElem hi']
    intro h
    rw [(lequal_iff hrep hpk).2 (Option.some.inj h)] at hp
    simp at hp
  have hc : sigChallenge sha sig (msg ++ itoaNat i) = ofResidue (Signature.sigChallenge (curveOf (edGroup sha)) S (msg ++ itoaNat i)) := hash_algebra sha r1 _
  have hz : Signature.sigChallenge (curveOf (edGroup sha)) S (msg ++ itoaNat i) ≠ 0 := by
    intro h
    rw [hc, h, SigBytes.leNat_ofResidue, ZMod.val_zero] at he
    exact he rfl
  have hx' := Signature.C20_decoy_response_leak (curveOf (edGroup sha)) rnd msg (residue x) Ring RS i S hi' hne hRS hS hz
  have hsi : i < RS.s.length := by omega
  have hidx : index rs.s i = .ok (ofResidue (RS.s.getD i 0)) := by
    unfold index
    rw [s2, List.getElem?_map, List.getElem?_eq_getElem hsi]
    simp [List.getD, hsi]
  refine ⟨SigBytes.mul (SigBytes.sub (ofResidue (RS.s.getD i 0)) sig.s) (SigBytes.oneDiv (sigChallenge sha sig (msg ++ itoaNat i))), ?_, ?_⟩
  · unfold keyFromDecoy
    rw [hidx]
    rfl
  · apply reduced_leNat (SigBytes.reduced_mul _ _)
    rw [SigBytes.residue_mul, SigBytes.residue_sub, SigBytes.residue_oneDiv, hc, s1]
    simp only [SigBytes.residue_ofResidue]
    rw [mul_one_div]
    exact hx'.symm

/-- C130: from a ring signature which verifies, whose members are in the subgroup of the base point, `swapMember` makes one of the same message in whose ring any member but the last is
replaced by any key, and which verifies, unless a challenge is zero. -/
theorem C130_swap (rs : RingSig) (msg : Str) (i : Nat) (q : LExtended) (Q : EdP) (hq : LRep q Q) (hl : rs.ring.length ≤ rs.s.length)
    (hi : i + 1 < rs.ring.length) (hring : ∀ p ∈ rs.ring, ∃ P, LRep p P ∧ primeOrder • P = 0) (hlim : ∀ a ∈ rs.s, leNat a.1 ≤ mulLimit)
    (hv : rs.verify sha msg = .ok true)
    (hz : ∀ e s, challengeAt sha rs msg i = .ok e → rs.s[i]? = some s →
      leNat (createHash sha (msg ++ pointStr ((LExtended.mul s.1 lbaseExt).add (LExtended.mul e.1 q)))).1 ≠ 0) :
    ∃ rs', swapMember sha rs msg i q = .ok rs' ∧ rs'.ring.length = rs.ring.length ∧ rs'.ring[i]? = some q ∧
      (∀ j, j ≠ i → j ≠ i + 1 → rs'.ring[j]? = rs.ring[j]?) ∧ rs'.s = rs.s ∧ rs'.e = rs.e ∧ rs'.verify sha msg = .ok true := by
  have hpts : ∃ Ring : List EdP, List.Forall₂ LRep rs.ring Ring ∧ ∀ P ∈ Ring, primeOrder • P = 0 := by
    generalize rs.ring = l at hring
    clear hv hz hi hl
    induction l with
    | nil => exact ⟨[], .nil, by simp⟩
    | cons p l ih =>
      obtain ⟨P, hP, hP0⟩ := hring p (by simp)
      obtain ⟨Ring, h1, h2⟩ := ih fun r hr => hring r (by simp [hr])
      exact ⟨P :: Ring, .cons hP h1, by simpa [hP0] using h2⟩
  obtain ⟨Ring, hR, hord⟩ := hpts
  have hne : Ring ≠ [] := by
    intro h; rw [h] at hR; have := hR.length_eq; simp at this; rw [this] at hi; simp at hi
  have hrep : RepRing rs ⟨Ring, rs.s, rs.e⟩ := ⟨hR, rfl, rfl⟩
  have hvb := hv
  rw [ringVerify_rep sha hrep] at hvb
  have hred : SigBytes.Reduced rs.e := by
    by_contra h
    exact SigBytes.C119_challenge (edGroup sha) ⟨Ring, rs.s, rs.e⟩ hne h msg hvb
  rw [SigBytes.verify_bytes _ _ hred hlim] at hvb
  set RS := SigBytes.ringResidue (P := EdP) ⟨Ring, rs.s, rs.e⟩ with hRS
  have hce : rs.e = ofResidue RS.e := (SigBytes.reduced_iff _).1 hred
  have hlen := hR.length_eq
  have hsl : RS.s.length = rs.s.length := by simp [hRS, SigBytes.ringResidue]
  have hsi : i < rs.s.length := by omega
  have hc0 := challenge_algebra sha (RS := RS) hR rfl hlim hce msg i (by omega) (by omega)
  have hc1 := challenge_algebra sha (RS := RS) hR rfl hlim hce msg (i + 1) (by omega) (by omega)
  have hidx : index rs.s i = .ok rs.s[i] := by unfold index; rw [List.getElem?_eq_getElem hsi]
  have hpx : index rs.ring (i + 1) = .ok rs.ring[i + 1] := by unfold index; rw [List.getElem?_eq_getElem hi]
  have hgs : RS.s.getD i 0 = residue rs.s[i] := by simp [hRS, SigBytes.ringResidue, List.getD, hsi]
  have hpt : LRep ((LExtended.mul rs.s[i].1 lbaseExt).add (LExtended.mul (ofResidue (Signature.publicChallenge (curveOf (edGroup sha)) RS msg i)).1 q))
      (Signature.smul (RS.s.getD i 0) (curveOf (edGroup sha)).G + Signature.smul (Signature.publicChallenge (curveOf (edGroup sha)) RS msg i) Q) := by
    rw [hgs, ← SigBytes.pointMul_ofResidue _ Q]
    have := SigBytes.pointMul_base (edGroup sha) rs.s[i] (hlim _ (List.getElem_mem hsi))
    rw [show (curveOf (edGroup sha)).G = (edGroup sha).G from rfl, ← this]
    exact (lrep_base.mul _).add (hq.mul _)
  have hh := hash_algebra sha hpt msg
  set e' := (curveOf (edGroup sha)).createHash (msg ++ Signature.pointStr (curveOf (edGroup sha))
    (Signature.smul (RS.s.getD i 0) (curveOf (edGroup sha)).G + Signature.smul (Signature.publicChallenge (curveOf (edGroup sha)) RS msg i) Q)) with he'
  have hz' : e' ≠ 0 := by
    intro h
    have := hz _ _ hc0 (List.getElem?_eq_getElem hsi)
    rw [hh, h, SigBytes.leNat_ofResidue, ZMod.val_zero] at this
    exact this rfl
  have hsw := Signature.swapped_verifies (curveOf (edGroup sha)) RS msg i Q (by rw [hsl]; simp [hRS, SigBytes.ringResidue]; omega)
    (by simp [hRS, SigBytes.ringResidue]; omega) hord hvb e' he' hz'
  set m := SigBytes.mul (ofResidue (Signature.publicChallenge (curveOf (edGroup sha)) RS msg (i + 1))) (SigBytes.oneDiv (ofResidue e')) with hm
  have hmr : m = ofResidue (Signature.publicChallenge (curveOf (edGroup sha)) RS msg (i + 1) * e'⁻¹) := by
    rw [(SigBytes.reduced_iff m).1 (SigBytes.reduced_mul _ _), hm, SigBytes.residue_mul, SigBytes.residue_oneDiv, SigBytes.residue_ofResidue,
      SigBytes.residue_ofResidue, one_div]
  refine ⟨⟨(rs.ring.set i q).set (i + 1) (LExtended.mul m.1 rs.ring[i + 1]), rs.s, rs.e⟩, ?_, by simp, ?_, ?_, rfl, rfl, ?_⟩
  · unfold swapMember challengeAt
    rw [hc0, hc1, hidx, hpx]
    simp only [Out.bind_ok]
    rw [hh]
    rfl
  · rw [List.getElem?_set_ne (by omega), List.getElem?_set_self (by omega)]
  · intro j h1 h2
    rw [List.getElem?_set_ne (by omega), List.getElem?_set_ne (by omega)]
  · have hi2 : i + 1 < Ring.length := by omega
    have hR' : List.Forall₂ LRep ((rs.ring.set i q).set (i + 1) (LExtended.mul m.1 rs.ring[i + 1]))
        ((Ring.set i Q).set (i + 1) (Signature.smul (Signature.publicChallenge (curveOf (edGroup sha)) RS msg (i + 1) * e'⁻¹) (Ring.getD (i + 1) 0))) := by
      have key : ∀ (l : List LExtended) (L : List EdP) (n : Nat) (a : LExtended) (A : EdP), List.Forall₂ LRep l L → LRep a A →
          List.Forall₂ LRep (l.set n a) (L.set n A) := by
        intro l L n a A h ha
        induction h generalizing n with
        | nil => exact .nil
        | cons hp ht ih =>
          cases n with
          | zero => exact .cons ha ht
          | succ n => exact .cons hp (ih n)
      refine key _ _ _ _ _ (key _ _ _ _ _ hR hq) ?_
      have hp1 : LRep rs.ring[i + 1] Ring[i + 1] := (List.forall₂_iff_get.1 hR).2 (i + 1) hi hi2
      rw [hmr, ← SigBytes.pointMul_ofResidue, show Ring.getD (i + 1) 0 = Ring[i + 1] by simp [List.getD, hi2]]
      exact hp1.mul _
    rw [ringVerify_rep sha (s := ⟨_, rs.s, rs.e⟩) (S := ⟨_, rs.s, rs.e⟩) ⟨hR', rfl, rfl⟩, SigBytes.verify_bytes _ _ hred hlim]
    exact hsw

/-- C130: so every signature which `RingSign` makes, for a ring of keys in the subgroup, can be turned into one for a ring with any other key, without any private key. -/
theorem C130_made (msg : Str) (x : Scalar) (hx : leNat x.1 ≤ mulLimit) (ring : List LExtended) (hring : ∀ p ∈ ring, ∃ P, LRep p P ∧ primeOrder • P = 0)
    (rs : RingSig) (h : ringSign sha x msg ring = .ok rs) (i : Nat) (hi : i + 1 < ring.length) (q : LExtended) (Q : EdP) (hq : LRep q Q)
    (hz : ∀ p : LExtended, leNat (createHash sha (msg ++ pointStr p)).1 ≠ 0) :
    ∃ rs', swapMember sha rs msg i q = .ok rs' ∧ rs'.ring.length = ring.length ∧ rs'.ring[i]? = some q ∧
      (∀ j, j ≠ i → j ≠ i + 1 → rs'.ring[j]? = ring[j]?) ∧ rs'.verify sha msg = .ok true := by
  obtain ⟨Ring, hR⟩ := exists_points fun p hp => (hring p hp).imp fun _ h => h.1
  obtain ⟨RS, hRS, r2, s2, e2⟩ := ringSign_algebra sha hx hR h
  have hrr : rs.ring = ring := by
    unfold ringSign at h
    cases hs : signerIndex ring (publicKey x) with
    | none => rw [hs] at h; simp at h
    | some n =>
      rw [hs] at h
      simp only [Out.bind_ok] at h
      obtain ⟨a, _, h⟩ := Out.bind_eq_ok.1 h
      obtain ⟨b, _, h⟩ := Out.bind_eq_ok.1 h
      obtain ⟨d, _, h⟩ := Out.bind_eq_ok.1 h
      obtain ⟨f, _, h⟩ := Out.bind_eq_ok.1 h
      rw [← Out.ok.inj h]
  obtain ⟨_, hrr', _, hmade, _⟩ := Signature.C111_made (curveOf (edGroup sha)) (residue x) msg Ring RS hRS
  have hsl : rs.s.length = ring.length := by rw [s2, List.length_map, hmade.1, hrr', hR.length_eq]
  have hv : rs.verify sha msg = .ok true := by
    have hm : ∃ p ∈ ring, p.equal (publicKey x) = true := by
      by_contra hno
      push Not at hno
      have := (C128_ring sha msg x hx ring fun p hp => (hring p hp).imp fun _ h => h.1).2 fun p hp => by
        simpa using hno p hp
      rw [this] at h
      simp at h
    obtain ⟨rs', h1, h2, _⟩ := (C128_ring sha msg x hx ring fun p hp => (hring p hp).imp fun _ h => h.1).1 hm
    rw [h] at h1
    rw [Out.ok.inj h1]
    exact h2
  obtain ⟨rs', a, b, c, d, _, _, f⟩ := C130_swap sha rs msg i q Q hq (by rw [hrr, hsl]) (by rw [hrr]; exact hi) (by rw [hrr]; exact hring)
    (fun a ha => by
      rw [s2] at ha
      obtain ⟨z, _, rfl⟩ := List.mem_map.1 ha
      exact SigBytes.limit_ofResidue z) hv (fun e s _ _ => hz _)
  exact ⟨rs', a, by rw [b, hrr], c, by rw [← hrr]; exact d, f⟩

/-! The ring of the keys 1 and 2, the signer has the second one. -/

/-- The private key 2. -/
def two : Scalar := ⟨leBytes 32 2, length_leBytes _ _⟩

theorem leNat_two : leNat two.1 = 2 := by unfold two; rw [leNat_leBytes]; decide +kernel

theorem two_le : leNat two.1 ≤ mulLimit := by rw [leNat_two]; decide +kernel

theorem ring_two : ∀ p ∈ [lbaseExt, publicKey two], ∃ P, LRep p P ∧ primeOrder • P = 0 := by
  intro p hp
  simp only [List.mem_cons, List.not_mem_nil, or_false] at hp
  rcases hp with rfl | rfl
  · exact ⟨_, lrep_base, basePoint_order⟩
  · refine ⟨_, (C127_operations lrep_base lrep_base).2.2.2.2.2.1 two two_le, ?_⟩
    rw [smul_comm, basePoint_order, smul_zero]

theorem ring_two_signs (sha : Str → Str) (msg : Str) : ∃ rs, ringSign sha two msg [lbaseExt, publicKey two] = .ok rs := by
  obtain ⟨rs, h, _⟩ := (C128_ring sha msg two two_le [lbaseExt, publicKey two] fun p hp => (ring_two p hp).imp fun _ h => h.1).1
    ⟨publicKey two, by simp, (lequal_iff (publicKey_rep sha two) (publicKey_rep sha two)).2 rfl⟩
  exact ⟨rs, h⟩

theorem five_ne (m : Str) : leNat (createHash (fun _ => [5]) m).1 ≠ 0 := by
  unfold createHash
  rw [SigBytes.setBytes_eq]
  show leNat [5] % primeOrder ≠ 0
  decide +kernel

theorem base_ne_two : lbaseExt.equal (publicKey two) = false := by
  unfold publicKey
  rw [Bool.eq_false_iff, Ne, lequal_iff lrep_base ((C127_operations lrep_base lrep_base).2.2.2.2.2.1 two two_le), leNat_two, two_nsmul]
  intro h
  exact basePoint_ne (by simpa using h.symm)

/-- `keyFromDecoy` recovers the private key 2. -/
example (rnd msg : Str) : ∃ rs sig k, ringSign (fun _ => [5]) two msg [lbaseExt, publicKey two] = .ok rs ∧
    sign (fun _ => [5]) rnd two (msg ++ itoaNat 0) = .ok sig ∧ keyFromDecoy (fun _ => [5]) rs sig msg 0 = .ok k ∧ leNat k.1 = 2 := by
  obtain ⟨rs, h⟩ := ring_two_signs (fun _ => [5]) msg
  obtain ⟨sig, h2, _⟩ := C128_sign (fun _ => [5]) rnd (msg ++ itoaNat 0) two two_le (five_ne _) (five_ne _)
  obtain ⟨k, h3, h4⟩ := C129_decoy (fun _ => [5]) rnd msg two two_le [lbaseExt, publicKey two] (fun p hp => (ring_two p hp).imp fun _ h => h.1) sig rs 0
    lbaseExt rfl base_ne_two h h2 (five_ne _)
  refine ⟨rs, sig, k, h, h2, h3, ?_⟩
  rw [h4, leNat_two]
  decide +kernel

/-- The signature of a ring becomes one of a ring whose first member is the neutral point. -/
example (msg : Str) : ∃ rs rs', ringSign (fun _ => [5]) two msg [lbaseExt, publicKey two] = .ok rs ∧
    swapMember (fun _ => [5]) rs msg 0 LExtended.zero = .ok rs' ∧ rs'.ring[0]? = some LExtended.zero ∧ rs'.verify (fun _ => [5]) msg = .ok true := by
  obtain ⟨rs, h⟩ := ring_two_signs (fun _ => [5]) msg
  obtain ⟨rs', a, _, b, _, d⟩ := C130_made (fun _ => [5]) msg two two_le [lbaseExt, publicKey two] ring_two rs h 0 (by simp) LExtended.zero 0 LRep.zero
    (fun _ => five_ne _)
  exact ⟨rs, rs', h, a, b, d⟩

theorem rep_unique {e : LExtended} {P Q : EdP} (h : LRep e P) (k : LRep e Q) : P = Q := (lequal_iff h k).1 ((lequal_iff h h).2 rfl)

theorem second_of_two {a b : EdP} (h : a ≠ b) {j : Nat} (hj : [a, b][j]? = some b) : j = 1 := by
  match j, hj with
  | 0, hj => exact absurd (Option.some.inj hj) h
  | 1, _ => rfl
  | n + 2, hj => simp at hj

theorem first_of_two {l : List LExtended} {a b : EdP} (h : List.Forall₂ LRep l [a, b]) : ∃ p q, l = [p, q] ∧ LRep p a := by
  cases h with
  | cons h1 t =>
    cases t with
    | cons h2 u =>
      cases u
      exact ⟨_, _, rfl, h1⟩

/-- A hash with the nonce 3, for which the two challenges differ. -/
def toySha (msg : Str) : Str → Str := fun m =>
  if m = msg ++ SigBytes.scalarStr two then [3] else if m = msg ++ pointStr (LExtended.mul (leBytes 32 3) lbaseExt) then [7] else [5]

theorem toySha_value (msg m : Str) : leNat (createHash (toySha msg) m).1 = leNat (toySha msg m) := by
  unfold createHash
  rw [SigBytes.setBytes_eq]
  unfold toySha
  split_ifs <;> decide +kernel

theorem leNat_3 : leNat [3] = 3 := by decide +kernel
theorem leNat_5 : leNat [5] = 5 := by decide +kernel
theorem leNat_7 : leNat [7] = 7 := by decide +kernel

theorem toySha_nonce (msg : Str) : leNat (createHash (toySha msg) ((msg ++ itoaNat 0) ++ SigBytes.scalarStr two)).1 = 5 := by
  have hlenS : (SigBytes.scalarStr two).length = 64 := by
    unfold SigBytes.scalarStr; rw [Signature.hexEncode_length, SigBytes.marshal_eq, (SigBytes.ofResidue _).2]
  have hlenP : (pointStr (LExtended.mul (leBytes 32 3) lbaseExt)).length = 64 := by
    rw [pointStr_rep (fun _ => []) (lrep_base.mul _)]
    exact Signature.pointStr_length (curveOf (edGroup fun _ => [])) _
  have hl0 : (itoaNat 0).length = 1 := by decide +kernel
  rw [toySha_value, toySha, if_neg, if_neg, leNat_5]
  · intro h
    have := congrArg List.length h
    simp only [List.length_append] at this
    omega
  · intro h
    have := congrArg List.length h
    simp only [List.length_append] at this
    omega

theorem five_plus {n : Nat} (hn : n = 3 ∨ n = 7) : (5 + n) • basePoint ≠ 3 • basePoint := by
  intro h
  have h0 : (2 + n) • basePoint = 0 := by
    have : (5 + n) • basePoint = (2 + n) • basePoint + 3 • basePoint := by rw [← add_smul]; congr 1; omega
    rw [this] at h
    simpa using h
  have := (SigEd.C123_base.2.2.2.2 _).1 h0
  rcases hn with h | h <;> rw [h] at this <;> exact absurd this (by decide +kernel)

theorem pointStr_ne {A B : LExtended} {P Q : EdP} (hA : LRep A P) (hB : LRep B Q) (h : P ≠ Q) : pointStr A ≠ pointStr B := by
  rw [pointStr_rep (fun _ => []) hA, pointStr_rep (fun _ => []) hB]
  intro hh
  have h1 := SigBytes.fromStringToPoint_str (edGroup (fun _ => [])) P
  rw [hh, SigBytes.fromStringToPoint_str] at h1
  exact h (Out.ok.inj h1).symm

theorem toySha_ne (msg : Str) {A : LExtended} (h : pointStr A ≠ pointStr (LExtended.mul (leBytes 32 3) lbaseExt)) :
    createHash (toySha msg) (msg ++ pointStr A) ≠ createHash (toySha msg) (msg ++ pointStr (LExtended.mul (leBytes 32 3) lbaseExt)) := by
  intro hh
  have hh := congrArg (fun a : Scalar => leNat a.1) hh
  simp only [toySha_value] at hh
  unfold toySha at hh
  have h1 : ¬ msg ++ pointStr A = msg ++ pointStr (LExtended.mul (leBytes 32 3) lbaseExt) := fun h' => h (List.append_cancel_left h')
  rw [if_neg h1, if_pos rfl] at hh
  by_cases ha : msg ++ pointStr A = msg ++ SigBytes.scalarStr two
  · by_cases hb : msg ++ pointStr (LExtended.mul (leBytes 32 3) lbaseExt) = msg ++ SigBytes.scalarStr two
    · exact h1 (ha.trans hb.symm)
    · rw [if_pos ha, if_neg hb, leNat_3, leNat_7] at hh; omega
  · rw [if_neg ha, leNat_5] at hh
    split_ifs at hh
    · rw [leNat_3] at hh; omega
    · rw [leNat_7] at hh; omega

theorem verifyLoop_one (sha : Str → Str) {msg : Str} {s : List Scalar} {s0 : Scalar} (h : s[0]? = some s0) {p e} :
    verifyLoop sha msg s 0 [p] e = .ok (createHash sha (msg ++ pointStr ((LExtended.mul s0.1 lbaseExt).add (LExtended.mul e.1 p)))) := by
  unfold verifyLoop index
  rw [h]
  rfl

theorem sign_r (sha : Str → Str) {rnd msg : Str} {x : Scalar} {sig : Sig} (h : sign sha rnd x msg = .ok sig) :
    sig.r = LExtended.mul (genK sha x msg).1 lbaseExt := by
  unfold sign createSignature at h
  dsimp only at h
  split at h
  · rw [← Out.ok.inj h]
  · exact absurd h (by simp)

/-- `keyFromBoth` recovers the private key 2. -/
example (rnd msg : Str) : ∃ rs sig k, ringSign (toySha msg) two msg [lbaseExt, publicKey two] = .ok rs ∧
    sign (toySha msg) rnd two msg = .ok sig ∧ keyFromBoth (toySha msg) sig rs msg 1 = .ok k ∧ leNat k.1 = 2 := by
  have hval := toySha_value msg
  have hpos : ∀ m, leNat (createHash (toySha msg) m).1 ≠ 0 := by
    intro m
    rw [hval]
    unfold toySha
    split_ifs <;> decide +kernel
  have hk : genK (toySha msg) two msg = ⟨leBytes 32 3, length_leBytes _ _⟩ := by
    apply SigBytes.scalar_ext
    unfold genK
    rw [hval, toySha, if_pos rfl, leNat_leBytes]
    decide +kernel
  have h3 : LRep (LExtended.mul (leBytes 32 3) lbaseExt) (3 • basePoint) := by
    have := (C127_operations lrep_base lrep_base).2.2.2.2.2.1 ⟨leBytes 32 3, length_leBytes _ _⟩ (by rw [leNat_leBytes]; decide +kernel)
    rwa [show leNat (leBytes 32 3) = 3 by rw [leNat_leBytes]; decide +kernel] at this
  obtain ⟨rs, hrs⟩ := ring_two_signs (toySha msg) msg
  obtain ⟨sig, hsig, _⟩ := C128_sign (toySha msg) rnd msg two two_le (hpos _) (hpos _)
  have hpts : ∀ p ∈ [lbaseExt, publicKey two], ∃ P, LRep p P := fun p hp => (ring_two p hp).imp fun _ h => h.1
  obtain ⟨i, p, hi, hpe, e, he, hkey⟩ := C129_both (toySha msg) rnd msg two two_le [lbaseExt, publicKey two] hpts sig rs hsig hrs
  have hi1 : i = 1 := by
    match i, hi with
    | 0, hi => rw [← Option.some.inj hi, base_ne_two] at hpe; simp at hpe
    | 1, _ => rfl
    | n + 2, hi => simp at hi
  subst hi1
  have hpk : LRep (publicKey two) (2 • basePoint) := by
    have := (C127_operations lrep_base lrep_base).2.2.2.2.2.1 two two_le
    rwa [leNat_two] at this
  have hR : List.Forall₂ LRep [lbaseExt, publicKey two] [basePoint, 2 • basePoint] := .cons lrep_base (.cons hpk .nil)
  obtain ⟨RS, hRS, r2, s2, e2⟩ := ringSign_algebra (toySha msg) two_le hR hrs
  obtain ⟨S, hS, r1, s1⟩ := sign_algebra (toySha msg) hsig
  have hpkA : Signature.publicKey (curveOf (edGroup (toySha msg))) (residue two) = 2 • basePoint := by
    rw [← SigBytes.publicKey_eq (edGroup (toySha msg)) two two_le]
    exact rep_unique (publicKey_rep (toySha msg) two) hpk
  have hb2 : basePoint ≠ 2 • basePoint := by
    rw [two_nsmul]
    intro h
    exact basePoint_ne (by simpa using h.symm)
  obtain ⟨j, hrr, _, ⟨hlen, hj, ch, ch0, _, _, ee⟩, hresp⟩ := Signature.C111_made (curveOf (edGroup (toySha msg))) (residue two) msg _ RS hRS
  rw [hpkA, hrr] at hj
  have hj1 : j = 1 := second_of_two hb2 hj
  subst hj1
  have hs0 := hresp 0 (by simp) (by omega)
  rw [hrr] at ch0
  have ch0 : ch 0 = _ := ch0
  rw [← ee] at ch0
  have hkk : Signature.genK (curveOf (edGroup (toySha msg))) (residue two) msg = residue ⟨leBytes 32 3, length_leBytes _ _⟩ := by
    rw [← hk]
    have := SigBytes.genK_eq (edGroup (toySha msg)) two msg
    rw [show genK (toySha msg) two msg = SigBytes.genK (edGroup (toySha msg)) two msg from rfl, this, SigBytes.residue_ofResidue]
  have hs0' : rs.s[0]? = some (createHash (toySha msg) ((msg ++ itoaNat 0) ++ SigBytes.scalarStr two)) := by
    rw [s2, List.getElem?_map, hs0]
    have := SigBytes.genK_eq (edGroup (toySha msg)) two (msg ++ itoaNat 0)
    rw [Option.map_some, ← this]
    rfl
  have hGk : LRep (LExtended.mul (leBytes 32 3) lbaseExt) (Signature.smul (Signature.genK (curveOf (edGroup (toySha msg))) (residue two) msg)
      (curveOf (edGroup (toySha msg))).G) := by
    rw [hkk]
    have := SigBytes.publicKey_eq (edGroup (toySha msg)) ⟨leBytes 32 3, length_leBytes _ _⟩ (by rw [leNat_leBytes]; decide +kernel)
    show LRep _ (Signature.publicKey (curveOf (edGroup (toySha msg))) (residue ⟨leBytes 32 3, length_leBytes _ _⟩))
    rw [← this]
    exact publicKey_rep (toySha msg) ⟨leBytes 32 3, length_leBytes _ _⟩
  have he0 : rs.e = createHash (toySha msg) (msg ++ pointStr (LExtended.mul (leBytes 32 3) lbaseExt)) := by
    rw [e2, ch0]
    exact (hash_algebra (toySha msg) hGk msg).symm
  have hv0 := toySha_nonce msg
  have hve : leNat rs.e.1 = 3 ∨ leNat rs.e.1 = 7 := by
    rw [he0, hval, toySha, if_pos rfl]
    split_ifs
    · left; exact leNat_3
    · right; exact leNat_7
  rw [hrr] at r2
  obtain ⟨p0, p1, hp01, hp0⟩ := first_of_two r2
  have hA : LRep ((LExtended.mul (createHash (toySha msg) ((msg ++ itoaNat 0) ++ SigBytes.scalarStr two)).1 lbaseExt).add (LExtended.mul rs.e.1 p0))
      ((5 + leNat rs.e.1) • basePoint) := by
    have h1 := (C127_operations lrep_base lrep_base).2.2.2.2.2.1 (createHash (toySha msg) ((msg ++ itoaNat 0) ++ SigBytes.scalarStr two))
      (by rw [hv0]; decide +kernel)
    have h2 := (C127_operations hp0 hp0).2.2.2.2.2.1 rs.e (by rcases hve with h | h <;> rw [h] <;> decide +kernel)
    rw [hv0] at h1
    rw [add_smul]
    exact h1.add h2
  have hce : challengeAt (toySha msg) rs msg 1 = .ok (createHash (toySha msg) (msg ++ pointStr
      ((LExtended.mul (createHash (toySha msg) ((msg ++ itoaNat 0) ++ SigBytes.scalarStr two)).1 lbaseExt).add (LExtended.mul rs.e.1 p0)))) := by
    unfold challengeAt
    rw [hp01]
    exact verifyLoop_one (toySha msg) hs0'
  have hsr : pointStr sig.r = pointStr (LExtended.mul (leBytes 32 3) lbaseExt) := by
    have : sig.r = LExtended.mul (genK (toySha msg) two msg).1 lbaseExt := sign_r (toySha msg) hsig
    rw [this, hk]
  obtain ⟨k, hk1, hk2⟩ := hkey (by
    rw [hce] at he
    rw [← Out.ok.inj he]
    unfold sigChallenge
    rw [hsr]
    exact toySha_ne msg (pointStr_ne hA h3 (five_plus hve)))
  refine ⟨rs, sig, k, hrs, hsig, hk1, ?_⟩
  rw [hk2, leNat_two]
  decide +kernel

end Verif.SigLimb
