import Verif.Props.EdwardsLimbs
import Verif.Props.SignatureEd
import Verif.Lemmas.SignatureLimbs

/-!
# C128: keys, signatures and ring signatures in the machine words of the library

Everything is concrete but SHA-256: the scalars are 32 bytes, the points are forty `int32` limbs, the texts are bytes. `edGroup sha` is the group of the curve,
with the base point and the texts, as the group which C117 to C119 are about.
-/

namespace Verif.SigLimb
open Verif Verif.Kyber
open Verif.SigEd (OutRel edGroup)

attribute [local irreducible] primeOrder leBytes SigBytes.ofResidue SigBytes.residue

variable (sha : Str → Str)

/-- C128: every function of the package, in machine words, gives what it gives in the group of the curve: the same errors, the same booleans, the same
texts, and limbs of the same points. So C117, C118 and C119 hold of the code with the arithmetic it has. -/
theorem C128_refines (rnd msg text : Str) (x : Scalar) {sig : Sig} {S : SigBytes.Sig EdP} (hs : RepSig sig S) {rs : RingSig} {RS : SigBytes.RingSig EdP}
    (hr : RepRing rs RS) {ring : List LExtended} {Ring : List EdP} (hring : List.Forall₂ LRep ring Ring) :
    LRep (publicKey x) (SigBytes.publicKey (edGroup sha) x) ∧
    OutRel RepSig (sign sha rnd x msg) (SigBytes.sign (edGroup sha) rnd x msg) ∧
    LRep (sig.publicKey sha msg) (S.publicKey (edGroup sha) msg) ∧
    sig.verify sha rnd = S.verify (edGroup sha) rnd ∧
    sig.toStr = S.toStr (edGroup sha) ∧
    OutRel RepSig (toSignature sha rnd text) (SigBytes.toSignature (edGroup sha) rnd text) ∧
    OutRel RepRing (ringSign sha x msg ring) (SigBytes.ringSign (edGroup sha) x msg Ring) ∧
    rs.verify sha msg = RS.verify (edGroup sha) msg ∧
    rs.toStr = RS.toStr (edGroup sha) ∧
    OutRel RepRing (toRingSignature text) (SigBytes.toRingSignature (edGroup sha) text) :=
  ⟨publicKey_rep sha x, sign_rep sha rnd x msg, sigPublicKey_rep sha hs msg, verify_rep sha hs rnd, sigStr_rep sha hs, toSignature_rep sha rnd text,
    ringSign_rep sha x msg hring, ringVerify_rep sha hr msg, ringStr_rep sha hr, toRingSignature_rep sha text⟩

/-- C128: a private key below the limit signs every message; the signature tells the public key, and its text is read back as a signature of
the same point, the same response and the same text. The two challenges must not be zero modulo the order. -/
theorem C128_sign (rnd msg : Str) (x : Scalar) (hx : leNat x.1 ≤ mulLimit)
    (hrnd : leNat (createHash sha (rnd ++ pointStr (LExtended.mul (genK sha x msg).1 lbaseExt))).1 ≠ 0)
    (hmsg : leNat (createHash sha (msg ++ pointStr (LExtended.mul (genK sha x msg).1 lbaseExt))).1 ≠ 0) :
    ∃ sig, sign sha rnd x msg = .ok sig ∧ (sig.publicKey sha msg).equal (publicKey x) = true ∧
      ∃ sig', toSignature sha rnd sig.toStr = .ok sig' ∧ sig'.r.equal sig.r = true ∧ sig'.s = sig.s ∧ sig'.toStr = sig.toStr := by
  have h : LRep (LExtended.mul (genK sha x msg).1 lbaseExt) (pointMul (genK sha x msg).1 basePoint) := lrep_base.mul _
  rw [pointStr_rep sha h] at hrnd hmsg
  obtain ⟨S, h1, h2, _, h4⟩ := SigBytes.C118_sign (edGroup sha) rnd msg x hx hrnd hmsg
  have hs := sign_rep sha rnd x msg
  rw [h1] at hs
  obtain ⟨sig, e1, r1⟩ := hs.of_ok
  have ht := toSignature_rep sha rnd sig.toStr
  rw [sigStr_rep sha r1, h4] at ht
  obtain ⟨sig', e2, r2⟩ := ht.of_ok
  refine ⟨sig, e1, (lequal_iff (sigPublicKey_rep sha r1 msg) (publicKey_rep sha x)).2 h2, sig', ?_, (lequal_iff r2.1 r1.1).2 rfl, r2.2.trans r1.2.symm, ?_⟩
  · rw [sigStr_rep sha r1]; exact e2
  · rw [sigStr_rep sha r1, sigStr_rep sha r2]

/-- C128: a private key above the limit signs as well, but the public key which its signatures tell is not its public key. -/
theorem C128_large_key (rnd msg : Str) (x : Scalar) (hx : mulLimit < leNat x.1)
    (hrnd : leNat (createHash sha (rnd ++ pointStr (LExtended.mul (genK sha x msg).1 lbaseExt))).1 ≠ 0)
    (hmsg : leNat (createHash sha (msg ++ pointStr (LExtended.mul (genK sha x msg).1 lbaseExt))).1 ≠ 0) :
    ∃ sig, sign sha rnd x msg = .ok sig ∧ (sig.publicKey sha msg).equal (publicKey x) = false := by
  have h : LRep (LExtended.mul (genK sha x msg).1 lbaseExt) (pointMul (genK sha x msg).1 basePoint) := lrep_base.mul _
  rw [pointStr_rep sha h] at hrnd hmsg
  obtain ⟨S, h1, _, _, h4⟩ := SigBytes.C117_large_key (edGroup sha) basePoint_ne rnd msg x hx hrnd hmsg
  have hs := sign_rep sha rnd x msg
  rw [h1] at hs
  obtain ⟨sig, e1, r1⟩ := hs.of_ok
  refine ⟨sig, e1, ?_⟩
  rw [Bool.eq_false_iff, Ne, lequal_iff (sigPublicKey_rep sha r1 msg) (publicKey_rep sha x)]
  exact h4

theorem exists_points {ring : List LExtended} (h : ∀ p ∈ ring, ∃ P, LRep p P) : ∃ Ring : List EdP, List.Forall₂ LRep ring Ring := by
  induction ring with
  | nil => exact ⟨[], .nil⟩
  | cons p ring ih =>
    obtain ⟨P, hP⟩ := h p (by simp)
    obtain ⟨Ring, hR⟩ := ih fun q hq => h q (by simp [hq])
    exact ⟨P :: Ring, .cons hP hR⟩

theorem mem_of_equal {ring : List LExtended} {Ring : List EdP} (h : List.Forall₂ LRep ring Ring) {p : LExtended} {P : EdP} (hp : LRep p P) :
    (∃ q ∈ ring, q.equal p = true) ↔ P ∈ Ring := by
  induction h with
  | nil => simp
  | cons hq _ ih =>
    rw [List.exists_mem_cons_iff, List.mem_cons, ih, lequal_iff hq hp, eq_comm]

/-- C128: `RingSign` of a private key below the limit, for a ring of points of the curve: if the public key is in the ring, a signature which verifies,
whose ring is the given one, and whose text is read back as a signature which verifies and has the same text; an error if it is not. -/
theorem C128_ring (msg : Str) (x : Scalar) (hx : leNat x.1 ≤ mulLimit) (ring : List LExtended) (hring : ∀ p ∈ ring, ∃ P, LRep p P) :
    ((∃ p ∈ ring, p.equal (publicKey x) = true) → ∃ rs, ringSign sha x msg ring = .ok rs ∧ rs.verify sha msg = .ok true ∧
      ∃ rs', toRingSignature rs.toStr = .ok rs' ∧ rs'.verify sha msg = .ok true ∧ rs'.toStr = rs.toStr) ∧
    ((∀ p ∈ ring, p.equal (publicKey x) = false) → ringSign sha x msg ring = .err) := by
  obtain ⟨Ring, hR⟩ := exists_points hring
  have hpk := publicKey_rep sha x
  have heq : SigBytes.publicKey (edGroup sha) x = leNat x.1 • (edGroup sha).G := SigBytes.C117_mul x (edGroup sha).G hx
  obtain ⟨hin, hout⟩ := SigBytes.C118_ring (edGroup sha) msg x hx Ring
  have hs := ringSign_rep sha x msg hR
  refine ⟨fun hm => ?_, fun hm => ?_⟩
  · obtain ⟨RS, h1, _, h3, h4⟩ := hin (heq ▸ (mem_of_equal hR hpk).1 hm)
    rw [h1] at hs
    obtain ⟨rs, e1, r1⟩ := hs.of_ok
    have ht := toRingSignature_rep sha rs.toStr
    rw [ringStr_rep sha r1, h4] at ht
    obtain ⟨rs', e2, r2⟩ := ht.of_ok
    refine ⟨rs, e1, by rw [ringVerify_rep sha r1]; exact h3, rs', ?_, by rw [ringVerify_rep sha r2]; exact h3, ?_⟩
    · rw [ringStr_rep sha r1]; exact e2
    · rw [ringStr_rep sha r1, ringStr_rep sha r2]
  · have hn : leNat x.1 • (edGroup sha).G ∉ Ring := by
      intro h
      obtain ⟨p, hp, he⟩ := (mem_of_equal hR hpk).2 (heq ▸ h)
      rw [hm p hp] at he
      exact absurd he (by simp)
    rw [hout hn] at hs
    exact hs.of_err

/-- A ring of two keys, one of them that of the signer. -/
example (msg : Str) : ∃ rs, ringSign sha ⟨leBytes 32 2, length_leBytes _ _⟩ msg [lbaseExt, lbaseExt.add lbaseExt] = .ok rs ∧ rs.verify sha msg = .ok true := by
  have h2 : leNat (leBytes 32 2) = 2 := by rw [leNat_leBytes]; decide +kernel
  have hm : leNat (leBytes 32 2) ≤ mulLimit := by rw [h2]; decide +kernel
  obtain ⟨rs, h, hv, _⟩ := (C128_ring sha msg ⟨leBytes 32 2, length_leBytes _ _⟩ hm [lbaseExt, lbaseExt.add lbaseExt] (by
    intro p hp
    simp only [List.mem_cons, List.not_mem_nil, or_false] at hp
    rcases hp with rfl | rfl
    · exact ⟨_, lrep_base⟩
    · exact ⟨_, lrep_base.add lrep_base⟩)).1 ⟨lbaseExt.add lbaseExt, by simp, by
      have := (C127_operations lrep_base lrep_base).2.2.2.2.2.1 ⟨leBytes 32 2, length_leBytes _ _⟩ hm
      rw [h2, two_nsmul] at this
      exact (lequal_iff (lrep_base.add lrep_base) this).2 rfl⟩
  exact ⟨rs, h, hv⟩

/-- A hash whose challenges are never zero. -/
example (rnd msg : Str) : ∃ sig, sign (fun _ => [5]) rnd ⟨leBytes 32 2, length_leBytes _ _⟩ msg = .ok sig := by
  have h2 : leNat (leBytes 32 2) = 2 := by rw [leNat_leBytes]; decide +kernel
  have hc : ∀ m, leNat (createHash (fun _ => [5]) m).1 ≠ 0 := by
    intro m
    unfold createHash
    rw [SigBytes.setBytes_eq]
    show leNat [5] % primeOrder ≠ 0
    decide +kernel
  obtain ⟨sig, h, _⟩ := C128_sign (fun _ => [5]) rnd msg ⟨leBytes 32 2, length_leBytes _ _⟩ (by rw [h2]; decide +kernel) (hc _) (hc _)
  exact ⟨sig, h⟩

end Verif.SigLimb
