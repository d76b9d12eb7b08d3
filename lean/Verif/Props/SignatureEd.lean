import Verif.Props.Edwards

/-!
# C125: keys, signatures and ring signatures on the curve of the library

Everything is concrete but SHA-256: the scalars are 32 bytes, the points are coordinates, the texts are bytes. `edGroup sha` is the group of the curve,
with the base point and the texts, as the group which C117 to C119 are about.
-/

namespace Verif.SigEd
open Verif Verif.Kyber

attribute [local irreducible] primeOrder leBytes SigBytes.ofResidue SigBytes.residue

variable (sha : Str → Str)

/-- C125: every function of the package, in coordinates, gives what it gives in the group of the curve: the same errors, the same booleans, the same
texts, and coordinates of the same points. So C117, C118 and C119 hold of the code with the real curve. -/
theorem C125_refines (rnd msg text : Str) (x : Scalar) {sig : Sig} {S : SigBytes.Sig EdP} (hs : RepSig sig S) {rs : RingSig} {RS : SigBytes.RingSig EdP}
    (hr : RepRing rs RS) {ring : List Extended} {Ring : List EdP} (hring : List.Forall₂ Rep ring Ring) :
    Rep (publicKey x) (SigBytes.publicKey (edGroup sha) x) ∧
    OutRel RepSig (sign sha rnd x msg) (SigBytes.sign (edGroup sha) rnd x msg) ∧
    Rep (sig.publicKey sha msg) (S.publicKey (edGroup sha) msg) ∧
    sig.verify sha rnd = S.verify (edGroup sha) rnd ∧
    sig.toStr = S.toStr (edGroup sha) ∧
    OutRel RepSig (toSignature sha rnd text) (SigBytes.toSignature (edGroup sha) rnd text) ∧
    OutRel RepRing (ringSign sha x msg ring) (SigBytes.ringSign (edGroup sha) x msg Ring) ∧
    rs.verify sha msg = RS.verify (edGroup sha) msg ∧
    rs.toStr = RS.toStr (edGroup sha) ∧
    OutRel RepRing (toRingSignature text) (SigBytes.toRingSignature (edGroup sha) text) :=
  ⟨publicKey_rep sha x, sign_rep sha rnd x msg, sigPublicKey_rep sha hs msg, verify_rep sha hs rnd, sigStr_rep sha hs, toSignature_rep sha rnd text,
    ringSign_rep sha x msg hring, ringVerify_rep sha hr msg, ringStr_rep sha hr, toRingSignature_rep sha text⟩

theorem OutRel.of_ok {α β : Type} {R : α → β → Prop} {x : Out α} {b : β} (h : OutRel R x (.ok b)) : ∃ a, x = .ok a ∧ R a b := by
  cases h with
  | ok h => exact ⟨_, rfl, h⟩

theorem OutRel.of_err {α β : Type} {R : α → β → Prop} {x : Out α} (h : OutRel R x (.err : Out β)) : x = .err := by
  cases h; rfl

/-- C125: a private key below the limit signs every message; the signature tells the public key, and its text is read back as a signature of
the same point, the same response and the same text. The two challenges must not be zero modulo the order. -/
theorem C125_sign (rnd msg : Str) (x : Scalar) (hx : leNat x.1 ≤ mulLimit)
    (hrnd : leNat (createHash sha (rnd ++ pointStr (Extended.mul (genK sha x msg).1 baseExt))).1 ≠ 0)
    (hmsg : leNat (createHash sha (msg ++ pointStr (Extended.mul (genK sha x msg).1 baseExt))).1 ≠ 0) :
    ∃ sig, sign sha rnd x msg = .ok sig ∧ (sig.publicKey sha msg).equal (publicKey x) = true ∧
      ∃ sig', toSignature sha rnd sig.toStr = .ok sig' ∧ sig'.r.equal sig.r = true ∧ sig'.s = sig.s ∧ sig'.toStr = sig.toStr := by
  have h : Rep (Extended.mul (genK sha x msg).1 baseExt) (pointMul (genK sha x msg).1 basePoint) := rep_base.mul _
  rw [pointStr_rep sha h] at hrnd hmsg
  obtain ⟨S, h1, h2, _, h4⟩ := SigBytes.C118_sign (edGroup sha) rnd msg x hx hrnd hmsg
  have hs := sign_rep sha rnd x msg
  rw [h1] at hs
  obtain ⟨sig, e1, r1⟩ := hs.of_ok
  have ht := toSignature_rep sha rnd sig.toStr
  rw [sigStr_rep sha r1, h4] at ht
  obtain ⟨sig', e2, r2⟩ := ht.of_ok
  refine ⟨sig, e1, (equal_iff (sigPublicKey_rep sha r1 msg) (publicKey_rep sha x)).2 h2, sig', ?_, (equal_iff r2.1 r1.1).2 rfl, r2.2.trans r1.2.symm, ?_⟩
  · rw [sigStr_rep sha r1]; exact e2
  · rw [sigStr_rep sha r1, sigStr_rep sha r2]

/-- C125: a private key above the limit signs as well, but the public key which its signatures tell is not its public key. -/
theorem C125_large_key (rnd msg : Str) (x : Scalar) (hx : mulLimit < leNat x.1)
    (hrnd : leNat (createHash sha (rnd ++ pointStr (Extended.mul (genK sha x msg).1 baseExt))).1 ≠ 0)
    (hmsg : leNat (createHash sha (msg ++ pointStr (Extended.mul (genK sha x msg).1 baseExt))).1 ≠ 0) :
    ∃ sig, sign sha rnd x msg = .ok sig ∧ (sig.publicKey sha msg).equal (publicKey x) = false := by
  have h : Rep (Extended.mul (genK sha x msg).1 baseExt) (pointMul (genK sha x msg).1 basePoint) := rep_base.mul _
  rw [pointStr_rep sha h] at hrnd hmsg
  obtain ⟨S, h1, _, _, h4⟩ := SigBytes.C117_large_key (edGroup sha) basePoint_ne rnd msg x hx hrnd hmsg
  have hs := sign_rep sha rnd x msg
  rw [h1] at hs
  obtain ⟨sig, e1, r1⟩ := hs.of_ok
  refine ⟨sig, e1, ?_⟩
  rw [Bool.eq_false_iff, Ne, equal_iff (sigPublicKey_rep sha r1 msg) (publicKey_rep sha x)]
  exact h4

theorem exists_points {ring : List Extended} (h : ∀ p ∈ ring, ∃ P, Rep p P) : ∃ Ring : List EdP, List.Forall₂ Rep ring Ring := by
  induction ring with
  | nil => exact ⟨[], .nil⟩
  | cons p ring ih =>
    obtain ⟨P, hP⟩ := h p (by simp)
    obtain ⟨Ring, hR⟩ := ih fun q hq => h q (by simp [hq])
    exact ⟨P :: Ring, .cons hP hR⟩

theorem mem_of_equal {ring : List Extended} {Ring : List EdP} (h : List.Forall₂ Rep ring Ring) {p : Extended} {P : EdP} (hp : Rep p P) :
    (∃ q ∈ ring, q.equal p = true) ↔ P ∈ Ring := by
  induction h with
  | nil => simp
  | cons hq _ ih =>
    rw [List.exists_mem_cons_iff, List.mem_cons, ih, equal_iff hq hp, eq_comm]

/-- C125: `RingSign` of a private key below the limit, for a ring of points of the curve: if the public key is in the ring, a signature which verifies,
whose ring is the given one, and whose text is read back as a signature which verifies and has the same text; an error if it is not. -/
theorem C125_ring (msg : Str) (x : Scalar) (hx : leNat x.1 ≤ mulLimit) (ring : List Extended) (hring : ∀ p ∈ ring, ∃ P, Rep p P) :
    ((∃ p ∈ ring, p.equal (publicKey x) = true) → ∃ rs, ringSign sha x msg ring = .ok rs ∧ rs.verify sha msg = .ok true ∧
      ∃ rs', toRingSignature rs.toStr = .ok rs' ∧ rs'.verify sha msg = .ok true ∧ rs'.toStr = rs.toStr) ∧
    ((∀ p ∈ ring, p.equal (publicKey x) = false) → ringSign sha x msg ring = .err) := by
  obtain ⟨Ring, hR⟩ := exists_points hring
  have hpk := publicKey_rep sha x
  have heq : SigBytes.publicKey (edGroup sha) x = leNat x.1 • (edGroup sha).G := SigBytes.C117_mul x (edGroup sha).G hx
  obtain ⟨hin, hout⟩ := SigBytes.C118_ring (edGroup sha) msg x hx Ring
  have hs := ringSign_rep sha x msg hR
  refine ⟨fun hm => ?_, fun hm => ?_⟩
  · obtain ⟨RS, h1, _, h3, h4⟩ := hin (heq ▸ (mem_of_equal hR hpk).1 hm)
    rw [h1] at hs
    obtain ⟨rs, e1, r1⟩ := hs.of_ok
    have ht := toRingSignature_rep sha rs.toStr
    rw [ringStr_rep sha r1, h4] at ht
    obtain ⟨rs', e2, r2⟩ := ht.of_ok
    refine ⟨rs, e1, by rw [ringVerify_rep sha r1]; exact h3, rs', ?_, by rw [ringVerify_rep sha r2]; exact h3, ?_⟩
    · rw [ringStr_rep sha r1]; exact e2
    · rw [ringStr_rep sha r1, ringStr_rep sha r2]
  · have hn : leNat x.1 • (edGroup sha).G ∉ Ring := by
      intro h
      obtain ⟨p, hp, he⟩ := (mem_of_equal hR hpk).2 (heq ▸ h)
      rw [hm p hp] at he
      exact absurd he (by simp)
    rw [hout hn] at hs
    exact hs.of_err

/-- Coordinates of the point of order two. -/
theorem rep_two : ∃ e, Rep e pointTwo := by
  obtain ⟨_, _, _, _, e, _, h, _⟩ := C124_outside
  exact ⟨e, h⟩

/-- C125: a signature whose point is `(0, -1)`, outside the subgroup, with response zero, verifies if and only if the challenge times its inverse is an odd number.
The challenge depends on the message which `Verify` draws at random. -/
theorem C125_outside (rnd : Str) (sig : Sig) (hr : Rep sig.r pointTwo) (hs : sig.s.1 = zero) :
    sig.verify sha rnd = true ↔
      (leNat (createHash sha (rnd ++ pointStr sig.r)).1 * leNat (SigBytes.oneDiv (createHash sha (rnd ++ pointStr sig.r))).1) % 2 = 1 := by
  generalize he : createHash sha (rnd ++ pointStr sig.r) = e
  have hred : ∀ a : Scalar, SigBytes.Reduced a → leNat a.1 ≤ mulLimit := fun a ha => by
    have := SigBytes.primeOrder_le_limit; unfold SigBytes.Reduced at ha; omega
  have hle : leNat e.1 ≤ mulLimit := by
    apply hred
    rw [← he]
    unfold SigBytes.Reduced createHash
    rw [SigBytes.setBytes_eq]
    exact Nat.mod_lt _ SigBytes.primeOrder_pos
  have hli := hred _ (SigBytes.reduced_oneDiv e)
  have hz : Rep (Extended.mul sig.s.1 baseExt) 0 := by
    have := rep_base.mul sig.s.1
    rw [pointMul_le sig.s.1 sig.s.2 (by rw [hs, leNat_zero]; exact Nat.zero_le _), hs, leNat_zero, zero_smul] at this
    rw [hs]
    exact this
  have hp : Rep (sig.publicKey sha rnd) (leNat (SigBytes.oneDiv e).1 • pointTwo) := by
    unfold Sig.publicKey
    dsimp only
    rw [he]
    have := (hr.sub hz).mul (SigBytes.oneDiv e).1
    rwa [sub_zero, pointMul_le _ (SigBytes.oneDiv e).2 hli] at this
  unfold Sig.verify
  dsimp only
  rw [he]
  have hm := hp.mul e.1
  rw [pointMul_le _ e.2 hle] at hm
  rw [equal_iff hz (hr.sub hm), smul_smul]
  obtain ⟨h0, h2, _⟩ := C124_outside
  generalize leNat e.1 * leNat (SigBytes.oneDiv e).1 = n
  have hn : n • pointTwo = (n % 2) • pointTwo := by
    conv_lhs => rw [← Nat.mod_add_div n 2, add_smul, mul_comm, mul_smul, h2, smul_zero, add_zero]
  rw [hn]
  rcases Nat.mod_two_eq_zero_or_one n with h | h <;> rw [h]
  · rw [zero_smul, sub_zero]
    simp [h0.symm]
  · rw [one_smul, sub_self]
    simp

/-- C125: so the same text can be accepted once and refused another time: whether it is a signature is a matter of chance. -/
theorem C125_chance : ∃ (sha : Str → Str) (text rnd rnd' : Str) (sig : Sig),
    toSignature sha rnd text = .ok sig ∧ toSignature sha rnd' text = .err := by
  obtain ⟨e, he⟩ := rep_two
  let sh : Str → Str := fun m => if m.head? = some 49 then [1] else [2]
  let z : Scalar := ⟨zero, rfl⟩
  let sig : Sig := ⟨e, z⟩
  have hz : SigBytes.ofResidue (SigBytes.residue z) = z := by
    refine ((SigBytes.reduced_iff z).1 ?_).symm
    unfold SigBytes.Reduced
    show leNat zero < primeOrder
    rw [leNat_zero]
    exact SigBytes.primeOrder_pos
  have key : ∀ rnd : Str, OutRel RepSig (toSignature sh rnd sig.toStr) (if sig.verify sh rnd then .ok ⟨pointTwo, z⟩ else .err) := by
    intro rnd
    have hrep : RepSig sig ⟨pointTwo, z⟩ := ⟨he, rfl⟩
    have h := toSignature_rep sh rnd sig.toStr
    rw [sigStr_rep sh hrep, SigBytes.toSignature_str] at h
    simp only [hz] at h
    unfold SigBytes.createSignature at h
    simp only [← verify_rep sh hrep] at h
    rw [sigStr_rep sh hrep]
    exact h
  have hash : ∀ m : Str, leNat (createHash sh m).1 = if m.head? = some 49 then 1 else 2 := by
    intro m
    unfold createHash
    rw [SigBytes.setBytes_eq]
    show leNat (if m.head? = some 49 then [1] else [2]) % primeOrder = _
    split <;> decide +kernel
  have h1 : sig.verify sh [49] = true := by
    rw [C125_outside sh [49] sig he rfl]
    have hh := hash ([49] ++ pointStr sig.r)
    rw [if_pos (by simp)] at hh
    generalize createHash sh ([49] ++ pointStr sig.r) = c at hh
    rw [hh, one_mul]
    have hr : (SigBytes.residue (SigBytes.oneDiv c)).val = 1 := by
      have hc : SigBytes.residue c = 1 := by unfold SigBytes.residue; rw [hh, Nat.cast_one]
      rw [SigBytes.residue_oneDiv, hc, div_one]
      have : ((1 : Nat) : ZMod primeOrder).val = 1 % primeOrder := ZMod.val_natCast _ _
      rw [Nat.cast_one] at this
      rw [this]; decide +kernel
    rw [SigBytes.residue_val, Nat.mod_eq_of_lt (SigBytes.reduced_oneDiv c)] at hr
    rw [hr]
  have h2 : sig.verify sh [50] = false := by
    rw [Bool.eq_false_iff, Ne, C125_outside sh [50] sig he rfl]
    have hh := hash ([50] ++ pointStr sig.r)
    rw [if_neg (by simp)] at hh
    rw [hh]
    omega
  have k1 := key [49]
  have k2 := key [50]
  rw [h1] at k1
  rw [h2] at k2
  obtain ⟨sig', e1, _⟩ := k1.of_ok
  exact ⟨sh, sig.toStr, [49], [50], sig', e1, k2.of_err⟩

/-- A ring of two keys, one of them that of the signer. -/
example (msg : Str) : ∃ rs, ringSign sha ⟨leBytes 32 2, length_leBytes _ _⟩ msg [baseExt, baseExt.add baseExt] = .ok rs ∧ rs.verify sha msg = .ok true := by
  have h2 : leNat (leBytes 32 2) = 2 := by rw [leNat_leBytes]; decide +kernel
  have hm : leNat (leBytes 32 2) ≤ mulLimit := by rw [h2]; decide +kernel
  obtain ⟨rs, h, hv, _⟩ := (C125_ring sha msg ⟨leBytes 32 2, length_leBytes _ _⟩ hm [baseExt, baseExt.add baseExt] (by
    intro p hp
    simp only [List.mem_cons, List.not_mem_nil, or_false] at hp
    rcases hp with rfl | rfl
    · exact ⟨_, rep_base⟩
    · exact ⟨_, rep_base.add rep_base⟩)).1 ⟨baseExt.add baseExt, by simp, by
      have := (C122_operations rep_base rep_base).2.2.2.2 ⟨leBytes 32 2, length_leBytes _ _⟩ hm
      rw [h2, two_nsmul] at this
      exact (equal_iff (rep_base.add rep_base) this).2 rfl⟩
  exact ⟨rs, h, hv⟩

/-- A hash whose challenges are never zero. -/
example (rnd msg : Str) : ∃ sig, sign (fun _ => [5]) rnd ⟨leBytes 32 2, length_leBytes _ _⟩ msg = .ok sig := by
  have h2 : leNat (leBytes 32 2) = 2 := by rw [leNat_leBytes]; decide +kernel
  have hc : ∀ m, leNat (createHash (fun _ => [5]) m).1 ≠ 0 := by
    intro m
    unfold createHash
    rw [SigBytes.setBytes_eq]
    show leNat [5] % primeOrder ≠ 0
    decide +kernel
  obtain ⟨sig, h, _⟩ := C125_sign (fun _ => [5]) rnd msg ⟨leBytes 32 2, length_leBytes _ _⟩ (by rw [h2]; decide +kernel) (hc _) (hc _)
  exact ⟨sig, h⟩

end Verif.SigEd
