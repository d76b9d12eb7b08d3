import Verif.Spec.SignatureLimbs
import Verif.Lemmas.SignatureBytes

/-! # The signatures in limbs against the group of the curve -/

namespace Verif.SigLimb
open Verif Verif.Kyber
open Verif.SigEd (OutRel mapOut_rep edGroup decodePoint decodePoint_iff decodePoint_spec)

variable (sha : Str → Str)

theorem pointStr_rep {e : LExtended} {P : EdP} (h : LRep e P) : pointStr e = SigBytes.pointStr (edGroup sha) P := by
  unfold pointStr SigBytes.pointStr
  rw [h.toBytes]; rfl

theorem toPublicKey_rep (s : Str) : OutRel LRep (toPublicKey s) (SigBytes.fromStringToPoint (edGroup sha) s) := by
  unfold toPublicKey SigBytes.fromStringToPoint
  refine OutRel.bind (OutRel.refl _) ?_
  rintro d _ rfl
  show OutRel LRep _ (decodePoint d)
  rcases lfromBytes_spec d with ⟨e, P, h1, h2, h3⟩ | ⟨h1, h2⟩
  · rw [h1, (decodePoint_iff d P).2 h2]; exact .ok h3
  · rcases decodePoint_spec d with ⟨Q, _, h4⟩ | ⟨h3, _⟩
    · exact absurd h4 (h2 Q)
    · rw [h1, h3]; exact .err

theorem publicKey_rep (x : Scalar) : LRep (publicKey x) (SigBytes.publicKey (edGroup sha) x) := lrep_base.mul _

theorem sigPublicKey_rep {s : Sig} {S : SigBytes.Sig EdP} (h : RepSig s S) (msg : Str) :
    LRep (s.publicKey sha msg) (S.publicKey (edGroup sha) msg) := by
  obtain ⟨h1, h2⟩ := h
  unfold Sig.publicKey SigBytes.Sig.publicKey
  dsimp only
  rw [pointStr_rep sha h1, h2]
  exact (h1.sub (lrep_base.mul _)).mul _

theorem verify_rep {s : Sig} {S : SigBytes.Sig EdP} (h : RepSig s S) (rnd : Str) : s.verify sha rnd = S.verify (edGroup sha) rnd := by
  have h0 := sigPublicKey_rep sha h rnd
  obtain ⟨h1, h2⟩ := h
  unfold Sig.verify SigBytes.Sig.verify
  dsimp only
  rw [pointStr_rep sha h1, h2, Bool.eq_iff_iff, decide_eq_true_iff]
  exact lequal_iff (lrep_base.mul _) (h1.sub (h0.mul _))

theorem createSignature_rep (rnd : Str) {r : LExtended} {R : EdP} (h : LRep r R) (s : Scalar) :
    OutRel RepSig (createSignature sha rnd r s) (SigBytes.createSignature (edGroup sha) rnd R s) := by
  unfold createSignature SigBytes.createSignature
  dsimp only
  rw [verify_rep sha (S := ⟨R, s⟩) ⟨h, rfl⟩]
  split
  · exact .ok ⟨h, rfl⟩
  · exact .err

theorem sign_rep (rnd : Str) (x : Scalar) (msg : Str) : OutRel RepSig (sign sha rnd x msg) (SigBytes.sign (edGroup sha) rnd x msg) := by
  unfold sign SigBytes.sign
  dsimp only
  have h : LRep (LExtended.mul (genK sha x msg).1 lbaseExt) (pointMul (genK sha x msg).1 basePoint) := lrep_base.mul _
  rw [pointStr_rep sha h]
  exact createSignature_rep sha rnd h _

theorem sigStr_rep {s : Sig} {S : SigBytes.Sig EdP} (h : RepSig s S) : s.toStr = S.toStr (edGroup sha) := by
  unfold Sig.toStr SigBytes.Sig.toStr
  rw [pointStr_rep sha h.1, h.2]

theorem toSignature_rep (rnd s : Str) : OutRel RepSig (toSignature sha rnd s) (SigBytes.toSignature (edGroup sha) rnd s) := by
  unfold toSignature SigBytes.toSignature
  refine OutRel.bind (OutRel.refl _) ?_
  rintro d _ rfl
  generalize Codec.split Signature.delimiter d = l
  match l with
  | [a, b] =>
    refine OutRel.bind (toPublicKey_rep sha _) fun p P hp => ?_
    refine OutRel.bind (OutRel.refl _) ?_
    rintro c _ rfl
    exact createSignature_rep sha rnd hp c
  | [] => exact .err
  | [_] => exact .err
  | _ :: _ :: _ :: _ => exact .err

theorem signerIndex_rep {ring : List LExtended} {Ring : List EdP} (h : List.Forall₂ LRep ring Ring) {p : LExtended} {P : EdP} (hp : LRep p P) :
    signerIndex ring p = Signature.signerIndex Ring P := by
  induction h with
  | nil => rfl
  | @cons a b _ _ h _ ih =>
    rw [signerIndex, Signature.signerIndex, ih]
    by_cases he : b = P
    · rw [if_pos ((lequal_iff h hp).2 he), if_pos he]
    · rw [if_neg (fun h' => he ((lequal_iff h hp).1 h')), if_neg he]

theorem index_rep {ring : List LExtended} {Ring : List EdP} (h : List.Forall₂ LRep ring Ring) (i : Nat) :
    OutRel LRep (index ring i) (index Ring i) := by
  unfold index
  induction h generalizing i with
  | nil => exact .panic
  | cons h _ ih =>
    cases i with
    | zero => exact .ok h
    | succ i => exact ih i

theorem ringLoop_rep (x : Scalar) (msg : Str) {ring : List LExtended} {Ring : List EdP} (h : List.Forall₂ LRep ring Ring) (signer fuel : Nat) :
    ∀ i es ss, ringLoop sha x msg ring signer fuel i es ss = SigBytes.ringLoop (edGroup sha) x msg Ring signer fuel i es ss := by
  induction fuel with
  | zero => intro i es ss; rfl
  | succ fuel ih =>
    intro i es ss
    rw [ringLoop, SigBytes.ringLoop]
    split
    · rfl
    · apply OutRel.eq
      refine OutRel.bind (OutRel.refl _) ?_
      rintro ei _ rfl
      refine OutRel.bind (index_rep h i) fun p P hp => ?_
      dsimp only
      rw [pointStr_rep sha ((lrep_base.mul _).add (hp.mul _)), h.length_eq, ih]
      exact OutRel.refl _

theorem ringSign_rep (x : Scalar) (msg : Str) {ring : List LExtended} {Ring : List EdP} (h : List.Forall₂ LRep ring Ring) :
    OutRel RepRing (ringSign sha x msg ring) (SigBytes.ringSign (edGroup sha) x msg Ring) := by
  unfold ringSign SigBytes.ringSign
  rw [signerIndex_rep h (publicKey_rep sha x)]
  generalize Signature.signerIndex Ring _ = o
  match o with
  | none => exact .err
  | some signer =>
    have h0 : LRep (LExtended.mul (genK sha x msg).1 lbaseExt) (pointMul (genK sha x msg).1 basePoint) := lrep_base.mul _
    dsimp only
    rw [pointStr_rep sha h0, h.length_eq, ringLoop_rep sha x msg h]
    refine OutRel.bind (R := Eq) (OutRel.refl _) ?_
    rintro ⟨es, ss⟩ _ rfl
    refine OutRel.bind (OutRel.refl _) ?_
    rintro ei _ rfl
    refine OutRel.bind (OutRel.refl _) ?_
    rintro l _ rfl
    refine OutRel.bind (OutRel.refl _) ?_
    rintro e _ rfl
    exact .ok ⟨h, rfl, rfl⟩

theorem verifyLoop_rep (msg : Str) (s : List Scalar) {ring : List LExtended} {Ring : List EdP} (h : List.Forall₂ LRep ring Ring) :
    ∀ i e, verifyLoop sha msg s i ring e = SigBytes.verifyLoop (edGroup sha) msg s i Ring e := by
  induction h with
  | nil => intro i e; rfl
  | cons hp _ ih =>
    intro i e
    rw [verifyLoop, SigBytes.verifyLoop]
    apply OutRel.eq
    refine OutRel.bind (OutRel.refl _) ?_
    rintro si _ rfl
    rw [pointStr_rep sha ((lrep_base.mul _).add (hp.mul _)), ih]
    exact OutRel.refl _

theorem ringVerify_rep {s : RingSig} {S : SigBytes.RingSig EdP} (h : RepRing s S) (msg : Str) :
    s.verify sha msg = S.verify (edGroup sha) msg := by
  unfold RingSig.verify SigBytes.RingSig.verify
  rw [verifyLoop_rep sha msg _ h.1, h.2.1, h.2.2]

theorem ringStr_rep {s : RingSig} {S : SigBytes.RingSig EdP} (h : RepRing s S) : s.toStr = S.toStr (edGroup sha) := by
  unfold RingSig.toStr SigBytes.RingSig.toStr
  have : s.ring.map pointStr = S.ring.map (SigBytes.pointStr (edGroup sha)) := by
    have h1 := h.1
    generalize s.ring = l at h1
    generalize S.ring = L at h1
    induction h1 with
    | nil => rfl
    | cons hp _ ih => rw [List.map_cons, List.map_cons, ih, pointStr_rep sha hp]
  rw [this, h.2.1, h.2.2]

theorem toRingSignature_rep (s : Str) : OutRel RepRing (toRingSignature s) (SigBytes.toRingSignature (edGroup sha) s) := by
  unfold toRingSignature SigBytes.toRingSignature
  refine OutRel.bind (OutRel.refl _) ?_
  rintro d _ rfl
  generalize Codec.split Signature.delimiter d = l
  match l with
  | [a, b, e] =>
    refine OutRel.bind (R := List.Forall₂ LRep) (mapOut_rep (toPublicKey_rep sha) _) fun ring Ring hr => ?_
    refine OutRel.bind (OutRel.refl _) ?_
    rintro ss _ rfl
    refine OutRel.bind (OutRel.refl _) ?_
    rintro e _ rfl
    exact .ok ⟨hr, rfl, rfl⟩
  | [] => exact .err
  | [_] => exact .err
  | [_, _] => exact .err
  | _ :: _ :: _ :: _ :: _ => exact .err

end Verif.SigLimb
