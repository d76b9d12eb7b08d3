import Verif.Props.SignatureLimbs
import Verif.Props.RingMembers

/-! # From machine words to the algebra of the signatures -/

namespace Verif.SigLimb
open Verif Verif.Kyber
open Verif.SigEd (OutRel edGroup)
open Verif.SigBytes (ofResidue residue curveOf)

attribute [local irreducible] primeOrder leBytes SigBytes.ofResidue SigBytes.residue

variable (sha : Str → Str)

theorem OutRel.ok_left {α β : Type} {R : α → β → Prop} {a : α} {y : Out β} (h : OutRel R (.ok a) y) : ∃ b, y = .ok b ∧ R a b := by
  cases h with
  | ok h => exact ⟨_, rfl, h⟩

theorem map_eq_ok {α β : Type} {f : α → β} {x : Out α} {b : β} (h : f <$> x = .ok b) : ∃ a, x = .ok a ∧ f a = b := by
  cases x with
  | ok a => exact ⟨a, rfl, Out.ok.inj h⟩
  | err => exact absurd h (by simp)
  | panic => exact absurd h (by simp)

theorem sign_algebra {rnd msg : Str} {x : Scalar} {sig : Sig} (h : sign sha rnd x msg = .ok sig) :
    ∃ S, Signature.sign (curveOf (edGroup sha)) rnd (residue x) msg = .ok S ∧ LRep sig.r S.r ∧ sig.s = ofResidue S.s := by
  have h1 := sign_rep sha rnd x msg
  rw [h] at h1
  obtain ⟨T, h2, h3⟩ := OutRel.ok_left h1
  rw [SigBytes.sign_bytes] at h2
  obtain ⟨S, h4, rfl⟩ := map_eq_ok h2
  exact ⟨S, h4, h3⟩

theorem ringSign_algebra {msg : Str} {x : Scalar} (hx : leNat x.1 ≤ mulLimit) {ring : List LExtended} {Ring : List EdP} (hR : List.Forall₂ LRep ring Ring)
    {rs : RingSig} (h : ringSign sha x msg ring = .ok rs) :
    ∃ RS, Signature.ringSign (curveOf (edGroup sha)) (residue x) msg Ring = .ok RS ∧ List.Forall₂ LRep rs.ring RS.ring ∧
      rs.s = RS.s.map ofResidue ∧ rs.e = ofResidue RS.e := by
  have h1 := ringSign_rep sha x msg hR
  rw [h] at h1
  obtain ⟨T, h2, h3⟩ := OutRel.ok_left h1
  rw [SigBytes.ringSign_bytes _ _ hx] at h2
  obtain ⟨S, h4, rfl⟩ := map_eq_ok h2
  exact ⟨S, h4, h3⟩

theorem challenge_algebra {rs : RingSig} {RS : Signature.RingSig primeOrder EdP} (hring : List.Forall₂ LRep rs.ring RS.ring)
    (hs : rs.s.map residue = RS.s) (hlim : ∀ a ∈ rs.s, leNat a.1 ≤ mulLimit) (he : rs.e = ofResidue RS.e) (msg : Str) (i : Nat)
    (hi : i ≤ rs.ring.length) (hi' : i ≤ rs.s.length) :
    verifyLoop sha msg rs.s 0 (rs.ring.take i) rs.e = .ok (ofResidue (Signature.publicChallenge (curveOf (edGroup sha)) RS msg i)) := by
  rw [verifyLoop_rep sha msg rs.s (List.forall₂_take i hring), he, SigBytes.verifyLoop_bytes _ _ _ hlim, hs]
  have := Signature.verifyLoop_take (curveOf (edGroup sha)) msg RS.ring RS.s (Signature.publicChallenge (curveOf (edGroup sha)) RS msg) i
    (by rw [← hring.length_eq]; exact hi) (fun j hj => by
      have hl : j < RS.s.length := by rw [← hs, List.length_map]; omega
      refine ⟨RS.s[j], List.getElem?_eq_getElem hl, ?_⟩
      rw [Signature.publicChallenge]
      simp [List.getD, hl])
  rw [show Signature.publicChallenge (curveOf (edGroup sha)) RS msg 0 = RS.e from rfl] at this
  rw [this]
  rfl

theorem hash_algebra {e : LExtended} {P : EdP} (h : LRep e P) (msg : Str) :
    createHash sha (msg ++ pointStr e) = ofResidue ((curveOf (edGroup sha)).createHash (msg ++ Signature.pointStr (curveOf (edGroup sha)) P)) := by
  rw [pointStr_rep sha h]
  exact SigBytes.createHash_eq (edGroup sha) _

end Verif.SigLimb
