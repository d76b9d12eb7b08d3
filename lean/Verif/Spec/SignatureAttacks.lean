import Verif.Model.SignatureLimbs

/-!
# What everybody can compute from signatures

Programs which use public data only, and the operations of the library.
-/

namespace Verif.SigLimb
open Verif Verif.Kyber

variable (sha : Str → Str)

/-- The challenge before position `i` of a ring signature: the loop of `Verify` over the first `i` members. -/
def challengeAt (rs : RingSig) (msg : Str) (i : Nat) : Out Scalar := verifyLoop sha msg rs.s 0 (rs.ring.take i) rs.e

/-- The challenge of a plain signature. -/
def sigChallenge (sig : Sig) (msg : Str) : Scalar := createHash sha (msg ++ pointStr sig.r)

/-- From a plain signature and a ring signature of one message: `(s - sᵢ) / (eᵢ - e)`, for a position `i`. -/
def keyFromBoth (sig : Sig) (rs : RingSig) (msg : Str) (i : Nat) : Out Scalar := do
  let ei ← challengeAt sha rs msg i
  let si ← index rs.s i
  return SigBytes.mul (SigBytes.sub sig.s si) (SigBytes.oneDiv (SigBytes.sub ei (sigChallenge sha sig msg)))

/-- From a ring signature of `msg` and a plain signature of `msg ++ i`: `(sᵢ - s) / e`. -/
def keyFromDecoy (rs : RingSig) (sig : Sig) (msg : Str) (i : Nat) : Out Scalar := do
  let si ← index rs.s i
  return SigBytes.mul (SigBytes.sub si sig.s) (SigBytes.oneDiv (sigChallenge sha sig (msg ++ itoaNat i)))

/-- The ring signature with the key `q` in the place of member `i`, and a multiple of the next member in the place of the next one. -/
def swapMember (rs : RingSig) (msg : Str) (i : Nat) (q : LExtended) : Out RingSig := do
  let ei ← challengeAt sha rs msg i
  let next ← challengeAt sha rs msg (i + 1)
  let si ← index rs.s i
  let p ← index rs.ring (i + 1)
  let e' := createHash sha (msg ++ pointStr ((LExtended.mul si.1 lbaseExt).add (LExtended.mul ei.1 q)))
  return ⟨(rs.ring.set i q).set (i + 1) (LExtended.mul (SigBytes.mul next (SigBytes.oneDiv e')).1 p), rs.s, rs.e⟩

end Verif.SigLimb
