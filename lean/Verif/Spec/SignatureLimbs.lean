import Verif.Model.SignatureLimbs
import Verif.Lemmas.EdwardsLimbsRep

/-!
# Signatures in limbs, and those of the group of the curve
-/

namespace Verif.SigLimb
open Verif Verif.Kyber

/-- The signature in limbs stands for the other one. -/
def RepSig (s : Sig) (S : SigBytes.Sig EdP) : Prop := LRep s.r S.r ∧ s.s = S.s

/-- The ring signature in limbs stands for the other one. -/
def RepRing (s : RingSig) (S : SigBytes.RingSig EdP) : Prop := List.Forall₂ LRep s.ring S.ring ∧ s.s = S.s ∧ s.e = S.e

end Verif.SigLimb
