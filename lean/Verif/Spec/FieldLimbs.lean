import Verif.Model.FieldLimbs

/-!
# How large the limbs of a field element may be
-/

namespace Verif.Kyber
open Verif

/-- A little more than 25 bits for the even limbs, than 24 bits for the odd ones: `1.01 * 2^25` and `1.01 * 2^24`. -/
def tight (i : Nat) : Int := if i % 2 = 0 then 33889976 else 16944988

/-- Ten limbs, none larger than `k` times `tight`. -/
structure Bd (k : Int) (f : FeL) : Prop where
  len : f.length = 10
  low : ∀ i < 10, -(k * tight i) ≤ (fat f i).toInt
  high : ∀ i < 10, (fat f i).toInt ≤ k * tight i

/-- The limbs stand for the element of the field, and are no larger than `k` times `tight`. -/
structure Lim (k : Int) (f : FeL) (x : Fe) : Prop where
  bd : Bd k f
  val : ((feVal f : Int) : Fe) = x

end Verif.Kyber
