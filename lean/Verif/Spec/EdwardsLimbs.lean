import Verif.Model.EdwardsLimbs
import Verif.Spec.FieldLimbs
import Verif.Spec.Edwards

/-!
# When coordinates in limbs stand for a point
-/

namespace Verif.Kyber
open Verif

/-- The limbs are those of the coordinates. `X` may be larger: reading bytes leaves it so. -/
structure LimE (e : LExtended) (E : Extended) : Prop where
  X : Lim 2 e.X E.X
  Y : Lim 1 e.Y E.Y
  Z : Lim 1 e.Z E.Z
  T : Lim 1 e.T E.T

/-- The limbs stand for the point. -/
def LRep (e : LExtended) (P : EdP) : Prop := ∃ E, LimE e E ∧ Rep E P

end Verif.Kyber
