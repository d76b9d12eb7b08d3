import Verif.Model.Cardinality

/-! # What a cardinality means -/

namespace Verif.Cardinality

/-- The numbers of repetitions a cardinality stands for. -/
def SpecAllows : Card → Nat → Prop
  | .optional, n => n = 0 ∨ n = 1
  | .mandatory, n => n = 1
  | .nonZeroMultiple, n => 1 ≤ n
  | .zeroMultiple, _ => True
  | .specific (.amount k), n => n = k.toNat
  | .specific (.range ⟨min, none⟩), n => min.toNat ≤ n
  | .specific (.range ⟨min, some max⟩), n => min.toNat ≤ n ∧ n ≤ max.toNat

/-- The numbers in a cardinality fit into an `int`, and an exact amount is not zero. -/
def SpecNumbersFit : Card → Prop
  | .specific (.amount n) => 0 < n.toNat ∧ n.toNat < 2 ^ 63
  | .specific (.range ⟨min, none⟩) => min.toNat < 2 ^ 63
  | .specific (.range ⟨min, some max⟩) => min.toNat < 2 ^ 63 ∧ max.toNat < 2 ^ 63
  | _ => True

end Verif.Cardinality
