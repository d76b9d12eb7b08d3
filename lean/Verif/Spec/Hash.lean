import Verif.Model.Go

namespace Verif

/-! ## Specifications -/

/-- An ASCII hexadecimal digit. -/
def SpecHexDigit (c : UInt8) : Prop :=
  (48 ≤ c.toNat ∧ c.toNat ≤ 57) ∨ (97 ≤ c.toNat ∧ c.toNat ≤ 102) ∨ (65 ≤ c.toNat ∧ c.toNat ≤ 70)

/-- An even number of hexadecimal digits. -/
def SpecHexText (s : Str) : Prop := s.length % 2 = 0 ∧ ∀ c ∈ s, SpecHexDigit c

end Verif
