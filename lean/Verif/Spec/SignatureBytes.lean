import Verif.Model.SignatureBytes
import Verif.Lemmas.PointMul
import Verif.Lemmas.Signature

/-!
# The algebra behind the bytes

`leNat` (the number bytes stand for, lowest byte first), `primeOrder` and the theorem that it is prime are all that
the statements about scalars need. For the signatures: the integers modulo the order, and the curve of
`Model/Signature.lean` which a group of points determines.
-/

namespace Verif.SigBytes
open Verif Verif.Kyber

/-- The bytes are those of a number below the order. -/
def Reduced (a : Scalar) : Prop := leNat a.1 < primeOrder

/-- What a scalar is modulo the order. -/
def residue (a : Scalar) : ZMod primeOrder := (leNat a.1 : ZMod primeOrder)

/-- The only reduced scalar with this residue. -/
def ofResidue (z : ZMod primeOrder) : Scalar := ⟨leBytes 32 z.val, rfl⟩

theorem leNat_ofResidue (z : ZMod primeOrder) : leNat (ofResidue z).1 = z.val := by
  show leNat (leBytes 32 z.val) = _
  rw [leNat_leBytes, Nat.mod_eq_of_lt]
  have : z.val < primeOrder := z.val_lt
  have h : primeOrder < 256 ^ 32 := by decide +kernel
  omega

theorem residue_ofResidue (z : ZMod primeOrder) : residue (ofResidue z) = z := by
  unfold residue; rw [leNat_ofResidue]; simp

variable {P : Type} [AddCommGroup P] [DecidableEq P]

/-- The curve of the algebraic model: the scalars are the integers modulo the order, written as reduced scalars and
read from any 32 bytes. -/
def curveOf (g : Group P) : Signature.Curve primeOrder P where
  G := g.G
  G_order := g.G_order
  encS z := (ofResidue z).1
  decS d := residue <$> unmarshalFrom d
  encP := g.encP
  decP := g.decP
  encS_len _ := rfl
  encP_len := g.encP_len
  decS_encS z := by
    have h : unmarshalFrom (ofResidue z).1 = .ok (ofResidue z) := by
      unfold unmarshalFrom
      rw [dif_pos (by exact (ofResidue z).2.ge)]
      congr 1
    rw [h, Out.map_ok, residue_ofResidue]
  decP_encP := g.decP_encP
  createHash m := residue (createHash g m)

/-- A group on which the hypotheses of the theorems can be tested: the integers modulo the order. -/
def toyGroup : Group (ZMod primeOrder) where
  G := 1
  G_order := by simp
  encP z := leBytes 32 z.val
  decP d := if d.length = 32 then .ok (leNat d : ZMod primeOrder) else .err
  encP_len z := length_leBytes _ _
  decP_encP z := by
    have h := leNat_ofResidue z
    unfold ofResidue at h
    simp only at h
    simp [length_leBytes, h]
  sha m := m

end Verif.SigBytes
