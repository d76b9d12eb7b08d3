import Verif.Model.Signature

/-!
# Specification notions for the signatures

`Ring` verification seen from outside: the challenge reached at a position of a ring signature can be
computed by everybody from the signature and the message.
-/

namespace Verif.Signature
open Verif

variable {L : Nat} {P : Type} [AddCommGroup P] [DecidableEq P] [Fact L.Prime]

/-- The public challenge before ring position `i`: start with `e`, hash `s_j * G + e_j * P_j` for every earlier
position `j`. -/
def publicChallenge (c : Curve L P) (rs : RingSig L P) (msg : Str) : Nat → ZMod L
  | 0 => rs.e
  | i + 1 => c.createHash (msg ++ pointStr c
      (smul (rs.s.getD i 0) c.G + smul (publicChallenge c rs msg i) (rs.ring.getD i 0)))

/-- The public challenge of a plain signature. -/
def sigChallenge (c : Curve L P) (sig : Sig L P) (msg : Str) : ZMod L :=
  c.createHash (msg ++ pointStr c sig.r)

/-- The ring signature `rs` of `msg` was made with the key `x` at position `j` and the nonce `k`: there are challenges `e i`, one for every position, such
that the one behind `j` is the hash of the nonce, the one behind every other position `i` is the hash of the response and the challenge at `i`, the
response at `j` is `k - e j * x`, and the signature starts with the challenge of position 0. The other responses are the choice of the signer. -/
def RingMade (c : Curve L P) (msg : Str) (rs : RingSig L P) (j : Nat) (x k : ZMod L) : Prop :=
  rs.s.length = rs.ring.length ∧ rs.ring[j]? = some (publicKey c x) ∧ ∃ e : Nat → ZMod L,
    e ((j + 1) % rs.ring.length) = c.createHash (msg ++ pointStr c (smul k c.G)) ∧
    (∀ i < rs.ring.length, i ≠ j → e ((i + 1) % rs.ring.length) =
      c.createHash (msg ++ pointStr c (smul (rs.s.getD i 0) c.G + smul (e i) (rs.ring.getD i 0)))) ∧
    rs.s.getD j 0 = k - e j * x ∧ rs.e = e 0

/-- The point which the challenge behind position `i` hashes; everybody can compute it. -/
def commitment (c : Curve L P) (rs : RingSig L P) (msg : Str) (i : Nat) : P :=
  smul (rs.s.getD i 0) c.G + smul (publicChallenge c rs msg i) (rs.ring.getD i 0)

/-- A toy curve on which the hypotheses of the theorems can be tested: the group of order 7. -/
def toy : Curve 7 (ZMod 7) where
  G := 1
  G_order := by decide
  encS a := List.replicate 31 0 ++ [UInt8.ofNat a.val]
  decS s := if s.length = 32 then .ok ((s.getD 31 0).toNat : ZMod 7) else .err
  encP a := List.replicate 31 0 ++ [UInt8.ofNat a.val]
  decP s := if s.length = 32 then .ok ((s.getD 31 0).toNat : ZMod 7) else .err
  encS_len a := by simp
  encP_len a := by simp
  decS_encS a := by revert a; decide
  decP_encP a := by revert a; decide
  createHash s := ((s.foldl (fun acc b => acc * 3 + b.toNat) 0 : Nat) : ZMod 7)

instance : Fact (Nat.Prime 7) := ⟨by decide⟩

end Verif.Signature
