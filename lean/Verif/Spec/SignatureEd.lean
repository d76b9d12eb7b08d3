import Verif.Model.SignatureEd
import Verif.Lemmas.EdwardsBase
import Verif.Spec.SignatureBytes

/-!
# The concrete curve behind the signatures

The group of `Spec/Edwards`, as the group of points of `Model/SignatureBytes`, and when objects in coordinates stand for objects of that group.
-/

namespace Verif.SigEd
open Verif Verif.Kyber

/-- The point which bytes stand for, if there is one. -/
def decodePoint (s : Str) : Out EdP :=
  match Extended.fromBytes s with
  | .ok e => if h : -e.X ^ 2 + e.Y ^ 2 = 1 + edD * e.X ^ 2 * e.Y ^ 2 then .ok ⟨e.X, e.Y, h⟩ else .err
  | .err => .err
  | .panic => .panic

/-- Reading is the relation `DecodesTo`. -/
theorem decodePoint_spec (s : Str) : (∃ P, decodePoint s = .ok P ∧ DecodesTo s P) ∨ (decodePoint s = .err ∧ ∀ P, ¬ DecodesTo s P) := by
  unfold decodePoint
  rcases fromBytes_spec s with ⟨e, P, h1, h2, _, rfl⟩ | ⟨h1, h2⟩
  · left
    refine ⟨P, ?_, h2⟩
    rw [h1]
    simp only
    rw [dif_pos P.on]
  · right
    exact ⟨by rw [h1], h2⟩

theorem decodePoint_iff (s : Str) (P : EdP) : decodePoint s = .ok P ↔ DecodesTo s P := by
  rcases decodePoint_spec s with ⟨Q, h1, h2⟩ | ⟨h1, h2⟩
  · rw [h1]
    constructor
    · intro h; rw [← Out.ok.inj h]; exact h2
    · intro h; rw [h2.unique h]
  · rw [h1]
    exact ⟨fun h => (by simp at h), fun h => absurd h (h2 P)⟩

/-- Ed25519 with a hash. -/
def edGroup (sha : Str → Str) : SigBytes.Group EdP where
  G := basePoint
  G_order := basePoint_order
  encP := encodePoint
  decP := decodePoint
  encP_len P := length_leBytes _ _
  decP_encP P := (decodePoint_iff _ _).2 (encode_decodes P)
  sha := sha

/-- Two results: both fail alike, or both succeed with related values. -/
inductive OutRel {α β : Type} (R : α → β → Prop) : Out α → Out β → Prop
  | ok {a : α} {b : β} : R a b → OutRel R (.ok a) (.ok b)
  | err : OutRel R .err .err
  | panic : OutRel R .panic .panic

/-- The signature in coordinates stands for the other one. -/
def RepSig (s : Sig) (S : SigBytes.Sig EdP) : Prop := Rep s.r S.r ∧ s.s = S.s

/-- The ring signature in coordinates stands for the other one. -/
def RepRing (s : RingSig) (S : SigBytes.RingSig EdP) : Prop := List.Forall₂ Rep s.ring S.ring ∧ s.s = S.s ∧ s.e = S.e

end Verif.SigEd
