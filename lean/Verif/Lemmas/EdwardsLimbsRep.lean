import Verif.Lemmas.EdwardsLimbs
import Verif.Lemmas.SignatureEd

/-! # Limbs against points -/

namespace Verif.Kyber
open Verif

theorem LRep.zero : LRep LExtended.zero 0 := ⟨_, LimE.zero, Rep.zero⟩

theorem LRep.neg {e : LExtended} {P : EdP} (h : LRep e P) : LRep e.neg (-P) := let ⟨_, l, r⟩ := h; ⟨_, l.neg, r.neg⟩

theorem LRep.add {e f : LExtended} {P Q : EdP} (h : LRep e P) (k : LRep f Q) : LRep (e.add f) (P + Q) :=
  let ⟨_, l, r⟩ := h; let ⟨_, m, s⟩ := k; ⟨_, l.add m, r.add s⟩

theorem LRep.sub {e f : LExtended} {P Q : EdP} (h : LRep e P) (k : LRep f Q) : LRep (e.sub f) (P - Q) :=
  let ⟨_, l, r⟩ := h; let ⟨_, m, s⟩ := k; ⟨_, l.sub m, r.sub s⟩

theorem LRep.mul {e : LExtended} {P : EdP} (h : LRep e P) (a : Str) : LRep (LExtended.mul a e) (pointMul a P) :=
  let ⟨_, l, r⟩ := h; ⟨_, l.mul a, r.mul a⟩

theorem LRep.toBytes {e : LExtended} {P : EdP} (h : LRep e P) : e.toBytes = encodePoint P :=
  let ⟨_, l, r⟩ := h; l.toBytes.trans r.toBytes

theorem lrep_base : LRep lbaseExt basePoint := ⟨_, LimE.base, rep_base⟩

theorem lfromBytes_spec (s : Str) : (∃ e P, LExtended.fromBytes s = .ok e ∧ DecodesTo s P ∧ LRep e P) ∨
    (LExtended.fromBytes s = .err ∧ ∀ P, ¬ DecodesTo s P) := by
  rcases LimE.fromBytes s with ⟨e, E, h1, h2, h3⟩ | ⟨h1, h2⟩
  · rcases fromBytes_spec s with ⟨E', P, k1, k2, k3, _⟩ | ⟨k1, _⟩
    · rw [h2] at k1
      have := Out.ok.inj k1
      subst this
      exact Or.inl ⟨e, P, h1, k2, E, h3, k3⟩
    · rw [h2] at k1; simp at k1
  · rcases fromBytes_spec s with ⟨E', P, k1, _⟩ | ⟨_, k2⟩
    · rw [h2] at k1; simp at k1
    · exact Or.inr ⟨h1, k2⟩

theorem lequal_iff {e f : LExtended} {P Q : EdP} (h : LRep e P) (k : LRep f Q) : e.equal f = true ↔ P = Q := by
  unfold LExtended.equal
  rw [h.toBytes, k.toBytes, beq_iff_eq]
  exact ⟨SigEd.encode_inj, fun h => by rw [h]⟩

end Verif.Kyber
