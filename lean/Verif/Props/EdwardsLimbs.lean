import Verif.Lemmas.EdwardsLimbsRep
import Verif.Props.Edwards

/-!
# C127: the curve of the library, in machine words

`LRep e P` says that the forty limbs `e` stand for the point `P`, and are small enough for the arithmetic. Everything which the library computes keeps
them so: no history of additions, multiplications, negations and reads overflows.
-/

namespace Verif.Kyber
open Verif

attribute [local irreducible] primeOrder leBytes LExtended.add LExtended.sub LExtended.mul LExtended.neg LExtended.toBytes LExtended.fromBytes

/-- C127: the neutral point, the base point, the opposite, the sum, the difference and the multiple which the library computes in machine words are those of the
group of the curve, for every two points and all limbs of them, and again fit for the next operation. -/
theorem C127_operations {e f : LExtended} {P Q : EdP} (he : LRep e P) (hf : LRep f Q) :
    LRep LExtended.zero 0 ∧ LRep lbaseExt basePoint ∧ LRep e.neg (-P) ∧ LRep (e.add f) (P + Q) ∧ LRep (e.sub f) (P - Q) ∧
      (∀ a : Scalar, leNat a.1 ≤ mulLimit → LRep (LExtended.mul a.1 e) (leNat a.1 • P)) ∧
      ∀ a : Scalar, LRep (LExtended.mul a.1 e) (pointMul a.1 P) := by
  refine ⟨LRep.zero, lrep_base, he.neg, he.add hf, he.sub hf, fun a ha => ?_, fun a => he.mul a.1⟩
  have := he.mul a.1
  rwa [pointMul_le a.1 a.2 ha] at this

/-- C127: `Equal` and `MarshalBinary` depend on the point only, not on its limbs; limbs stand for one point. -/
theorem C127_equal {e f : LExtended} {P Q : EdP} (he : LRep e P) (hf : LRep f Q) :
    (e.equal f = true ↔ P = Q) ∧ e.toBytes = encodePoint P ∧ (∀ R, LRep e R → R = P) :=
  ⟨lequal_iff he hf, he.toBytes, fun R hR => SigEd.encode_inj (by rw [← hR.toBytes, he.toBytes])⟩

/-- C127: `UnmarshalBinary` accepts exactly the bytes which stand for a point; the limbs it leaves are those of this point. -/
theorem C127_read (s : Str) :
    (∃ e P, LExtended.fromBytes s = .ok e ∧ LRep e P ∧ DecodesTo s P ∧ ∀ Q, DecodesTo s Q → Q = P) ∨
      (LExtended.fromBytes s = .err ∧ ∀ P, ¬ DecodesTo s P) := by
  rcases lfromBytes_spec s with ⟨e, P, h1, h2, h3⟩ | h
  · exact Or.inl ⟨e, P, h1, h3, h2, fun Q hQ => hQ.unique h2⟩
  · exact Or.inr h

/-- C127: what is written is read back. -/
theorem C127_round_trip {e : LExtended} {P : EdP} (he : LRep e P) :
    ∃ e', LExtended.fromBytes e.toBytes = .ok e' ∧ LRep e' P ∧ e'.equal e = true ∧ e'.toBytes = e.toBytes := by
  rw [he.toBytes]
  rcases lfromBytes_spec (encodePoint P) with ⟨e', Q, h1, h2, h3⟩ | ⟨_, h2⟩
  · have hQ : Q = P := h2.unique (encode_decodes P)
    subst hQ
    exact ⟨e', h1, h3, (lequal_iff h3 he).2 rfl, h3.toBytes⟩
  · exact absurd (encode_decodes P) (h2 P)

/-- C127: every sequence of operations: whatever is computed from the base point and from points which were read stands for a point. -/
inductive Computed : LExtended → Prop
  | zero : Computed LExtended.zero
  | base : Computed lbaseExt
  | read (s : Str) (e : LExtended) : LExtended.fromBytes s = .ok e → Computed e
  | neg (e : LExtended) : Computed e → Computed e.neg
  | add (e f : LExtended) : Computed e → Computed f → Computed (e.add f)
  | sub (e f : LExtended) : Computed e → Computed f → Computed (e.sub f)
  | mul (a : Scalar) (e : LExtended) : Computed e → Computed (LExtended.mul a.1 e)

/-- C127: and every limb of it fits: at most `2 * tight`. -/
theorem C127_history (e : LExtended) (h : Computed e) :
    (∃ P, LRep e P) ∧ Bd 2 e.X ∧ Bd 1 e.Y ∧ Bd 1 e.Z ∧ Bd 1 e.T := by
  have key : ∃ P, LRep e P := by
    induction h with
    | zero => exact ⟨_, LRep.zero⟩
    | base => exact ⟨_, lrep_base⟩
    | read s e h =>
      rcases lfromBytes_spec s with ⟨e', P, h1, _, h3⟩ | ⟨h1, _⟩
      · rw [h] at h1
        rw [Out.ok.inj h1]
        exact ⟨P, h3⟩
      · rw [h] at h1; simp at h1
    | neg e _ ih => obtain ⟨P, hP⟩ := ih; exact ⟨_, hP.neg⟩
    | add e f _ _ ih jh => obtain ⟨P, hP⟩ := ih; obtain ⟨Q, hQ⟩ := jh; exact ⟨_, hP.add hQ⟩
    | sub e f _ _ ih jh => obtain ⟨P, hP⟩ := ih; obtain ⟨Q, hQ⟩ := jh; exact ⟨_, hP.sub hQ⟩
    | mul a e _ ih => obtain ⟨P, hP⟩ := ih; exact ⟨_, hP.mul a.1⟩
  refine ⟨key, ?_⟩
  obtain ⟨_, _, l, _⟩ := key
  exact ⟨l.X.bd, l.Y.bd, l.Z.bd, l.T.bd⟩

/-- The base point and its double. -/
example : LRep (lbaseExt.add lbaseExt) (basePoint + basePoint) ∧ (lbaseExt.add lbaseExt).equal lbaseExt = false ∧ Computed (lbaseExt.sub lbaseExt.neg) := by
  refine ⟨lrep_base.add lrep_base, ?_, .sub _ _ .base (.neg _ .base)⟩
  rw [Bool.eq_false_iff, Ne, lequal_iff (lrep_base.add lrep_base) lrep_base, add_eq_left]
  exact basePoint_ne

end Verif.Kyber
