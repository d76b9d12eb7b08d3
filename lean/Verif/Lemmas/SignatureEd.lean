import Verif.Spec.SignatureEd
import Verif.Lemmas.SignatureBytes

/-! # The signatures in coordinates against the group of the curve -/

namespace Verif.SigEd
open Verif Verif.Kyber

variable (sha : Str → Str)

theorem OutRel.bind {α β α' β' : Type} {R : α → β → Prop} {R' : α' → β' → Prop} {x : Out α} {y : Out β} {f : α → Out α'} {g : β → Out β'}
    (h : OutRel R x y) (hf : ∀ a b, R a b → OutRel R' (f a) (g b)) : OutRel R' (x >>= f) (y >>= g) := by
  cases h with
  | ok h => exact hf _ _ h
  | err => exact .err
  | panic => exact .panic

theorem OutRel.refl {α : Type} (x : Out α) : OutRel Eq x x := by
  cases x with
  | ok a => exact .ok rfl
  | err => exact .err
  | panic => exact .panic

theorem OutRel.eq {α : Type} {x y : Out α} (h : OutRel Eq x y) : x = y := by
  cases h with
  | ok h => rw [h]
  | err => rfl
  | panic => rfl

theorem encode_inj {P Q : EdP} (h : encodePoint P = encodePoint Q) : P = Q :=
  (encode_decodes P).unique (h ▸ encode_decodes Q)

theorem equal_iff {e f : Extended} {P Q : EdP} (h : Rep e P) (k : Rep f Q) : e.equal f = true ↔ P = Q := by
  unfold Extended.equal
  rw [h.toBytes, k.toBytes, beq_iff_eq]
  exact ⟨encode_inj, fun h => by rw [h]⟩

theorem pointStr_rep {e : Extended} {P : EdP} (h : Rep e P) : pointStr e = SigBytes.pointStr (edGroup sha) P := by
  unfold pointStr SigBytes.pointStr
  rw [h.toBytes]; rfl

theorem toPublicKey_rep (s : Str) : OutRel Rep (toPublicKey s) (SigBytes.fromStringToPoint (edGroup sha) s) := by
  unfold toPublicKey SigBytes.fromStringToPoint
  refine OutRel.bind (OutRel.refl _) ?_
  rintro d _ rfl
  show OutRel Rep _ (decodePoint d)
  rcases fromBytes_spec d with ⟨e, P, h1, h2, h3, _⟩ | ⟨h1, h2⟩
  · rw [h1, (decodePoint_iff d P).2 h2]; exact .ok h3
  · rcases decodePoint_spec d with ⟨Q, _, h4⟩ | ⟨h3, _⟩
    · exact absurd h4 (h2 Q)
    · rw [h1, h3]; exact .err

theorem publicKey_rep (x : Scalar) : Rep (publicKey x) (SigBytes.publicKey (edGroup sha) x) := rep_base.mul _

theorem sigPublicKey_rep {s : Sig} {S : SigBytes.Sig EdP} (h : RepSig s S) (msg : Str) :
    Rep (s.publicKey sha msg) (S.publicKey (edGroup sha) msg) := by
  obtain ⟨h1, h2⟩ := h
  unfold Sig.publicKey SigBytes.Sig.publicKey
  dsimp only
  rw [pointStr_rep sha h1, h2]
  exact (h1.sub (rep_base.mul _)).mul _

theorem verify_rep {s : Sig} {S : SigBytes.Sig EdP} (h : RepSig s S) (rnd : Str) : s.verify sha rnd = S.verify (edGroup sha) rnd := by
  have h0 := sigPublicKey_rep sha h rnd
  obtain ⟨h1, h2⟩ := h
  unfold Sig.verify SigBytes.Sig.verify
  dsimp only
  rw [pointStr_rep sha h1, h2, Bool.eq_iff_iff, decide_eq_true_iff]
  exact equal_iff (rep_base.mul _) (h1.sub (h0.mul _))

theorem createSignature_rep (rnd : Str) {r : Extended} {R : EdP} (h : Rep r R) (s : Scalar) :
    OutRel RepSig (createSignature sha rnd r s) (SigBytes.createSignature (edGroup sha) rnd R s) := by
  unfold createSignature SigBytes.createSignature
  dsimp only
  rw [verify_rep sha (S := ⟨R, s⟩) ⟨h, rfl⟩]
  split
  · exact .ok ⟨h, rfl⟩
  · exact .err

theorem sign_rep (rnd : Str) (x : Scalar) (msg : Str) : OutRel RepSig (sign sha rnd x msg) (SigBytes.sign (edGroup sha) rnd x msg) := by
  unfold sign SigBytes.sign
  dsimp only
  have h : Rep (Extended.mul (genK sha x msg).1 baseExt) (pointMul (genK sha x msg).1 basePoint) := rep_base.mul _
  rw [pointStr_rep sha h]
  exact createSignature_rep sha rnd h _

theorem sigStr_rep {s : Sig} {S : SigBytes.Sig EdP} (h : RepSig s S) : s.toStr = S.toStr (edGroup sha) := by
  unfold Sig.toStr SigBytes.Sig.toStr
  rw [pointStr_rep sha h.1, h.2]

theorem toSignature_rep (rnd s : Str) : OutRel RepSig (toSignature sha rnd s) (SigBytes.toSignature (edGroup sha) rnd s) := by
  unfold toSignature SigBytes.toSignature
  refine OutRel.bind (OutRel.refl _) ?_
  rintro d _ rfl
  generalize Codec.split Signature.delimiter d = l
  match l with
  | [a, b] =>
    refine OutRel.bind (toPublicKey_rep sha _) fun p P hp => ?_
    refine OutRel.bind (OutRel.refl _) ?_
    rintro c _ rfl
    exact createSignature_rep sha rnd hp c
  | [] => exact .err
  | [_] => exact .err
  | _ :: _ :: _ :: _ => exact .err

theorem signerIndex_rep {ring : List Extended} {Ring : List EdP} (h : List.Forall₂ Rep ring Ring) {p : Extended} {P : EdP} (hp : Rep p P) :
    signerIndex ring p = Signature.signerIndex Ring P := by
  induction h with
  | nil => rfl
  | @cons a b _ _ h _ ih =>
    rw [signerIndex, Signature.signerIndex, ih]
    by_cases he : b = P
    · rw [if_pos ((equal_iff h hp).2 he), if_pos he]
    · rw [if_neg (fun h' => he ((equal_iff h hp).1 h')), if_neg he]

theorem index_rep {ring : List Extended} {Ring : List EdP} (h : List.Forall₂ Rep ring Ring) (i : Nat) :
    OutRel Rep (index ring i) (index Ring i) := by
  unfold index
  induction h generalizing i with
  | nil => exact .panic
  | cons h _ ih =>
    cases i with
    | zero => exact .ok h
    | succ i => exact ih i

theorem ringLoop_rep (x : Scalar) (msg : Str) {ring : List Extended} {Ring : List EdP} (h : List.Forall₂ Rep ring Ring) (signer fuel : Nat) :
    ∀ i es ss, ringLoop sha x msg ring signer fuel i es ss = SigBytes.ringLoop (edGroup sha) x msg Ring signer fuel i es ss := by
  induction fuel with
  | zero => intro i es ss; rfl
  | succ fuel ih =>
    intro i es ss
    rw [ringLoop, SigBytes.ringLoop]
    split
    · rfl
    · apply OutRel.eq
      refine OutRel.bind (OutRel.refl _) ?_
      rintro ei _ rfl
      refine OutRel.bind (index_rep h i) fun p P hp => ?_
      dsimp only
      rw [pointStr_rep sha ((rep_base.mul _).add (hp.mul _)), h.length_eq, ih]
      exact OutRel.refl _

theorem ringSign_rep (x : Scalar) (msg : Str) {ring : List Extended} {Ring : List EdP} (h : List.Forall₂ Rep ring Ring) :
    OutRel RepRing (ringSign sha x msg ring) (SigBytes.ringSign (edGroup sha) x msg Ring) := by
  unfold ringSign SigBytes.ringSign
  rw [signerIndex_rep h (publicKey_rep sha x)]
  generalize Signature.signerIndex Ring _ = o
  match o with
  | none => exact .err
  | some signer =>
    have h0 : Rep (Extended.mul (genK sha x msg).1 baseExt) (pointMul (genK sha x msg).1 basePoint) := rep_base.mul _
    dsimp only
    rw [pointStr_rep sha h0, h.length_eq, ringLoop_rep sha x msg h]
    refine OutRel.bind (R := Eq) (OutRel.refl _) ?_
    rintro ⟨es, ss⟩ _ rfl
    refine OutRel.bind (OutRel.refl _) ?_
    rintro ei _ rfl
    refine OutRel.bind (OutRel.refl _) ?_
    rintro l _ rfl
    refine OutRel.bind (OutRel.refl _) ?_
    rintro e _ rfl
    exact .ok ⟨h, rfl, rfl⟩

theorem verifyLoop_rep (msg : Str) (s : List Scalar) {ring : List Extended} {Ring : List EdP} (h : List.Forall₂ Rep ring Ring) :
    ∀ i e, verifyLoop sha msg s i ring e = SigBytes.verifyLoop (edGroup sha) msg s i Ring e := by
  induction h with
  | nil => intro i e; rfl
  | cons hp _ ih =>
    intro i e
    rw [verifyLoop, SigBytes.verifyLoop]
    apply OutRel.eq
    refine OutRel.bind (OutRel.refl _) ?_
    rintro si _ rfl
    rw [pointStr_rep sha ((rep_base.mul _).add (hp.mul _)), ih]
    exact OutRel.refl _

theorem ringVerify_rep {s : RingSig} {S : SigBytes.RingSig EdP} (h : RepRing s S) (msg : Str) :
    s.verify sha msg = S.verify (edGroup sha) msg := by
  unfold RingSig.verify SigBytes.RingSig.verify
  rw [verifyLoop_rep sha msg _ h.1, h.2.1, h.2.2]

theorem ringStr_rep {s : RingSig} {S : SigBytes.RingSig EdP} (h : RepRing s S) : s.toStr = S.toStr (edGroup sha) := by
  unfold RingSig.toStr SigBytes.RingSig.toStr
  have : s.ring.map pointStr = S.ring.map (SigBytes.pointStr (edGroup sha)) := by
    have h1 := h.1
    generalize s.ring = l at h1
    generalize S.ring = L at h1
    induction h1 with
    | nil => rfl
    | cons hp _ ih => rw [List.map_cons, List.map_cons, ih, pointStr_rep sha hp]
  rw [this, h.2.1, h.2.2]

theorem mapOut_rep {α β γ : Type} {R : β → γ → Prop} {f : α → Out β} {g : α → Out γ} (h : ∀ a, OutRel R (f a) (g a)) (l : List α) :
    OutRel (List.Forall₂ R) (mapOut f l) (mapOut g l) := by
  induction l with
  | nil => exact .ok .nil
  | cons a l ih => exact OutRel.bind (h a) fun b c hbc => OutRel.bind ih fun bs cs hs => .ok (.cons hbc hs)

theorem toRingSignature_rep (s : Str) : OutRel RepRing (toRingSignature s) (SigBytes.toRingSignature (edGroup sha) s) := by
  unfold toRingSignature SigBytes.toRingSignature
  refine OutRel.bind (OutRel.refl _) ?_
  rintro d _ rfl
  generalize Codec.split Signature.delimiter d = l
  match l with
  | [a, b, e] =>
    refine OutRel.bind (R := List.Forall₂ Rep) (mapOut_rep (toPublicKey_rep sha) _) fun ring Ring hr => ?_
    refine OutRel.bind (OutRel.refl _) ?_
    rintro ss _ rfl
    refine OutRel.bind (OutRel.refl _) ?_
    rintro e _ rfl
    exact .ok ⟨hr, rfl, rfl⟩
  | [] => exact .err
  | [_] => exact .err
  | [_, _] => exact .err
  | _ :: _ :: _ :: _ :: _ => exact .err

end Verif.SigEd
