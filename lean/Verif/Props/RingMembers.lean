import Verif.Props.RingAmbiguity

/-!
# Whether a ring signature is bound to its ring
-/

namespace Verif.Signature
open Verif

variable {L : Nat} {P : Type} [AddCommGroup P] [DecidableEq P] [hL : Fact L.Prime]
variable (c : Curve L P)

theorem publicChallenge_upTo {rs rs' : RingSig L P} (msg : Str) (i : Nat) (he : rs.e = rs'.e) (hs : ∀ j < i, rs.s.getD j 0 = rs'.s.getD j 0)
    (hr : ∀ j < i, rs.ring.getD j 0 = rs'.ring.getD j 0) : publicChallenge c rs msg i = publicChallenge c rs' msg i := by
  induction i with
  | zero => exact he
  | succ i ih =>
    simp only [publicChallenge]
    rw [ih (fun j hj => hs j (by omega)) (fun j hj => hr j (by omega)), hs i (by omega), hr i (by omega)]

theorem publicChallenge_from {rs rs' : RingSig L P} (msg : Str) (k n : Nat) (hk : publicChallenge c rs msg k = publicChallenge c rs' msg k) (hkn : k ≤ n)
    (hs : ∀ j < n, rs.s.getD j 0 = rs'.s.getD j 0) (hr : ∀ j, k ≤ j → j < n → rs.ring.getD j 0 = rs'.ring.getD j 0) :
    publicChallenge c rs msg n = publicChallenge c rs' msg n := by
  induction n with
  | zero => rw [show k = 0 by omega] at hk; exact hk
  | succ n ih =>
    rcases Nat.lt_or_ge n k with h | h
    · rw [show n + 1 = k by omega]; exact hk
    · simp only [publicChallenge]
      rw [ih h (fun j hj => hs j (by omega)) (fun j h1 h2 => hr j h1 (by omega)), hs n (by omega), hr n h (by omega)]

theorem getD_set_eq {l : List P} {i : Nat} (h : i < l.length) (a : P) : (l.set i a).getD i 0 = a := by simp [List.getD, h]

theorem getD_set_ne {l : List P} {i j : Nat} (h : i ≠ j) (a : P) : (l.set i a).getD j 0 = l.getD j 0 := by
  simp only [List.getD, List.getElem?_set, h, if_false]

/-- C121: one member alone cannot be replaced: if a ring signature verifies with a member and with another key in its place (all keys being multiples
of the base point other than zero), the challenge of this member is zero, or the scalar hash has a collision between two texts made of the message and a point. -/
theorem C121_one_member (rs : RingSig L P) (msg : Str) (i : Nat) (Q : P) (hl : rs.ring.length ≤ rs.s.length) (hi : i < rs.ring.length)
    (hne : rs.ring[i]? ≠ some Q) (hord : ∀ p ∈ rs.ring, p ≠ 0 ∧ L • p = 0) (hQ : L • Q = 0) (hv : rs.verify c msg = .ok true)
    (hv' : (RingSig.mk (rs.ring.set i Q) rs.s rs.e).verify c msg = .ok true) :
    publicChallenge c rs msg i = 0 ∨ ∃ p p' : P, p ≠ p' ∧ c.createHash (msg ++ pointStr c p) = c.createHash (msg ++ pointStr c p') := by
  by_contra hcon
  push Not at hcon
  obtain ⟨hz, hinj⟩ := hcon
  set rs' : RingSig L P := ⟨rs.ring.set i Q, rs.s, rs.e⟩ with hrs
  rw [C62_verify_iff c rs msg hl] at hv
  rw [C62_verify_iff c rs' msg (by simpa [hrs] using hl)] at hv'
  have e1 : publicChallenge c rs msg rs.ring.length = rs.e := by simpa using hv
  have e2 : publicChallenge c rs' msg rs.ring.length = rs.e := by simpa [hrs] using hv'
  have inj : ∀ p p' : P, c.createHash (msg ++ pointStr c p) = c.createHash (msg ++ pointStr c p') → p = p' := by
    intro p p' h
    by_contra hpp
    exact hinj p p' hpp h
  have upto : publicChallenge c rs msg i = publicChallenge c rs' msg i :=
    publicChallenge_upTo c msg i rfl (fun _ _ => rfl) (fun j hj => (getD_set_ne (by omega) Q).symm)
  have hmem : ∀ j < rs.ring.length, rs.ring.getD j 0 ∈ rs.ring := by
    intro j hj
    simp [List.getD, hj]
  have diff : ∀ d, i + 1 + d ≤ rs.ring.length → publicChallenge c rs msg (i + 1 + d) ≠ publicChallenge c rs' msg (i + 1 + d) := by
    intro d
    induction d with
    | zero =>
      intro _ he
      simp only [Nat.add_zero, publicChallenge] at he
      have := add_left_cancel (inj _ _ he)
      rw [← upto, getD_set_eq hi] at this
      apply hne
      have hP := (hord _ (hmem i hi)).2
      have : smul (publicChallenge c rs msg i)⁻¹ (smul (publicChallenge c rs msg i) (rs.ring.getD i 0)) =
          smul (publicChallenge c rs msg i)⁻¹ (smul (publicChallenge c rs msg i) Q) := by rw [this]
      rw [← smul_mul' _ _ _ hP, ← smul_mul' _ _ _ hQ, inv_mul_cancel₀ hz, smul_one', smul_one'] at this
      rw [← this]
      simp [List.getD, hi]
    | succ d ih =>
      intro hd he
      rw [show i + 1 + (d + 1) = (i + 1 + d) + 1 by omega] at he
      simp only [publicChallenge] at he
      have := add_left_cancel (inj _ _ he)
      rw [show rs'.ring.getD (i + 1 + d) 0 = rs.ring.getD (i + 1 + d) 0 from getD_set_ne (by omega) Q] at this
      have hP := hord _ (hmem (i + 1 + d) (by omega))
      exact ih (by omega) ((smul_inj _ _ _ hP.2 hP.1).1 this)
  have := diff (rs.ring.length - (i + 1)) (by omega)
  rw [show i + 1 + (rs.ring.length - (i + 1)) = rs.ring.length by omega] at this
  exact this (by rw [e1, e2])

/-- The ring in which `Q` takes the place of a member, and a multiple of it that of the next one. -/
theorem swapped_verifies (rs : RingSig L P) (msg : Str) (i : Nat) (Q : P) (hl : rs.ring.length ≤ rs.s.length) (hi : i + 1 < rs.ring.length)
    (hord : ∀ p ∈ rs.ring, L • p = 0) (hv : rs.verify c msg = .ok true) (e' : ZMod L)
    (he' : e' = c.createHash (msg ++ pointStr c (smul (rs.s.getD i 0) c.G + smul (publicChallenge c rs msg i) Q))) (hz : e' ≠ 0) :
    (RingSig.mk ((rs.ring.set i Q).set (i + 1) (smul (publicChallenge c rs msg (i + 1) * e'⁻¹) (rs.ring.getD (i + 1) 0))) rs.s rs.e).verify c msg =
      .ok true := by
  set m := publicChallenge c rs msg (i + 1) * e'⁻¹ with hm
  set ring' := (rs.ring.set i Q).set (i + 1) (smul m (rs.ring.getD (i + 1) 0)) with hr'
  set rs' : RingSig L P := ⟨ring', rs.s, rs.e⟩ with hrs'
  have g : ∀ j, j ≠ i → j ≠ i + 1 → rs'.ring.getD j 0 = rs.ring.getD j 0 := by
    intro j h1 h2
    simp only [hrs', hr']
    rw [getD_set_ne (by omega), getD_set_ne (by omega)]
  have g0 : rs'.ring.getD i 0 = Q := by
    simp only [hrs', hr']
    rw [getD_set_ne (by omega), getD_set_eq (by omega)]
  have g1 : rs'.ring.getD (i + 1) 0 = smul m (rs.ring.getD (i + 1) 0) := by
    simp only [hrs', hr']
    rw [getD_set_eq (by simpa using hi)]
  have h0 : publicChallenge c rs' msg i = publicChallenge c rs msg i :=
    publicChallenge_upTo c msg i rfl (fun _ _ => rfl) (fun j hj => g j (by omega) (by omega))
  have h1 : publicChallenge c rs' msg (i + 1) = e' := by
    simp only [publicChallenge]
    rw [h0, g0, he']
  have hP : L • rs.ring.getD (i + 1) 0 = 0 := by
    apply hord
    simp [List.getD, hi]
  have h2 : publicChallenge c rs' msg (i + 1 + 1) = publicChallenge c rs msg (i + 1 + 1) := by
    conv_lhs => rw [publicChallenge]
    conv_rhs => rw [publicChallenge]
    rw [h1, g1, ← smul_mul' _ _ _ hP, hm, mul_comm, mul_assoc, inv_mul_cancel₀ hz, mul_one]
  have h3 : publicChallenge c rs' msg rs.ring.length = publicChallenge c rs msg rs.ring.length :=
    publicChallenge_from c msg (i + 1 + 1) _ h2 (by omega) (fun _ _ => rfl) (fun j a b => g j (by omega) (by omega))
  have hlen : rs'.ring.length = rs.ring.length := by simp [hrs', hr']
  rw [C62_verify_iff c rs' msg (by rw [hlen]; exact hl), hlen, h3]
  rw [C62_verify_iff c rs msg hl] at hv
  exact hv

/-- C121, violation: a ring signature is not bound to its ring. Whoever has one, without any private key, can put any key in the place of any member but the
last, by replacing the next member with a multiple of it; the responses and the seed stay as they are. -/
theorem C121_two_members (rs : RingSig L P) (msg : Str) (i : Nat) (Q : P) (hl : rs.ring.length ≤ rs.s.length) (hi : i + 1 < rs.ring.length)
    (hord : ∀ p ∈ rs.ring, L • p = 0) (hv : rs.verify c msg = .ok true)
    (hz : c.createHash (msg ++ pointStr c (smul (rs.s.getD i 0) c.G + smul (publicChallenge c rs msg i) Q)) ≠ 0) :
    ∃ ring' : List P, ring'.length = rs.ring.length ∧ ring'[i]? = some Q ∧ (∃ m : ZMod L, ring'[i + 1]? = (rs.ring[i + 1]?).map (smul m)) ∧
      (∀ j, j ≠ i → j ≠ i + 1 → ring'[j]? = rs.ring[j]?) ∧ (RingSig.mk ring' rs.s rs.e).verify c msg = .ok true := by
  set e' := c.createHash (msg ++ pointStr c (smul (rs.s.getD i 0) c.G + smul (publicChallenge c rs msg i) Q)) with he'
  refine ⟨_, ?_, ?_, ⟨publicChallenge c rs msg (i + 1) * e'⁻¹, ?_⟩, ?_, swapped_verifies c rs msg i Q hl hi hord hv e' he' hz⟩
  · simp
  · simp [show i < rs.ring.length by omega]
  · simp [hi, List.getD]
  · intro j h1 h2
    rw [List.getElem?_set_ne (by omega), List.getElem?_set_ne (by omega)]

/-- C121, violation: likewise for the last member, whose next member is the first; here the seed changes as well. -/
theorem C121_last_member (rs : RingSig L P) (msg : Str) (Q : P) (hl : rs.ring.length ≤ rs.s.length) (hn : 2 ≤ rs.ring.length)
    (hord : ∀ p ∈ rs.ring, L • p = 0) (hv : rs.verify c msg = .ok true)
    (hz : c.createHash (msg ++ pointStr c (smul (rs.s.getD (rs.ring.length - 1) 0) c.G +
      smul (publicChallenge c rs msg (rs.ring.length - 1)) Q)) ≠ 0) :
    ∃ (ring' : List P) (e' : ZMod L), ring'.length = rs.ring.length ∧ ring'[rs.ring.length - 1]? = some Q ∧
      (∃ m : ZMod L, ring'[0]? = (rs.ring[0]?).map (smul m)) ∧
      (∀ j, j ≠ 0 → j ≠ rs.ring.length - 1 → ring'[j]? = rs.ring[j]?) ∧ (RingSig.mk ring' rs.s e').verify c msg = .ok true := by
  set n := rs.ring.length - 1 with hnn
  set e' := c.createHash (msg ++ pointStr c (smul (rs.s.getD n 0) c.G + smul (publicChallenge c rs msg n) Q)) with he'
  set m := rs.e * e'⁻¹ with hm
  set ring' := (rs.ring.set n Q).set 0 (smul m (rs.ring.getD 0 0)) with hr'
  refine ⟨ring', e', by simp [hr'], ?_, ⟨m, ?_⟩, ?_, ?_⟩
  · simp only [hr']
    rw [List.getElem?_set_ne (by omega)]
    simp [show n < rs.ring.length by omega]
  · simp [hr', show 0 < rs.ring.length by omega, List.getD]
  · intro j h1 h2
    simp only [hr']
    rw [List.getElem?_set_ne (by omega), List.getElem?_set_ne (by omega)]
  · set rs' : RingSig L P := ⟨ring', rs.s, e'⟩ with hrs'
    have g : ∀ j, j ≠ 0 → j ≠ n → rs'.ring.getD j 0 = rs.ring.getD j 0 := by
      intro j h1 h2
      simp only [hrs', hr']
      rw [getD_set_ne (by omega), getD_set_ne (by omega)]
    have g0 : rs'.ring.getD 0 0 = smul m (rs.ring.getD 0 0) := by
      simp only [hrs', hr']
      rw [getD_set_eq (by simp; omega)]
    have g1 : rs'.ring.getD n 0 = Q := by
      simp only [hrs', hr']
      rw [getD_set_ne (by omega), getD_set_eq (by omega)]
    have hP : L • rs.ring.getD 0 0 = 0 := by
      apply hord
      simp [List.getD, show 0 < rs.ring.length by omega]
    have h1 : publicChallenge c rs' msg 1 = publicChallenge c rs msg 1 := by
      simp only [publicChallenge]
      rw [g0, ← smul_mul' _ _ _ hP, hm]
      rw [show rs'.e = e' from rfl, mul_comm e', mul_assoc, inv_mul_cancel₀ hz, mul_one]
    have h2 : publicChallenge c rs' msg n = publicChallenge c rs msg n :=
      publicChallenge_from c msg 1 n h1 (by omega) (fun _ _ => rfl) (fun j a b => g j (by omega) (by omega))
    have hlen : rs'.ring.length = n + 1 := by simp [hrs', hr']; omega
    rw [C62_verify_iff c rs' msg (by rw [hlen]; show n + 1 ≤ rs.s.length; omega), hlen]
    have h3 : publicChallenge c rs' msg (n + 1) = rs'.e := by
      simp only [publicChallenge]
      rw [h2, g1]
    simp [h3]

/-- The hypotheses of `C121_one_member` are met by a signature with a zero challenge at the replaced member. -/
example : ∃ rs : RingSig 7 (ZMod 7), ringSign toy 3 (lit "g") [(5 : ZMod 7), 3, 2] = .ok rs ∧ rs.ring.length ≤ rs.s.length ∧ 1 < rs.ring.length ∧
    rs.ring[1]? ≠ some 4 ∧ (∀ p ∈ rs.ring, p ≠ 0 ∧ 7 • p = 0) ∧ rs.verify toy (lit "g") = .ok true ∧
    (RingSig.mk (rs.ring.set 1 4) rs.s rs.e).verify toy (lit "g") = .ok true :=
  ⟨_, rfl, by decide +kernel, by decide +kernel, by decide +kernel, by decide +kernel, by decide +kernel, by decide +kernel⟩

/-- A signature for the examples: the toy key 3 signs with the ring 5, 3, 2. -/
def toyRing : RingSig 7 (ZMod 7) := ((ringSign toy 3 (lit "m") [(5 : ZMod 7), 3, 2]).toOption).getD ⟨[], [], 0⟩

/-- The hypotheses of `C121_two_members` and `C121_last_member` are met by a signature made with `RingSign`: the signer, 3, and another member are replaced. -/
example : ringSign toy 3 (lit "m") [(5 : ZMod 7), 3, 2] = .ok toyRing ∧
    (∃ ring' : List (ZMod 7), ring'[1]? = some 6 ∧ (RingSig.mk ring' toyRing.s toyRing.e).verify toy (lit "m") = .ok true) ∧
    ∃ (ring' : List (ZMod 7)) (e' : ZMod 7), ring'[2]? = some 1 ∧ (RingSig.mk ring' toyRing.s e').verify toy (lit "m") = .ok true := by
  refine ⟨by decide +kernel, ?_, ?_⟩
  · obtain ⟨r, _, h2, _, _, h3⟩ := C121_two_members toy toyRing (lit "m") 1 6 (by decide +kernel) (by decide +kernel) (by decide +kernel)
      (by decide +kernel) (by decide +kernel)
    exact ⟨r, h2, h3⟩
  · obtain ⟨r, e, _, h2, _, _, h3⟩ := C121_last_member toy toyRing (lit "m") 1 (by decide +kernel) (by decide +kernel) (by decide +kernel)
      (by decide +kernel) (by decide +kernel)
    exact ⟨r, e, (by decide +kernel : toyRing.ring.length - 1 = 2) ▸ h2, h3⟩

end Verif.Signature
