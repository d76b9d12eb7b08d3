import Verif.Model.Signature
import Verif.Lemmas.Hash
import Verif.Lemmas.Codec
import Mathlib.Tactic.Ring
import Mathlib.Tactic.Abel
import Mathlib.Tactic.FieldSimp

namespace Verif.Signature
open Verif

variable {L : Nat} {P : Type} [AddCommGroup P] [DecidableEq P] [hL : Fact L.Prime]

theorem mod_smul (n : Nat) (p : P) (h : L • p = 0) : (n % L) • p = n • p := by
  conv_rhs => rw [← Nat.mod_add_div n L]
  rw [add_smul, mul_comm, mul_smul, h, smul_zero, add_zero]

theorem smul_add' (a b : ZMod L) (p : P) (h : L • p = 0) : smul (a + b) p = smul a p + smul b p := by
  unfold smul
  rw [ZMod.val_add, mod_smul _ _ h, add_smul]

theorem smul_mul' (a b : ZMod L) (p : P) (h : L • p = 0) : smul (a * b) p = smul a (smul b p) := by
  unfold smul
  rw [ZMod.val_mul, mod_smul _ _ h, mul_smul]

theorem smul_order (a : ZMod L) (p : P) (h : L • p = 0) : L • smul a p = 0 := by
  unfold smul
  rw [← mul_smul, mul_comm, mul_smul, h, smul_zero]

theorem smul_one' (p : P) : smul (1 : ZMod L) p = p := by
  have := hL.out
  unfold smul
  rw [ZMod.val_one'' this.one_lt.ne', one_smul]

theorem smul_zero' (p : P) : smul (0 : ZMod L) p = 0 := by simp [smul]

theorem smul_sub' (a b : ZMod L) (p : P) (h : L • p = 0) : smul (a - b) p = smul a p - smul b p := by
  rw [eq_sub_iff_add_eq, ← smul_add' _ _ _ h, sub_add_cancel]

/-- A non-zero point of order dividing the prime `L` is killed by no non-zero scalar. -/
theorem smul_eq_zero' (a : ZMod L) (p : P) (h : L • p = 0) (hp : p ≠ 0) : smul a p = 0 ↔ a = 0 := by
  constructor
  · intro ha
    by_contra hne
    apply hp
    have h1 : smul (a⁻¹ * a) p = 0 := by rw [smul_mul' _ _ _ h, ha]; simp [smul]
    rwa [inv_mul_cancel₀ hne, smul_one'] at h1
  · rintro rfl; exact smul_zero' p

theorem smul_inj (a b : ZMod L) (p : P) (h : L • p = 0) (hp : p ≠ 0) : smul a p = smul b p ↔ a = b := by
  rw [← sub_eq_zero, ← smul_sub' _ _ _ h, smul_eq_zero' _ _ h hp, sub_eq_zero]

variable (c : Curve L P)

theorem not_mem_hexEncode (s : Str) (d : UInt8) (h : ∀ n < 16, Hash.hexDigit n ≠ d) : d ∉ Hash.hexEncode s := by
  induction s with
  | nil => simp [Hash.hexEncode]
  | cons b l ih =>
    have := b.toNat_lt
    simp only [Hash.hexEncode, List.mem_cons, not_or]
    exact ⟨(h _ (by omega)).symm, (h _ (by omega)).symm, ih⟩

theorem hexEncode_ne_nil (s : Str) (h : s.length = 32) : Hash.hexEncode s ≠ [] := by
  cases s with
  | nil => simp at h
  | cons b l => simp [Hash.hexEncode]

theorem delim_hex (s : Str) : delimiter ∉ Hash.hexEncode s := not_mem_hexEncode _ _ (by decide)
theorem elem_hex (s : Str) : elementDelimiter ∉ Hash.hexEncode s := not_mem_hexEncode _ _ (by decide)

theorem delim_point (p : P) : delimiter ∉ pointStr c p := delim_hex _
theorem delim_scalar (a : ZMod L) : delimiter ∉ scalarStr c a := delim_hex _

theorem point_roundtrip (p : P) : fromStringToPoint c (pointStr c p) = .ok p := by
  simp [fromStringToPoint, pointStr, hexDecode_hexEncode, c.decP_encP]

theorem scalar_roundtrip (a : ZMod L) : fromStringToScalar c (scalarStr c a) = .ok a := by
  simp [fromStringToScalar, scalarStr, hexDecode_hexEncode, c.decS_encS]

theorem joinElems_acc (l : List Str) (acc : Str) :
    l.foldl (fun acc s => acc ++ s ++ [elementDelimiter]) acc = acc ++ joinElems l := by
  unfold joinElems
  induction l generalizing acc with
  | nil => simp
  | cons a l ih => simp only [List.foldl_cons]; rw [ih, ih ([] ++ a ++ _)]; simp

theorem joinElems_cons (a : Str) (l : List Str) :
    joinElems (a :: l) = a ++ elementDelimiter :: joinElems l := by
  conv_lhs => unfold joinElems
  simp only [List.foldl_cons]
  rw [joinElems_acc]; simp

theorem split_joinElems (l : List Str) (h : ∀ s ∈ l, elementDelimiter ∉ s) :
    Codec.split elementDelimiter (joinElems l) = l ++ [[]] := by
  induction l with
  | nil => simp [joinElems, Codec.split]
  | cons a l ih =>
    rw [joinElems_cons, Codec.split_append _ _ _ (h a (by simp)), ih (fun s hs => h s (by simp [hs]))]
    simp

theorem parse_joinElems {α} (enc : α → Str) (parse : Str → Out α) (l : List α)
    (h1 : ∀ a, elementDelimiter ∉ enc a) (h2 : ∀ a, enc a ≠ []) (h3 : ∀ a, parse (enc a) = .ok a) :
    parseElems parse (joinElems (l.map enc)) = .ok l := by
  unfold parseElems
  rw [split_joinElems]
  · rw [List.filter_append, List.filter_eq_self.mpr]
    · simp only [ne_eq, decide_not, List.filter_cons, List.filter_nil]
      simp only [decide_true, Bool.not_true, Bool.false_eq_true, if_false, List.append_nil]
      rw [mapOut_eq_ok]
      induction l with
      | nil => simp
      | cons a l ih => simp only [List.map_cons]; exact .cons (h3 a) ih
    · simp [h2]
  · simp [h1]

theorem delim_joinElems (l : List Str) (h : ∀ s ∈ l, delimiter ∉ s) : delimiter ∉ joinElems l := by
  induction l with
  | nil => simp [joinElems]
  | cons a l ih =>
    rw [joinElems_cons]
    simp only [List.mem_append, List.mem_cons, not_or]
    exact ⟨h a (by simp), by decide, ih (fun s hs => h s (by simp [hs]))⟩

/-! ## The ring -/

theorem signerIndex_some {ring : List P} {pk : P} {i : Nat} (h : signerIndex ring pk = some i) :
    ring[i]? = some pk := by
  induction ring generalizing i with
  | nil => simp [signerIndex] at h
  | cons p rest ih =>
    simp only [signerIndex] at h
    split at h
    · rename_i hp; simp at h; subst h; simp [hp]
    · simp only [Option.map_eq_some_iff] at h
      obtain ⟨j, hj, rfl⟩ := h
      simpa using ih hj

theorem signerIndex_none {ring : List P} {pk : P} : signerIndex ring pk = none ↔ pk ∉ ring := by
  induction ring with
  | nil => simp [signerIndex]
  | cons p rest ih =>
    simp only [signerIndex]
    split
    · rename_i hp; simp [hp]
    · rename_i hp; simp only [Option.map_eq_none_iff, ih, List.mem_cons, not_or]
      exact ⟨fun h => ⟨fun e => hp e.symm, h⟩, fun h => h.2⟩

/-- The `u`-th challenge after the start. -/
def chal (x : ZMod L) (msg : Str) (ring : List P) (b : Nat) : Nat → ZMod L
  | 0 => c.createHash (msg ++ pointStr c (smul (genK c x msg) c.G))
  | u + 1 =>
    let i := (b + u) % ring.length
    c.createHash (msg ++ pointStr c (smul (genK c x (msg ++ itoaNat i)) c.G +
      smul (chal x msg ring b u) (ring.getD i 0)))

structure LoopInv (x : ZMod L) (msg : Str) (ring : List P) (b t : Nat)
    (es ss : List (Option (ZMod L))) : Prop where
  les : es.length = ring.length
  lss : ss.length = ring.length
  hes : ∀ u ≤ t, es[(b + u) % ring.length]? = some (some (chal c x msg ring b u))
  hss : ∀ u < t, ss[(b + u) % ring.length]? =
    some (some (genK c x (msg ++ itoaNat ((b + u) % ring.length))))

theorem add_mod_inj {r b u v : Nat} (hu : u < r) (hv : v < r) (h : (b + u) % r = (b + v) % r) : u = v := by
  have h2 : u ≡ v [MOD r] := Nat.ModEq.add_left_cancel' b h
  rwa [Nat.ModEq, Nat.mod_eq_of_lt hu, Nat.mod_eq_of_lt hv] at h2

theorem ringLoop_spec (x : ZMod L) (msg : Str) (ring : List P) (signer b : Nat)
    (hs : signer < ring.length) (hb : b = (signer + 1) % ring.length)
    (fuel t : Nat) (es ss : List (Option (ZMod L))) (ht : t < ring.length) (hf : fuel + t = ring.length)
    (inv : LoopInv c x msg ring b t es ss) :
    ∃ es' ss', ringLoop c x msg ring signer fuel ((b + t) % ring.length) es ss = .ok (es', ss') ∧
      LoopInv c x msg ring b (ring.length - 1) es' ss' := by
  have hr : 0 < ring.length := by omega
  have hlast : (b + (ring.length - 1)) % ring.length = signer := by
    subst hb
    rw [Nat.mod_add_mod]
    have : signer + 1 + (ring.length - 1) = signer + ring.length := by omega
    rw [this, Nat.add_mod_right, Nat.mod_eq_of_lt hs]
  induction fuel generalizing t es ss with
  | zero => omega
  | succ fuel ih =>
    unfold ringLoop
    split
    · rename_i heq
      refine ⟨es, ss, rfl, ?_⟩
      have : t = ring.length - 1 := add_mod_inj ht (by omega) (heq.trans hlast.symm)
      rwa [← this]
    · rename_i hne
      have ht' : t + 1 < ring.length := by
        by_contra hcon
        have : t = ring.length - 1 := by omega
        exact hne (this ▸ hlast)
      set i := (b + t) % ring.length with hi
      have hilt : i < ring.length := Nat.mod_lt _ hr
      have hei : readSlot es i = .ok (chal c x msg ring b t) := by
        unfold readSlot; rw [inv.hes t (le_refl _)]
      have hpi : index ring i = .ok (ring.getD i 0) := by
        unfold index; rw [List.getElem?_eq_getElem hilt]; simp [List.getD, hilt]
      have hnext : (i + 1) % ring.length = (b + (t + 1)) % ring.length := by
        rw [hi, Nat.mod_add_mod, Nat.add_assoc]
      simp only [hei, hpi, Out.bind_ok, hnext]
      apply ih (t + 1) _ _ ht' (by omega)
      refine ⟨by simp [inv.les], by simp [inv.lss], ?_, ?_⟩
      · intro u hu
        rw [List.getElem?_set]
        by_cases hut : u = t + 1
        · subst hut
          rw [if_pos rfl, if_pos (by rw [inv.les]; exact Nat.mod_lt _ hr)]
          rfl
        · rw [if_neg, inv.hes u (by omega)]
          intro h; exact hut (add_mod_inj (by omega) ht' h.symm)
      · intro u hu
        rw [List.getElem?_set]
        by_cases hut : u = t
        · subst hut
          rw [if_pos rfl, if_pos (by rw [inv.lss]; exact hilt)]
        · rw [if_neg, inv.hss u (by omega)]
          intro h; exact hut (add_mod_inj (by omega) ht h.symm)

/-- The challenge met at position `j` of the ring. -/
def chalAt (x : ZMod L) (msg : Str) (ring : List P) (signer j : Nat) : ZMod L :=
  chal c x msg ring ((signer + 1) % ring.length) ((j + ring.length - (signer + 1) % ring.length) % ring.length)

theorem ringSign_spec (x : ZMod L) (msg : Str) (ring : List P) (signer : Nat)
    (h : signerIndex ring (publicKey c x) = some signer) :
    ∃ rs, ringSign c x msg ring = .ok rs ∧ rs.ring = ring ∧ rs.s.length = ring.length ∧
      rs.e = chalAt c x msg ring signer 0 ∧
      (∀ j < ring.length, rs.s[j]? = some (if j = signer then
        genK c x msg - chalAt c x msg ring signer j * x else genK c x (msg ++ itoaNat j))) := by
  have hs : signer < ring.length := by
    have := signerIndex_some h
    exact (List.getElem?_eq_some_iff.mp this).1
  have hr : 0 < ring.length := by omega
  set b := (signer + 1) % ring.length with hb
  have hblt : b < ring.length := Nat.mod_lt _ hr
  obtain ⟨es, ss, hloop, inv⟩ := ringLoop_spec c x msg ring signer b hs hb ring.length 0
    ((List.replicate ring.length none).set b
      (some (c.createHash (msg ++ pointStr c (smul (genK c x msg) c.G)))))
    (List.replicate ring.length none) hr (by omega)
    (by
      refine ⟨by simp, by simp, ?_, by intro u hu; omega⟩
      intro u hu
      have : u = 0 := by omega
      subst this
      rw [Nat.add_zero, Nat.mod_eq_of_lt hblt, List.getElem?_set, if_pos rfl,
        if_pos (by simpa using hblt)]
      rfl)
  rw [Nat.add_zero, Nat.mod_eq_of_lt hblt] at hloop
  have hpos : ∀ j < ring.length, (b + (j + ring.length - b) % ring.length) % ring.length = j := by
    intro j hj
    rw [Nat.add_mod_mod]
    have : b + (j + ring.length - b) = j + ring.length := by omega
    rw [this, Nat.add_mod_right, Nat.mod_eq_of_lt hj]
  have hes : ∀ j < ring.length, es[j]? = some (some (chalAt c x msg ring signer j)) := by
    intro j hj
    have := inv.hes ((j + ring.length - b) % ring.length) (by
      have := Nat.mod_lt (j + ring.length - b) hr; omega)
    rwa [hpos j hj] at this
  have hss : ∀ j < ring.length, j ≠ signer → ss[j]? = some (some (genK c x (msg ++ itoaNat j))) := by
    intro j hj hne
    have hlt := Nat.mod_lt (j + ring.length - b) hr
    have := inv.hss ((j + ring.length - b) % ring.length) (by
      rcases Nat.lt_or_ge ((j + ring.length - b) % ring.length) (ring.length - 1) with h1 | h1
      · exact h1
      · exfalso
        apply hne
        have h2 : (j + ring.length - b) % ring.length = ring.length - 1 := by omega
        have h3 := hpos j hj
        rw [h2, hb, Nat.mod_add_mod] at h3
        have h4 : signer + 1 + (ring.length - 1) = signer + ring.length := by omega
        rw [h4, Nat.add_mod_right, Nat.mod_eq_of_lt hs] at h3
        exact h3.symm)
    rwa [hpos j hj] at this
  have hread : ∀ j < ring.length, readSlot es j = .ok (chalAt c x msg ring signer j) := by
    intro j hj; unfold readSlot; rw [hes j hj]
  let f : Nat → ZMod L := fun j => if j = signer then
        genK c x msg - chalAt c x msg ring signer j * x else genK c x (msg ++ itoaNat j)
  have hmap : mapOut nonNil
      (ss.set signer (some (genK c x msg - chalAt c x msg ring signer signer * x))) =
      .ok ((List.range ring.length).map f) := by
    have : ss.set signer (some (genK c x msg - chalAt c x msg ring signer signer * x)) =
        (List.range ring.length).map (fun j => some (f j)) := by
      apply List.ext_getElem?
      intro j
      rw [List.getElem?_set]
      by_cases hj : j < ring.length
      · rw [List.getElem?_map, List.getElem?_range hj]
        by_cases hjs : signer = j
        · subst hjs
          rw [if_pos rfl, if_pos (by rw [inv.lss]; exact hj)]
          simp [f]
        · rw [if_neg hjs, hss j hj (fun e => hjs e.symm)]
          simp only [f, Option.map_some]; rw [if_neg (fun e => hjs e.symm)]
      · rw [if_neg (by omega), List.getElem?_eq_none (by rw [inv.lss]; omega),
          List.getElem?_eq_none (by simp; omega)]
    rw [this, mapOut_eq_ok]
    generalize List.range ring.length = l
    induction l with
    | nil => simp
    | cons a l ih => simp only [List.map_cons]; exact .cons rfl ih
  refine ⟨⟨ring, (List.range ring.length).map f, chalAt c x msg ring signer 0⟩, ?_, rfl, by simp, rfl, ?_⟩
  · unfold ringSign
    simp only [h, ← hb, hloop, Out.bind_ok, hread signer hs, hmap, hread 0 hr, Out.pure_eq]
  · intro j hj
    simp [hj, f]

/-- The step of the verification at position `j` maps the challenge at `j` to the challenge at the next
position. -/
theorem chalAt_step (x : ZMod L) (msg : Str) (ring : List P) (signer j : Nat)
    (h : signerIndex ring (publicKey c x) = some signer) (hj : j < ring.length) :
    c.createHash (msg ++ pointStr c (smul (if j = signer then
        genK c x msg - chalAt c x msg ring signer j * x else genK c x (msg ++ itoaNat j)) c.G +
      smul (chalAt c x msg ring signer j) (ring.getD j 0))) =
    chalAt c x msg ring signer ((j + 1) % ring.length) := by
  have hsi := signerIndex_some h
  have hs : signer < ring.length := (List.getElem?_eq_some_iff.mp hsi).1
  have hr : 0 < ring.length := by omega
  set b := (signer + 1) % ring.length with hb
  have hblt : b < ring.length := Nat.mod_lt _ hr
  by_cases hjs : j = signer
  · subst hjs
    rw [if_pos rfl]
    have hg : ring.getD j 0 = publicKey c x := by simp [List.getD, hsi]
    rw [hg, publicKey, ← smul_mul' _ _ _ c.G_order, ← smul_add' _ _ _ c.G_order, sub_add_cancel]
    unfold chalAt
    rw [← hb, Nat.add_comm b ring.length, Nat.add_sub_cancel, Nat.mod_self]
    rfl
  · rw [if_neg hjs]
    have hstep : ((j + 1) % ring.length + ring.length - b) % ring.length =
        (j + ring.length - b) % ring.length + 1 := by
      have hb' : (signer + 1 < ring.length ∧ b = signer + 1) ∨ (signer + 1 = ring.length ∧ b = 0) := by
        rcases Nat.lt_or_ge (signer + 1) ring.length with h1 | h1
        · exact .inl ⟨h1, Nat.mod_eq_of_lt h1⟩
        · have h2 : signer + 1 = ring.length := by omega
          exact .inr ⟨h2, by rw [hb, h2, Nat.mod_self]⟩
      have key : ∀ m n : Nat, m < ring.length → (m = n ∨ m + ring.length = n) → n % ring.length = m := by
        rintro m n hm (rfl | rfl)
        · exact Nat.mod_eq_of_lt hm
        · rw [Nat.add_mod_right, Nat.mod_eq_of_lt hm]
      rcases Nat.lt_or_ge (j + 1) ring.length with h1 | h1
      · rw [Nat.mod_eq_of_lt h1]
        rcases hb' with ⟨h2, h3⟩ | ⟨h2, h3⟩
        · by_cases hle : b ≤ j
          · rw [key (j + 1 - b) _ (by omega) (by omega), key (j - b) _ (by omega) (by omega)]; omega
          · rw [key (j + 1 + ring.length - b) _ (by omega) (by omega),
              key (j + ring.length - b) _ (by omega) (by omega)]; omega
        · rw [key (j + 1) _ (by omega) (by omega), key j _ (by omega) (by omega)]
      · have h4 : j + 1 = ring.length := by omega
        have h5 : (j + 1) % ring.length = 0 := by rw [h4, Nat.mod_self]
        rcases hb' with ⟨h2, h3⟩ | ⟨h2, h3⟩
        · rw [h5, key (ring.length - b) _ (by omega) (by omega), key (j - b) _ (by omega) (by omega)]; omega
        · omega
    have hpos : (b + (j + ring.length - b) % ring.length) % ring.length = j := by
      rw [Nat.add_mod_mod]
      have : b + (j + ring.length - b) = j + ring.length := by omega
      rw [this, Nat.add_mod_right, Nat.mod_eq_of_lt hj]
    conv_rhs => unfold chalAt
    rw [← hb, hstep]
    conv_rhs => unfold chal
    simp only [hpos]
    rfl

theorem verifyLoop_drop (msg : Str) (ring : List P) (s : List (ZMod L)) (ch : Nat → ZMod L) (i n : Nat)
    (hn : i + n = ring.length)
    (hs : ∀ j < ring.length, ∃ v, s[j]? = some v ∧
      c.createHash (msg ++ pointStr c (smul v c.G + smul (ch j) (ring.getD j 0))) = ch (j + 1)) :
    verifyLoop c msg s i (ring.drop i) (ch i) = .ok (ch ring.length) := by
  induction n generalizing i with
  | zero =>
    have : i = ring.length := by omega
    subst this; simp [verifyLoop]
  | succ n ih =>
    have hi : i < ring.length := by omega
    rw [List.drop_eq_getElem_cons hi]
    obtain ⟨v, hv, he⟩ := hs i hi
    simp only [verifyLoop, index, hv, Out.bind_ok]
    have hg : ring.getD i 0 = ring[i] := by simp [List.getD, hi]
    rw [hg] at he
    rw [he]
    exact ih (i + 1) (by omega)

/-- A prefix of the verification loop. -/
theorem verifyLoop_take (msg : Str) (ring : List P) (s : List (ZMod L)) (ch : Nat → ZMod L) (i : Nat)
    (hi : i ≤ ring.length)
    (hs : ∀ j < i, ∃ v, s[j]? = some v ∧
      c.createHash (msg ++ pointStr c (smul v c.G + smul (ch j) (ring.getD j 0))) = ch (j + 1)) :
    verifyLoop c msg s 0 (ring.take i) (ch 0) = .ok (ch i) := by
  have hlen : (ring.take i).length = i := by simp [hi]
  have := verifyLoop_drop c msg (ring.take i) s ch 0 i (by simp [hi]) (by
    intro j hj
    rw [hlen] at hj
    obtain ⟨v, hv, he⟩ := hs j hj
    refine ⟨v, hv, ?_⟩
    rw [← he]
    simp [List.getD, hj])
  rw [List.drop_zero, hlen] at this
  exact this

end Verif.Signature
