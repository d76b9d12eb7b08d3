import Verif.Spec.HashTree
import Verif.Lemmas.Hash
import Mathlib.Data.Nat.Bitwise
import Mathlib.Algebra.Order.Ring.Nat
import Mathlib.Tactic.Ring
import Mathlib.Tactic.Positivity
import Mathlib.Tactic.NormNum

namespace Verif.HashTree
open Verif

variable (sha : Str → Hash)

/-- Perfect binary tree of the given height with correct interior digests. -/
inductive WF : Nat → Leaf → Prop
  | plain (h) : WF 0 (.plain h)
  | node {k l r} : WF k l → WF k r → WF (k+1) (.withParent (childHead sha l r) l r)

variable {sha}

theorem WF.height {k l} (h : WF sha k l) : l.height = k := by
  induction h with
  | plain => rfl
  | node _ _ ih _ => simp [Leaf.height, ih]

theorem WF.length {k l} (h : WF sha k l) : l.leaves.length = 2 ^ k := by
  induction h with
  | plain => rfl
  | node _ _ ih1 ih2 => simp [Leaf.leaves, ih1, ih2, pow_succ]; omega

theorem length_append_bytes (a b : Hash) : (a.bytes ++ b.bytes).length = 128 := by
  simp [Hash.bytes, a.2, b.2]

theorem fromBytes_pair (a b : Hash) :
    Hash.fromBytes sha (a.bytes ++ b.bytes) = sha (a.bytes ++ b.bytes) := by
  have := length_append_bytes a b
  simp only [Hash.fromBytes]; rw [dif_neg (by omega)]

/-- Collision between members of two lists. -/
def CollIn (sha : Str → Hash) (s t : List Str) : Prop := ∃ x ∈ s, ∃ y ∈ t, x ≠ y ∧ sha x = sha y

theorem CollIn.mono {s s' t t' : List Str} (h : CollIn sha s t) (hs : s ⊆ s') (ht : t ⊆ t') :
    CollIn sha s' t' := by
  obtain ⟨x, hx, y, hy, h⟩ := h
  exact ⟨x, hs hx, y, ht hy, h⟩

theorem pair_binding {a b c d : Hash}
    (h : Hash.fromBytes sha (a.bytes ++ b.bytes) = Hash.fromBytes sha (c.bytes ++ d.bytes)) :
    (a = c ∧ b = d) ∨ CollIn sha [a.bytes ++ b.bytes] [c.bytes ++ d.bytes] := by
  rw [fromBytes_pair, fromBytes_pair] at h
  by_cases e : a.bytes ++ b.bytes = c.bytes ++ d.bytes
  · left
    obtain ⟨h1, h2⟩ := List.append_inj e (by simp [Hash.bytes, a.2, c.2])
    exact ⟨Subtype.ext h1, Subtype.ext h2⟩
  · right
    exact ⟨_, by simp, _, by simp, e, h⟩

theorem WF.binding {k l m} (h : WF sha k l) (g : WF sha k m) (e : l.head = m.head) :
    l = m ∨ CollIn sha (hashedBelow l) (hashedBelow m) := by
  induction h generalizing m with
  | plain h => cases g; simp [Leaf.head] at e; simp [e]
  | node hl hr ihl ihr =>
    cases g with
    | node gl gr =>
      simp only [Leaf.head, childHead] at e
      rcases pair_binding e with ⟨e1, e2⟩ | c
      · rcases ihl gl e1 with e1 | c
        · rcases ihr gr e2 with e2 | c
          · left; simp [e1, e2]
          · exact .inr (c.mono (by simp [hashedBelow]) (by simp [hashedBelow]))
        · refine .inr (c.mono ?_ ?_) <;> intro x hx <;> simp [hashedBelow, hx]
      · refine .inr (c.mono ?_ ?_) <;> intro x hx <;> rw [List.mem_singleton] at hx <;> subst hx <;>
          exact List.mem_cons_self

theorem childrenLeaves_spec (n : Nat) (ls : List Leaf) (hlen : ls.length = 2 * n) {j : Nat}
    (h : ∀ l ∈ ls, WF sha j l) :
    ∃ cs, childrenLeaves sha ls = .ok cs ∧ cs.length = n ∧ (∀ c ∈ cs, WF sha (j+1) c) ∧
      cs.flatMap Leaf.leaves = ls.flatMap Leaf.leaves := by
  induction n generalizing ls with
  | zero => 
    have : ls = [] := List.length_eq_zero_iff.mp (by omega)
    subst this; exact ⟨[], rfl, rfl, by simp, rfl⟩
  | succ n ih =>
    match ls, hlen with
    | l :: r :: rest, hlen =>
      obtain ⟨cs, h1, h2, h3, h4⟩ := ih rest (by simp at hlen; omega)
        (fun x hx => h x (by simp [hx]))
      refine ⟨_, by simp only [childrenLeaves, h1, Out.bind_ok, Out.pure_eq]; rfl, by simp [h2], ?_, ?_⟩
      · intro c hc
        rcases List.mem_cons.mp hc with hc | hc
        · subst hc; exact .node (h l (by simp)) (h r (by simp))
        · exact h3 c hc
      · simp [Leaf.leaves, h4]

theorem treeAux_spec (k fuel : Nat) (ls : List Leaf) (hlen : ls.length = 2 ^ (k+1)) (hf : k < fuel)
    {j : Nat} (h : ∀ l ∈ ls, WF sha j l) :
    ∃ t, treeAux sha fuel ls = .ok t ∧ WF sha (j+k) t.left ∧ WF sha (j+k) t.right ∧
      t.head = Hash.fromBytes sha (t.left.head.bytes ++ t.right.head.bytes) ∧
      t.blockLeaves = ls.flatMap Leaf.leaves := by
  induction k generalizing fuel ls j with
  | zero =>
    match fuel, hf with
    | fuel+1, _ =>
      match ls, hlen with
      | [l, r], _ =>
        exact ⟨_, rfl, h l (by simp), h r (by simp), rfl, by simp [Tree.blockLeaves]⟩
  | succ k ih =>
    match fuel, hf with
    | fuel+1, hf =>
      obtain ⟨cs, h1, h2, h3, h4⟩ := childrenLeaves_spec (2 ^ (k+1)) ls (by rw [hlen]; ring) h
      have hne : ∀ l r, ls ≠ [l, r] := by
        intro l r e; subst e; simp at hlen
        have : 2 ^ (k+1+1) = 4 * 2 ^ k := by ring
        have : 0 < 2 ^ k := by positivity
        omega
      have hstep : treeAux sha (fuel+1) ls = treeAux sha fuel cs := by
        rw [treeAux]
        · rw [h1]; rfl
        · intro l r e; exact hne l r e
      obtain ⟨t, t1, t2, t3, t4, t5⟩ := ih fuel cs h2 (by omega) h3
      refine ⟨t, by rw [hstep, t1], ?_, ?_, t4, by rw [t5, h4]⟩
      · rwa [show j + (k+1) = j + 1 + k by omega]
      · rwa [show j + (k+1) = j + 1 + k by omega]

theorem isLengthPowerOfTwo_iff (n : Nat) : isLengthPowerOfTwo n = true ↔ ∃ k, n = 2 ^ k := by
  unfold isLengthPowerOfTwo
  simp only [Bool.and_eq_true, bne_iff_ne, ne_eq, beq_iff_eq]
  constructor
  · rintro ⟨h0, h⟩
    exact (Nat.and_sub_one_eq_zero_iff_isPowerOfTwo h0).mp h
  · rintro ⟨k, rfl⟩
    have h0 : 2 ^ k ≠ 0 := by positivity
    exact ⟨h0, (Nat.and_sub_one_eq_zero_iff_isPowerOfTwo h0).mpr ⟨k, rfl⟩⟩

/-- The hash list after padding. -/
theorem blockFromData_spec (data : List Str) (h : data ≠ []) :
    ∃ k, blockFromData sha data =
        data.map (Hash.fromBytes sha) ++
          List.replicate (2 ^ (k+1) - data.length) (Hash.fromBytes sha []) ∧
      data.length ≤ 2 ^ (k+1) ∧ (∀ m, 2 ≤ 2 ^ m → data.length ≤ 2 ^ m → k + 1 ≤ m) := by
  match data, h with
  | [x], _ =>
    refine ⟨0, by simp [blockFromData, resize, isLengthPowerOfTwo], by simp, ?_⟩
    intro m hm _
    cases m with
    | zero => simp at hm
    | succ m => omega
  | x :: y :: rest, _ =>
    have hl : ¬ (x :: y :: rest).length ≤ 1 := by simp
    generalize hd : x :: y :: rest = data at *
    have h2 : 2 ≤ data.length := by subst hd; simp
    have hb : blockFromData sha data = resize sha (data.map (Hash.fromBytes sha)) := by
      simp only [blockFromData]; rw [if_neg hl]
    rw [hb, resize]
    simp only [List.length_map]
    have key : ∀ m, 2 ≤ 2 ^ m → data.length ≤ 2 ^ m → Nat.clog 2 data.length ≤ m :=
      fun m _ hm => Nat.clog_le_of_le_pow hm
    have hc : data.length ≤ 2 ^ Nat.clog 2 data.length := Nat.le_pow_clog (by omega) _
    have hpos : 0 < Nat.clog 2 data.length := Nat.clog_pos (by omega) h2
    obtain ⟨k, hk⟩ : ∃ k, Nat.clog 2 data.length = k + 1 := ⟨_, (Nat.succ_pred_eq_of_pos hpos).symm⟩
    rw [hk] at hc key
    refine ⟨k, ?_, hc, key⟩
    split
    · rename_i hp
      obtain ⟨p, hp⟩ := (isLengthPowerOfTwo_iff _).mp hp
      have : Nat.clog 2 data.length = p := by rw [hp]; exact Nat.clog_pow 2 p (by omega)
      have : data.length = 2 ^ (k+1) := by rw [hp, ← this, hk]
      simp [this]
    · rw [hk]

theorem build_spec (data : List Str) (h : data ≠ []) :
    ∃ k t, build sha (some data) = .ok t ∧ WF sha k t.left ∧ WF sha k t.right ∧
      t.head = Hash.fromBytes sha (t.left.head.bytes ++ t.right.head.bytes) ∧
      t.blockLeaves = (data.map (Hash.fromBytes sha) ++
          List.replicate (2 ^ (k+1) - data.length) (Hash.fromBytes sha [])).map Leaf.plain ∧
      data.length ≤ 2 ^ (k+1) ∧ (∀ m, 2 ≤ 2 ^ m → data.length ≤ 2 ^ m → k + 1 ≤ m) := by
  obtain ⟨k, hb, hl, hm⟩ := blockFromData_spec (sha := sha) data h
  have hlen : ((blockFromData sha data).map Leaf.plain).length = 2 ^ (k+1) := by
    rw [hb]; simp; omega
  obtain ⟨t, t1, t2, t3, t4, t5⟩ := treeAux_spec (sha := sha) k ((blockFromData sha data).length + 1) _ hlen
    (by
      have : k + 1 < 2 ^ (k+1) := Nat.lt_two_pow_self
      simp at hlen; omega) (j := 0)
    (by intro l hl; obtain ⟨a, _, rfl⟩ := List.mem_map.mp hl; exact .plain _)
  refine ⟨k, t, t1, by simpa using t2, by simpa using t3, t4, ?_, hl, hm⟩
  rw [t5, hb]
  simp only [List.flatMap_def, List.map_map]
  induction (List.map (Hash.fromBytes sha) data ++ List.replicate (2 ^ (k + 1) - data.length) (Hash.fromBytes sha [])) with
  | nil => rfl
  | cons a l ih => simp only [List.map_cons, List.flatten_cons, ih]; simp [Leaf.leaves]

theorem lookup_reverse_isSome {α β} [BEq α] [LawfulBEq α] (kv : List (α × β)) (k : α) :
    ((mapFrom kv).lookup k).isSome ↔ k ∈ kv.map Prod.fst := by
  unfold mapFrom
  rw [← List.mem_reverse, ← List.map_reverse]
  induction kv.reverse with
  | nil => simp
  | cons p l ih =>
    obtain ⟨a, b⟩ := p
    simp only [List.lookup_cons, List.map_cons, List.mem_cons]
    by_cases e : k = a
    · simp [e]
    · simp [e, beq_eq_false_iff_ne.mpr e, ih]

theorem lookup_mem {α β} [BEq α] [LawfulBEq α] (kv : List (α × β)) (k : α) (v : β)
    (h : kv.lookup k = some v) : (k, v) ∈ kv := by
  induction kv with
  | nil => simp at h
  | cons p l ih =>
    obtain ⟨a, b⟩ := p
    simp only [List.lookup_cons] at h
    by_cases e : k = a
    · subst e; simp at h; simp [h]
    · simp [beq_eq_false_iff_ne.mpr e] at h; simp [ih h]

/-- The heads of the leaves. -/
theorem heads_map_plain (l : List Hash) : (l.map Leaf.plain).map Leaf.head = l := by
  induction l with
  | nil => rfl
  | cons a l ih => simp only [List.map_cons, ih]; rfl

theorem lookup_some_of_mem {α β} [BEq α] [LawfulBEq α] (kv : List (α × β)) (k : α) (v : β)
    (hm : (k, v) ∈ kv) (huniq : ∀ w, (k, w) ∈ kv → w = v) : (mapFrom kv).lookup k = some v := by
  have h1 : ((mapFrom kv).lookup k).isSome :=
    (lookup_reverse_isSome kv k).mpr (List.mem_map.mpr ⟨_, hm, rfl⟩)
  obtain ⟨w, hw⟩ := Option.isSome_iff_exists.mp h1
  have := lookup_mem _ _ _ hw
  rw [mapFrom, List.mem_reverse] at this
  rw [hw, huniq w this]

theorem filterMap_eq_of_forall {α β γ} (g : γ → α) (f : α → Option β) (h : γ → β) (l : List γ)
    (e : ∀ x ∈ l, f (g x) = some (h x)) : (l.map g).filterMap f = l.map h := by
  induction l with
  | nil => rfl
  | cons a l ih =>
    simp only [List.map_cons, List.filterMap_cons, e a (by simp)]
    rw [ih (fun x hx => e x (by simp [hx]))]

/-! Explicit trees of few blocks. -/

theorem build_nil : build sha (some []) = .panic := by
  simp [build, treeFromBlocks, blockFromData, resize, isLengthPowerOfTwo, treeAux, childrenLeaves]

theorem build_two (a b : Str) : build sha (some [a, b]) = .ok
    ⟨Hash.fromBytes sha ((Hash.fromBytes sha a).bytes ++ (Hash.fromBytes sha b).bytes),
      .plain (Hash.fromBytes sha a), .plain (Hash.fromBytes sha b)⟩ := by
  simp [build, treeFromBlocks, blockFromData, resize, isLengthPowerOfTwo, treeAux, Leaf.head]

theorem build_one (a : Str) : build sha (some [a]) = build sha (some [a, []]) := by
  simp [build, treeFromBlocks, blockFromData, resize, isLengthPowerOfTwo]

theorem build_four (a b c d : Str) : build sha (some [a, b, c, d]) = .ok
    (let n := fun x y => Leaf.withParent
        (childHead sha (.plain (Hash.fromBytes sha x)) (.plain (Hash.fromBytes sha y)))
        (.plain (Hash.fromBytes sha x)) (.plain (Hash.fromBytes sha y))
     ⟨Hash.fromBytes sha ((n a b).head.bytes ++ (n c d).head.bytes), n a b, n c d⟩) := by
  simp [build, treeFromBlocks, blockFromData, resize, isLengthPowerOfTwo, treeAux, childrenLeaves]

theorem clog_three : Nat.clog 2 3 = 2 := by
  apply le_antisymm
  · exact Nat.clog_le_of_le_pow (by norm_num)
  · exact (Nat.lt_clog_iff_pow_lt (by norm_num)).mpr (by norm_num)

theorem build_three (a b c : Str) : build sha (some [a, b, c]) = build sha (some [a, b, c, []]) := by
  simp [build, treeFromBlocks, blockFromData, resize, isLengthPowerOfTwo, clog_three]

end Verif.HashTree
