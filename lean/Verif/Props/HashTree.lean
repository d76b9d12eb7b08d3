import Verif.Lemmas.HashTree
import Verif.Props.Hash
import Mathlib.Order.Bounds.Basic
import Mathlib.Data.List.Nodup

/-!
# Properties C05–C11 (`domain/hashtree`)
-/

namespace Verif.HashTree
open Verif

/-- A concrete digest used only to show that hypotheses can be met: pads or truncates to 64 bytes after
a length byte. -/
def toySha (b : Str) : Hash :=
  ⟨((UInt8.ofNat b.length :: b) ++ List.replicate 64 0).take 64, by simp⟩

/-! ## C05 -/

/-- C05: for every non-empty block list the tree is built; its length is the least power of two that is
at least 2 and at least the number of blocks, and its height is one more than the logarithm. -/
theorem C05_shape (sha : Str → Hash) (blocks : List Str) (h : blocks ≠ []) :
    ∃ t, build sha (some blocks) = .ok t ∧
      IsLeast {m | (∃ k, m = 2 ^ k) ∧ 2 ≤ m ∧ blocks.length ≤ m} t.length ∧
      ∃ k, t.length = 2 ^ k ∧ t.height = k + 1 := by
  obtain ⟨k, t, h1, h2, h3, h4, h5, h6, h7⟩ := build_spec (sha := sha) blocks h
  have hl : t.length = 2 ^ (k+1) := by
    simp [Tree.length, Tree.blockLeaves, h2.length, h3.length, pow_succ]; omega
  refine ⟨t, h1, ⟨⟨⟨_, hl⟩, ?_, ?_⟩, ?_⟩, k+1, hl, by simp [Tree.height, h2.height]⟩
  · rw [hl, pow_succ]; have : 0 < 2 ^ k := by positivity
    omega
  · rw [hl]; exact h6
  · rintro m ⟨⟨j, rfl⟩, hm2, hm3⟩
    rw [hl]
    exact Nat.pow_le_pow_right (by omega) (h7 j hm2 hm3)

example : [lit "this", lit "is", lit "data"] ≠ [] := by decide

/-! ## C06 -/

/-- C06: the leaves are the block hashes in order, then only hashes of the empty block. -/
theorem C06_leaves (sha : Str → Hash) (blocks : List Str) (t : Tree)
    (h : build sha (some blocks) = .ok t) :
    ∃ n, t.compact = (t.head, blocks.map (Hash.fromBytes sha) ++ List.replicate n (sha [])) := by
  by_cases hb : blocks = []
  · subst hb; simp [build, treeFromBlocks, blockFromData, resize, isLengthPowerOfTwo, treeAux,
      childrenLeaves] at h
  · obtain ⟨k, t', h1, h2, h3, h4, h5, h6, h7⟩ := build_spec (sha := sha) blocks hb
    rw [h1] at h; cases h
    refine ⟨2 ^ (k+1) - blocks.length, ?_⟩
    rw [Tree.compact, h5, heads_map_plain]
    simp [Hash.fromBytes]

example : (build toySha (some [lit "a", lit "b", lit "c"])).isOk = true := by decide

/-! ## C07 -/

/-- C07: trees of equal length with equal heads have equal leaves, or two different strings with one SHA-512
value are found among the strings hashed for the interior nodes of the two trees. -/
theorem C07_head_binds_leaves (sha : Str → Hash) (b c : List Str) (t u : Tree)
    (hb : build sha (some b) = .ok t) (hc : build sha (some c) = .ok u)
    (hlen : t.length = u.length) (hhead : t.head = u.head) :
    t.compact = u.compact ∨ TreeCollision sha t u := by
  have nb : b ≠ [] := by
    rintro rfl; simp [build, treeFromBlocks, blockFromData, resize, isLengthPowerOfTwo, treeAux,
      childrenLeaves] at hb
  have nc : c ≠ [] := by
    rintro rfl; simp [build, treeFromBlocks, blockFromData, resize, isLengthPowerOfTwo, treeAux,
      childrenLeaves] at hc
  obtain ⟨k, t', t1, t2, t3, t4, -⟩ := build_spec (sha := sha) b nb
  obtain ⟨j, u', u1, u2, u3, u4, -⟩ := build_spec (sha := sha) c nc
  rw [t1] at hb; cases hb
  rw [u1] at hc; cases hc
  have hkj : k = j := by
    have h1 : t.length = 2 ^ (k+1) := by
      simp [Tree.length, Tree.blockLeaves, t2.length, t3.length, pow_succ]; omega
    have h2 : u.length = 2 ^ (j+1) := by
      simp [Tree.length, Tree.blockLeaves, u2.length, u3.length, pow_succ]; omega
    rw [h1, h2] at hlen
    have := Nat.pow_right_injective (le_refl 2) hlen
    omega
  subst hkj
  rw [t4, u4] at hhead
  rcases pair_binding hhead with ⟨e1, e2⟩ | c
  · rcases t2.binding u2 e1 with e1 | c
    · rcases t3.binding u3 e2 with e2 | c
      · left
        simp only [Tree.compact, Tree.blockLeaves, e1, e2, Prod.mk.injEq, and_true]
        rw [t4, u4, e1, e2]
      · refine .inr (c.mono ?_ ?_) <;> intro x hx <;> simp [hashedStrings, hx]
    · refine .inr (c.mono ?_ ?_) <;> intro x hx <;> simp [hashedStrings, hx]
  · refine .inr (c.mono ?_ ?_) <;> intro x hx <;> simp at hx <;> simp [hashedStrings, hx]

/-- C07: so, for a digest function without collisions among the strings hashed for two trees, the head together
with the number of leaves binds all leaves. -/
theorem C07_head_binds_leaves_injective (sha : Str → Hash) (b c : List Str) (t u : Tree)
    (hb : build sha (some b) = .ok t) (hc : build sha (some c) = .ok u)
    (hinj : ∀ x ∈ hashedStrings t, ∀ y ∈ hashedStrings u, sha x = sha y → x = y)
    (hlen : t.length = u.length) (hhead : t.head = u.head) : t.compact = u.compact := by
  rcases C07_head_binds_leaves sha b c t u hb hc hlen hhead with h | ⟨x, hx, y, hy, hne, e⟩
  · exact h
  · exact absurd (hinj x hx y hy e) hne

example : (build toySha (some [lit "a", lit "b", lit "c"])).isOk = true ∧
    ∃ t u, build toySha (some [lit "a", lit "b", lit "c"]) = .ok t ∧
      build toySha (some [lit "a", lit "b", lit "c", []]) = .ok u ∧ t.length = u.length ∧ t.head = u.head := by
  refine ⟨by decide, _, _, (build_three _ _ _).trans (build_four _ _ _ _), build_four _ _ _ _, rfl, rfl⟩

/-! ## C08 -/

/-- C08 (violation): if the number of blocks is one or no power of two, an empty block can be
appended without changing anything observable: the same tree is built. -/
theorem C08_append_empty_block (sha : Str → Hash) (blocks : List Str) (h : blocks ≠ [])
    (hn : blocks.length = 1 ∨ ¬ ∃ k, blocks.length = 2 ^ k) :
    build sha (some (blocks ++ [[]])) = build sha (some blocks) := by
  have key : blockFromData sha (blocks ++ [[]]) = blockFromData sha blocks := by
    have hl : 2 ≤ (blocks ++ [[]]).length := by
      have : 0 < blocks.length := List.length_pos_iff.mpr h
      simp; omega
    obtain ⟨k, e1, e2, e3⟩ := blockFromData_spec (sha := sha) blocks h
    obtain ⟨j, f1, f2, f3⟩ := blockFromData_spec (sha := sha) (blocks ++ [[]]) (by simp)
    have hlt : blocks.length < 2 ^ (k+1) := by
      rcases hn with hn | hn
      · rw [hn, pow_succ]; have : 0 < 2 ^ k := by positivity
        omega
      · exact lt_of_le_of_ne e2 (fun e => hn ⟨_, e⟩)
    have h2 : ∀ i, 2 ≤ 2 ^ (i+1) := fun i => by
      rw [pow_succ]; have : 0 < 2 ^ i := by positivity
      omega
    have kj : k + 1 = j + 1 := le_antisymm (e3 (j+1) (h2 j) (by simp at f2; omega))
      (f3 (k+1) (h2 k) (by simp; omega))
    rw [e1, f1, ← kj]
    simp only [List.map_append, List.map_cons, List.map_nil, List.length_append, List.length_cons,
      List.length_nil, List.append_assoc]
    congr 1
    rw [show 2 ^ (k+1) - blocks.length = (2 ^ (k+1) - (blocks.length + (0+1))) + 1 by omega,
      List.replicate_succ]
    rfl
  simp [build, treeFromBlocks, key]

example : [lit "a", lit "b", lit "c"] ≠ [] ∧ ¬ ∃ k, [lit "a", lit "b", lit "c"].length = 2 ^ k := by
  refine ⟨by decide, ?_⟩
  rintro ⟨k, hk⟩
  match k, hk with
  | 0, hk => simp at hk
  | k+1, hk => simp [pow_succ] at hk; omega

/-- C08 (violation): the tree over the 64-byte digests of the first level of pairs has the head of the original
tree although it has other blocks and half the leaves. -/
theorem C08_interior_as_blocks (sha : Str → Hash) (a b c d : Str) :
    let digest := fun x y : Str =>
      (Hash.fromBytes sha ((Hash.fromBytes sha x).bytes ++ (Hash.fromBytes sha y).bytes)).bytes
    ∃ t u, build sha (some [a, b, c, d]) = .ok t ∧ build sha (some [digest a b, digest c d]) = .ok u ∧
      t.head = u.head ∧ t.length = 4 ∧ u.length = 2 := by
  refine ⟨_, _, build_four _ _ _ _, build_two _ _, ?_, rfl, rfl⟩
  simp [Leaf.head, childHead, fromBytes_bytes]

/-- C08 (violation, in short): the head does not determine the blocks, for any digest. -/
theorem C08_head_not_binding (sha : Str → Hash) :
    ∃ b c t u, b ≠ c ∧ build sha (some b) = .ok t ∧ build sha (some c) = .ok u ∧ t.head = u.head := by
  refine ⟨[lit "x"], [lit "x", []], _, _, by decide, (build_one _).trans (build_two _ _), build_two _ _, rfl⟩

/-! ## C09 -/

/-- C09: `Order` puts any permutation of the blocks back in the original order. -/
theorem C09_order_restores (sha : Str → Hash) (blocks data : List Str) (t : Tree)
    (ht : build sha (some blocks) = .ok t)
    (hnodup : (blocks.map (Hash.fromBytes sha)).Nodup)
    (hfill : sha [] ∉ blocks.map (Hash.fromBytes sha))
    (hperm : data.Perm blocks) :
    order sha t data = .ok blocks := by
  obtain ⟨n, hn⟩ := C06_leaves sha blocks t ht
  have hleaves : t.blockLeaves.map Leaf.head =
      blocks.map (Hash.fromBytes sha) ++ List.replicate n (sha []) := by
    simpa [Tree.compact] using hn
  set hashed := mapFrom (data.map (fun d => ((Hash.fromBytes sha d).toStr, d))) with hh
  have e1 : t.blockLeaves.filterMap (fun lf => hashed.lookup lf.head.toStr) =
      (t.blockLeaves.map Leaf.head).filterMap (fun x => hashed.lookup x.toStr) := by
    rw [List.filterMap_map]; rfl
  have e2 : (List.map (Hash.fromBytes sha) blocks).filterMap (fun x => hashed.lookup x.toStr) = blocks := by
    rw [filterMap_eq_of_forall (Hash.fromBytes sha) _ id]
    · simp
    · intro x hx
      apply lookup_some_of_mem
      · exact List.mem_map.mpr ⟨x, hperm.mem_iff.mpr hx, rfl⟩
      · intro w hw
        obtain ⟨d, hd, he⟩ := List.mem_map.mp hw
        simp only [Prod.mk.injEq] at he
        obtain ⟨he, rfl⟩ := he
        have := C01_hash_text_injective _ _ he
        exact List.inj_on_of_nodup_map hnodup (hperm.mem_iff.mp hd) hx this
  have e3 : hashed.lookup (sha []).toStr = none := by
    cases hc : hashed.lookup (sha []).toStr with
    | none => rfl
    | some v =>
      exfalso
      have hm : (sha []).toStr ∈ (data.map (fun d => ((Hash.fromBytes sha d).toStr, d))).map Prod.fst := by
        rw [← lookup_reverse_isSome, ← hh, hc]; rfl
      simp only [List.map_map, List.mem_map, Function.comp] at hm
      obtain ⟨d, hd, he⟩ := hm
      apply hfill
      rw [← C01_hash_text_injective _ _ he]
      exact List.mem_map_of_mem (hperm.mem_iff.mp hd)
  have e4 : (List.replicate n (sha [])).filterMap (fun x => hashed.lookup x.toStr) = [] := by
    rw [List.filterMap_eq_nil_iff]
    intro a ha
    rw [(List.mem_replicate.mp ha).2, e3]
  simp only [order, ← hh, e1, hleaves, List.filterMap_append, e2, e4, List.append_nil]
  simp [hperm.length_eq]

example : ([lit "a", lit "b", lit "c"].map (Hash.fromBytes toySha)).Nodup ∧
    toySha [] ∉ [lit "a", lit "b", lit "c"].map (Hash.fromBytes toySha) ∧
    [lit "c", lit "a", lit "b"].Perm [lit "a", lit "b", lit "c"] := by
  decide

/-- C09 (soundness): whatever `Order` returns consists of given data only, as many as were given, with
hashes that appear among the leaves in this order. -/
theorem C09_order_sound (sha : Str → Hash) (t : Tree) (data out : List Str)
    (h : order sha t data = .ok out) :
    out.length = data.length ∧ (∀ d ∈ out, d ∈ data) ∧
      (out.map (Hash.fromBytes sha)).Sublist (t.compact.2) := by
  unfold order at h
  simp only at h
  split at h
  · simp at h
  rename_i hlen
  simp only [Out.ok.injEq] at h
  subst h
  have hget : ∀ (lf : Leaf) d, (mapFrom (data.map (fun d => ((Hash.fromBytes sha d).toStr, d)))).lookup
      lf.head.toStr = some d → d ∈ data ∧ Hash.fromBytes sha d = lf.head := by
    intro lf d hd
    have := lookup_mem _ _ _ hd
    rw [mapFrom, List.mem_reverse] at this
    obtain ⟨d', hd', he⟩ := List.mem_map.mp this
    simp only [Prod.mk.injEq] at he
    obtain ⟨he, rfl⟩ := he
    exact ⟨hd', C01_hash_text_injective _ _ he⟩
  refine ⟨by simpa using hlen, ?_, ?_⟩
  · intro d hd
    obtain ⟨lf, _, hl⟩ := List.mem_filterMap.mp hd
    exact (hget lf d hl).1
  · simp only [Tree.compact]
    clear hlen
    induction t.blockLeaves with
    | nil => simp
    | cons lf l ih =>
      simp only [List.filterMap_cons]
      split
      · simp only [List.map_cons]; exact ih.cons _
      · rename_i d hd
        simp only [List.map_cons, (hget lf d hd).2]
        exact ih.cons_cons _

/-- C09 (violation): missing data is not detected: with a block replaced by the empty block, `Order` still succeeds. -/
theorem C09_order_accepts_substitute (sha : Str → Hash)
    (hnodup : [sha (lit "a"), sha (lit "b"), sha (lit "c"), sha []].Nodup) :
    ∃ t, build sha (some [lit "a", lit "b", lit "c"]) = .ok t ∧
      order sha t [lit "a", lit "b", []] = .ok [lit "a", lit "b", []] ∧
      order sha t [lit "c", lit "a"] = .ok [lit "a", lit "c"] := by
  have fb : ∀ x : Str, x.length ≠ 64 → Hash.fromBytes sha x = sha x := fun x h => by
    simp [Hash.fromBytes, h]
  refine ⟨_, (build_three _ _ _).trans (build_four _ _ _ _), ?_, ?_⟩
  all_goals
    simp only [List.nodup_cons, List.mem_cons, not_or, List.not_mem_nil, not_false_eq_true, and_true] at hnodup
    obtain ⟨⟨h1, h2, h3⟩, ⟨h4, h5⟩, h6, -⟩ := hnodup
    have i : ∀ x y : Hash, (x.toStr == y.toStr) = decide (x = y) := fun x y => by
      by_cases e : x = y
      · simp [e]
      · simp only [e, decide_false, beq_eq_false_iff_ne]; exact fun h => e (C01_hash_text_injective _ _ h)
    simp only [order, Tree.blockLeaves, Leaf.leaves, Leaf.head, List.map_cons, List.map_nil, mapFrom,
      List.reverse_cons, List.reverse_nil, List.nil_append, List.cons_append, List.filterMap_cons,
      List.filterMap_nil, List.lookup_cons, List.lookup_nil, i]
    rw [fb (lit "a") (by decide), fb (lit "b") (by decide), fb (lit "c") (by decide), fb [] (by decide)]
    simp [h1, h2, h3, h4, h5, h6, Ne.symm h1, Ne.symm h2, Ne.symm h3, Ne.symm h4, Ne.symm h5, Ne.symm h6]

example : [toySha (lit "a"), toySha (lit "b"), toySha (lit "c"), toySha []].Nodup := by decide

/-! ## C10 -/

/-- C10 (violation): if padding was needed and some block hashes like the empty block (for example is empty), `Order` of the complete
original data fails. -/
theorem C10_order_fails_with_empty_block (sha : Str → Hash) (blocks : List Str) (t : Tree)
    (ht : build sha (some blocks) = .ok t)
    (hempty : ([] : Str) ∈ blocks)
    (hpad : blocks.length ≠ t.length) :
    order sha t blocks = .err := by
  obtain ⟨n, hn⟩ := C06_leaves sha blocks t ht
  have hleaves : t.blockLeaves.map Leaf.head =
      blocks.map (Hash.fromBytes sha) ++ List.replicate n (sha []) := by
    simpa [Tree.compact] using hn
  have hall : ∀ lf ∈ t.blockLeaves,
      ((mapFrom (blocks.map (fun d => ((Hash.fromBytes sha d).toStr, d)))).lookup lf.head.toStr).isSome := by
    intro lf hlf
    rw [lookup_reverse_isSome]
    have : lf.head ∈ blocks.map (Hash.fromBytes sha) := by
      have hm : lf.head ∈ t.blockLeaves.map Leaf.head := List.mem_map_of_mem hlf
      rw [hleaves, List.mem_append] at hm
      rcases hm with hm | hm
      · exact hm
      · rw [(List.mem_replicate.mp hm).2]
        exact List.mem_map.mpr ⟨[], hempty, by simp [Hash.fromBytes]⟩
    obtain ⟨d, hd, he⟩ := List.mem_map.mp this
    simp only [List.map_map, List.mem_map, Function.comp]
    exact ⟨d, hd, by rw [he]⟩
  have hlen : (t.blockLeaves.filterMap (fun lf =>
      (mapFrom (blocks.map (fun d => ((Hash.fromBytes sha d).toStr, d)))).lookup lf.head.toStr)).length
      = t.length := by
    rw [Tree.length]
    clear hleaves hpad hn
    generalize t.blockLeaves = ls at hall
    induction ls with
    | nil => rfl
    | cons a l ih =>
      obtain ⟨d, hd⟩ := Option.isSome_iff_exists.mp (hall a (by simp))
      simp only [List.filterMap_cons, hd, List.length_cons]
      rw [ih (fun x hx => hall x (by simp [hx]))]
  simp only [order]
  rw [if_pos]
  rw [hlen]; exact Ne.symm hpad

example : ∃ t, build toySha (some [lit "a", [], lit "c"]) = .ok t ∧
    ([] : Str) ∈ [lit "a", [], lit "c"] ∧ [lit "a", [], lit "c"].length ≠ t.length :=
  ⟨_, (build_three _ _ _).trans (build_four _ _ _ _), by decide, by decide⟩

/-! ## C11 -/

/-- C11: no blocks: an error; one block: two leaves; an empty non-nil list: a panic. -/
theorem C11_few_blocks (sha : Str → Hash) :
    build sha none = .err ∧ build sha (some []) = .panic ∧
    ∀ b, ∃ t, build sha (some [b]) = .ok t ∧
      t.compact.2 = [Hash.fromBytes sha b, sha []] :=
  ⟨rfl, build_nil, fun _ => ⟨_, (build_one _).trans (build_two _ _), by
    simp [Tree.compact, Tree.blockLeaves, Leaf.leaves, Leaf.head, Hash.fromBytes]⟩⟩

/-- C11: the tree panics only on the empty list. -/
theorem C11_panics_iff (sha : Str → Hash) (blocks : List Str) :
    build sha (some blocks) = .panic ↔ blocks = [] := by
  constructor
  · intro h
    by_contra hb
    obtain ⟨t, ht, -⟩ := C05_shape sha blocks hb
    rw [ht] at h; cases h
  · rintro rfl; exact build_nil

/-! ## Additional: JSON form of a block -/

/-- The list of hashes of a block survives `MarshalJSON` followed by `UnmarshalJSON`. -/
theorem C06_block_json_roundtrip (sha : Str → Hash) (l : List Hash) :
    unmarshalBlock sha (marshalBlock l) = .ok l := by
  induction l with
  | nil => rfl
  | cons a l ih =>
    have := C01_hash_text_roundtrip sha a
    simp only [unmarshalBlock, marshalBlock, List.map_cons, mapOut, this] at *
    rw [ih]; rfl

/-! ## C61 -/

theorem WF.merkle {sha : Str → Hash} {k l} (h : WF sha k l) : MerkleRoot sha (l.leaves.map Leaf.head) l.head := by
  induction h with
  | plain h => exact .single h
  | node hl hr ih1 ih2 =>
    simp only [Leaf.leaves, List.map_append, Leaf.head, childHead, fromBytes_pair]
    exact .halves ih1 ih2 (by simp [hl.length, hr.length])

/-- C61: the head of a tree is the Merkle root of the hashes of the blocks in their order, filled up with the hash of the empty
block to the next power of two (at least 2). -/
theorem C61_head_is_merkle_root (sha : Str → Hash) (blocks : List Str) (t : Tree) (h : build sha (some blocks) = .ok t) :
    ∃ n k, blocks.length + n = 2 ^ (k + 1) ∧ (∀ m, 2 ≤ 2 ^ m → blocks.length ≤ 2 ^ m → k + 1 ≤ m) ∧
      MerkleRoot sha (blocks.map (Hash.fromBytes sha) ++ List.replicate n (sha [])) t.head := by
  by_cases hb : blocks = []
  · subst hb; rw [build_nil] at h; cases h
  · obtain ⟨k, t', h1, h2, h3, h4, h5, h6, h7⟩ := build_spec (sha := sha) blocks hb
    rw [h1] at h; cases h
    refine ⟨2 ^ (k + 1) - blocks.length, k, by omega, h7, ?_⟩
    have e : blocks.map (Hash.fromBytes sha) ++ List.replicate (2 ^ (k+1) - blocks.length) (sha []) =
        t.blockLeaves.map Leaf.head := by
      rw [h5, heads_map_plain]; simp [Hash.fromBytes]
    rw [e, Tree.blockLeaves, List.map_append, h4, fromBytes_pair]
    exact .halves h2.merkle h3.merkle (by simp [h2.length, h3.length])

example : ∃ t, build toySha (some [lit "a", lit "b", lit "c"]) = .ok t ∧
    MerkleRoot toySha [toySha (lit "a"), toySha (lit "b"), toySha (lit "c"), toySha []] t.head := by
  refine ⟨_, (build_three _ _ _).trans (build_four _ _ _ _), ?_⟩
  simp only [fromBytes_pair, childHead, Leaf.head]
  exact .halves (l := [_, _]) (r := [_, _]) (.halves (l := [_]) (r := [_]) (.single _) (.single _) rfl)
    (.halves (l := [_]) (r := [_]) (.single _) (.single _) rfl) rfl

end Verif.HashTree
