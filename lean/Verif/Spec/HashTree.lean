import Verif.Model.HashTree

/-!
# Specification notions for the hash tree

A statement "or SHA-512 has a collision" would be empty (every function from strings to 64 bytes has one), so the
colliding pair is always located: it is found among the strings that were hashed to make the two trees.
-/

namespace Verif.HashTree
open Verif

/-- The strings hashed for the interior nodes below a leaf object. -/
def hashedBelow : Leaf → List Str
  | .plain _ => []
  | .withParent _ l r => (l.head.bytes ++ r.head.bytes) :: (hashedBelow l ++ hashedBelow r)

/-- The strings hashed for the interior nodes of a tree. -/
def hashedStrings (t : Tree) : List Str :=
  (t.left.head.bytes ++ t.right.head.bytes) :: (hashedBelow t.left ++ hashedBelow t.right)

/-- A collision between a string hashed for the one tree and a string hashed for the other. -/
def TreeCollision (sha : Str → Hash) (t u : Tree) : Prop :=
  ∃ x ∈ hashedStrings t, ∃ y ∈ hashedStrings u, x ≠ y ∧ sha x = sha y

/-- The Merkle root of a perfect binary tree over a list of hashes: a single hash is its own root, and the root of two halves
of equal length is the digest of the 128 bytes left root, right root. -/
inductive MerkleRoot (sha : Str → Hash) : List Hash → Hash → Prop where
  | single (h : Hash) : MerkleRoot sha [h] h
  | halves {l r : List Hash} {a b : Hash} : MerkleRoot sha l a → MerkleRoot sha r b → l.length = r.length →
      MerkleRoot sha (l ++ r) (sha (a.1 ++ b.1))

/-- A list has at most one Merkle root. -/
theorem MerkleRoot.unique {sha : Str → Hash} {l : List Hash} {a b : Hash} (h : MerkleRoot sha l a) (g : MerkleRoot sha l b) :
    a = b := by
  induction h generalizing b with
  | single h =>
    generalize hl : [h] = l at g
    cases g with
    | single => simpa using hl
    | @halves l r a b h1 h2 hlen =>
      have := congrArg List.length hl
      simp only [List.length_append, List.length_cons, List.length_nil] at this
      omega
  | @halves l r a c h1 h2 hlen ih1 ih2 =>
    generalize hl : l ++ r = m at g
    cases g with
    | single =>
      have := congrArg List.length hl
      simp only [List.length_append, List.length_cons, List.length_nil] at this
      omega
    | @halves l' r' a' b' g1 g2 hlen' =>
      have e := congrArg List.length hl
      simp only [List.length_append] at e
      obtain ⟨rfl, rfl⟩ := List.append_inj hl (by omega)
      rw [ih1 g1, ih2 g2]

end Verif.HashTree
