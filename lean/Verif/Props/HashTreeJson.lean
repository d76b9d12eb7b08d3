import Verif.Lemmas.HashTreeJson

/-!
# Property C132: hash trees and JSON
-/

namespace Verif.HashTree
open Verif

/-- C132: the JSON of a block is read back, whatever blanks stand around it. -/
theorem C132_block (sha : Str → Hash) (l : List Hash) (w w' : Str) (h : ∀ c ∈ w, c ∈ lit " \t\n\r") (h' : ∀ c ∈ w', c ∈ lit " \t\n\r") :
    blockFromJson sha (w ++ blockJson l ++ w') = .ok l := by
  have hb : ∀ c ∈ lit " \t\n\r", isJsonBlank c = true := by decide +kernel
  have e : unmarshalStrings (w ++ blockJson l ++ w') = .ok (marshalBlock l) := by
    unfold unmarshalStrings
    rw [List.append_assoc, skipBlanks_blank (fun c hc => hb c (h c hc))]
    cases l with
    | nil =>
      have : blockJson [] = [91, 93] := by decide +kernel
      rw [this, show ([91, 93] : Str) ++ w' = 91 :: 93 :: w' from rfl, skipBlanks_cons (by decide)]
      have : (lit "null").isPrefixOf (91 :: 93 :: w') = false := by rfl
      simp only [this, Bool.false_eq_true, if_false, ne_eq, not_true]
      rw [skipBlanks_cons (by decide)]
      simp only [if_true]
      rw [skipBlanks_all (fun c hc => hb c (h' c hc))]
      rfl
    | cons a l =>
      have hx : blockJson (a :: l) ++ w' = 91 :: (marshalList ((marshalBlock (a :: l)).map .text) ++ 93 :: w') := by
        simp [blockJson, marshal, lit]
      have hy : ∃ s, marshalList ((marshalBlock (a :: l)).map .text) ++ 93 :: w' = 34 :: s := by
        cases l <;> simp [marshalBlock, marshalList, marshal, lit]
      rw [hx, skipBlanks_cons (by decide)]
      have : ∀ s : Str, (lit "null").isPrefixOf (91 :: s) = false := fun _ => rfl
      simp only [this, Bool.false_eq_true, if_false, ne_eq, not_true]
      have hfuel : l.length < (w ++ 91 :: (marshalList ((marshalBlock (a :: l)).map .text) ++ 93 :: w')).length := by
        have : ∀ (ls : List Str), ls.length ≤ (marshalList (ls.map .text)).length := by
          intro ls
          induction ls with
          | nil => simp
          | cons x ls ih =>
            cases ls with
            | nil => simp [marshalList, marshal, lit]
            | cons y ls => simp [marshalList, marshal, lit] at ih ⊢; omega
        have := this (marshalBlock (a :: l))
        simp [marshalBlock] at this ⊢
        omega
      have hread := jsonStrings_read (l.map Hash.toStr) a.toStr (w ++ 91 :: (marshalList ((marshalBlock (a :: l)).map .text) ++ 93 :: w')).length w' (by rw [List.length_map]; exact hfuel) (by
        intro s hs c hc
        have : ∃ g : Hash, s = g.toStr := by
          simp only [List.mem_cons, List.mem_map] at hs
          rcases hs with rfl | ⟨g, _, rfl⟩
          · exact ⟨a, rfl⟩
          · exact ⟨g, rfl⟩
        obtain ⟨g, rfl⟩ := this
        exact hex_plain c ((Cipher.C14_alphabet g.bytes).2.2 c hc))
      obtain ⟨s, hs⟩ := hy
      have hsk : skipBlanks (marshalList ((marshalBlock (a :: l)).map .text) ++ 93 :: w') = 34 :: s := by rw [hs, skipBlanks_cons (by decide)]
      rw [hsk]
      simp only [show (34 : UInt8) ≠ 93 by decide, if_false]
      have : marshalBlock (a :: l) = a.toStr :: l.map Hash.toStr := rfl
      rw [this] at hread ⊢
      rw [hread]
      simp only
      rw [skipBlanks_all (fun c hc => hb c (h' c hc))]
      simp
  unfold blockFromJson
  rw [e]
  exact C06_block_json_roundtrip sha l

/-- C132: different blocks have different JSON. -/
theorem C132_block_injective (l l' : List Hash) (h : blockJson l = blockJson l') : l = l' := by
  have h1 := C132_block (fun _ => zeroHash) l [] [] (by simp) (by simp)
  have h2 := C132_block (fun _ => zeroHash) l' [] [] (by simp) (by simp)
  rw [h] at h1
  rw [h1] at h2
  simpa using h2

/-- C132, violation: the JSON of every hash tree and of every compact hash tree is `{}`, because no field of them is exported. -/
theorem C132_lost_violation (t : Tree) : marshal (goTree t) = lit "{}" ∧ marshal (goCompact t) = lit "{}" := ⟨rfl, rfl⟩

/-- C132, violation: nothing can restore the trees from their JSON, neither their leaves nor even the number of them, whatever the hash function. -/
theorem C132_no_reader_violation (sha : Str → Hash) :
    ¬ ∃ read : Str → Nat, ∀ blocks t, build sha (some blocks) = .ok t → read (marshal (goTree t)) = t.length := by
  rintro ⟨read, h⟩
  obtain ⟨t, ht, hl, -⟩ := C05_shape sha [[], []] (by simp)
  obtain ⟨u, hu, hm, -⟩ := C05_shape sha [[], [], []] (by simp)
  have h1 := h _ _ ht
  have h2 := h _ _ hu
  rw [(C132_lost_violation t).1] at h1
  rw [(C132_lost_violation u).1] at h2
  have h3 : t.length ≤ 2 := hl.2 ⟨⟨1, rfl⟩, le_rfl, by simp⟩
  have h4 := hm.1.2.2
  simp at h4
  omega

/-- C132, violation: reading the JSON of a tree into a new tree gives no error, but the zero hash, and `Height`, `Length`, `Compact` and `Order` panic, whereas they
do not with the tree which was written. -/
theorem C132_read_back_violation (sha : Str → Hash) (t : Tree) (data : List Str) :
    ∃ u, unmarshalTree (marshal (goTree t)) ⟨zeroHash, none⟩ = .ok u ∧ u.head = zeroHash ∧ u.height = .panic ∧ u.length = .panic ∧ u.compact = .panic ∧
      u.order sha data = .panic ∧ t.raw.height = .ok t.height ∧ t.raw.length = .ok t.length ∧ t.raw.compact = .ok t.compact ∧ t.raw.order sha data = order sha t data := by
  refine ⟨⟨zeroHash, none⟩, ?_, rfl, rfl, rfl, rfl, rfl, rfl, rfl, rfl, rfl⟩
  rw [(C132_lost_violation t).1]
  have : (lit "{}").filter (fun c => !isJsonBlank c) = lit "{}" := by decide +kernel
  unfold unmarshalTree
  rw [this]
  simp

/-- A struct with an exported field is written: the emptiness is due to the names. -/
example : marshal (.struct [(lit "Head", .text (lit "00")), (lit "leaves", .null), (lit "Size", .number 12)]) = lit "{\"Head\":\"00\",\"Size\":12}" := by
  decide +kernel

/-- Blocks with blanks around. -/
example (sha : Str → Hash) : blockFromJson sha (lit " \n" ++ blockJson [zeroHash, zeroHash] ++ lit " ") = .ok [zeroHash, zeroHash] :=
  C132_block sha _ _ _ (by decide +kernel) (by decide +kernel)

end Verif.HashTree
