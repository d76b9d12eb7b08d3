import Verif.Props.Cipher

/-!
# C13: what `Decrypt` makes of each byte
-/

namespace Verif.Cipher
open Verif Codec

theorem cfb_decrypt_at (E : Str → Block) (next : Str) (out : Block) (used : Nat) (hu : used ≤ 16) (hn : next.length = used) (msg : Str) (j : Nat) :
    (cfb E true next out used msg)[j]? = (msg[j]?).map fun c => c ^^^
      (if h : used + j < 16 then out ⟨used + j, h⟩
       else E (((next ++ msg).drop (16 * ((used + j) / 16) - 16)).take 16) ⟨(used + j) % 16, Nat.mod_lt _ (by omega)⟩) := by
  induction msg generalizing next out used j with
  | nil => simp [cfb]
  | cons b rest ih =>
    unfold cfb
    split
    · next h =>
      cases j with
      | zero => simp [h]
      | succ j =>
        simp only [List.getElem?_cons_succ, if_true]
        rw [ih (next ++ [b]) out (used + 1) (by omega) (by simp [hn]) j]
        simp only [show used + 1 + j = used + (j + 1) by omega, List.append_assoc, List.singleton_append]
    · next h =>
      have h16 : used = 16 := by omega
      subst h16
      cases j with
      | zero =>
        simp only [List.getElem?_cons_zero, Option.map_some, Nat.add_zero]
        rw [dif_neg (by omega)]
        have : List.take 16 (List.drop (16 * (16 / 16) - 16) (next ++ b :: rest)) = next := by
          rw [show 16 * (16 / 16) - 16 = 0 from rfl, List.drop_zero, ← hn, List.take_left]
        rw [this]
        rfl
      | succ j =>
        simp only [List.getElem?_cons_succ, if_true]
        rw [ih [b] (E next) 1 (by omega) rfl j, dif_neg (show ¬ 16 + (j + 1) < 16 by omega)]
        have hm : (16 + (j + 1)) % 16 = (1 + j) % 16 := by omega
        have hd : 16 * ((16 + (j + 1)) / 16) - 16 = 16 * ((1 + j) / 16) := by omega
        congr 1
        funext c
        congr 1
        split
        · next h1 =>
          have : List.take 16 (List.drop (16 * ((16 + (j + 1)) / 16) - 16) (next ++ b :: rest)) = next := by
            rw [hd, show (1 + j) / 16 = 0 by omega, Nat.mul_zero, List.drop_zero, ← hn, List.take_left]
          rw [this]
          congr 1
          apply Fin.ext
          show 1 + j = (16 + (j + 1)) % 16
          omega
        · next h1 =>
          have : List.drop (16 * ((16 + (j + 1)) / 16) - 16) (next ++ b :: rest) = List.drop (16 * ((1 + j) / 16) - 16) ([b] ++ rest) := by
            have hx : 16 * ((1 + j) / 16) = next.length + (16 * ((1 + j) / 16) - 16) := by omega
            rw [hd]
            conv_lhs => rw [hx]
            rw [← List.drop_drop, List.drop_left]
            rfl
          rw [this]
          congr 1
          apply Fin.ext
          show (1 + j) % 16 = (16 + (j + 1)) % 16
          omega

/-- The sixteen bytes of a ciphertext (the first sixteen are the initialization vector) from which the key stream of byte `j` of the message is made: those
in front of the block of sixteen to which the byte belongs. -/
def window (bytes : Str) (j : Nat) : Str := (bytes.drop (16 * (j / 16))).take 16

/-- C13: each byte of the decrypted message is the byte of the ciphertext, combined with a byte which depends only on the key, on the place in the block and on the sixteen bytes of
ciphertext in front of the block. -/
theorem C13_each_byte (p : Prims) (key text bytes : Str) (hb : b64Decode text = .ok bytes) (hl : 16 ≤ bytes.length) :
    ∃ m, decrypt p key text = .ok m ∧ m.length + 16 = bytes.length ∧
      ∀ j, m[j]? = (bytes[16 + j]?).map fun c => c ^^^ p.aes key (window bytes j) ⟨j % 16, Nat.mod_lt _ (by omega)⟩ := by
  refine ⟨cfbRun (p.aes key) true (bytes.take 16) (bytes.drop 16), ?_, ?_, ?_⟩
  · simp only [decrypt, hb, Out.bind_ok]
    rw [if_neg (by omega)]
  · simp only [cfbRun, cfb_length, List.length_drop]
    omega
  · intro j
    rw [cfbRun, cfb_decrypt_at _ _ _ 16 (Nat.le_refl 16) (by rw [List.length_take]; omega), List.getElem?_drop]
    congr 1
    funext c
    rw [dif_neg (by omega), List.take_append_drop]
    have : 16 * ((16 + j) / 16) - 16 = 16 * (j / 16) := by omega
    rw [this]
    congr 2
    apply Fin.ext
    show (16 + j) % 16 = j % 16
    omega

/-- C13, violation: without the password, any change of a ciphertext makes the same change to the message, at every place whose sixteen bytes in front
of the block did not change. In particular bits which are flipped in one block are flipped in this block of the message, and at most the next block changes besides. -/
theorem C13_malleable (p : Prims) (key text text' bytes bytes' m m' : Str) (hb : b64Decode text = .ok bytes) (hb' : b64Decode text' = .ok bytes')
    (h : decrypt p key text = .ok m) (h' : decrypt p key text' = .ok m') (j : Nat) (hw : window bytes j = window bytes' j)
    (c c' : UInt8) (hc : bytes[16 + j]? = some c) (hc' : bytes'[16 + j]? = some c') :
    ∃ x x', m[j]? = some x ∧ m'[j]? = some x' ∧ x ^^^ x' = c ^^^ c' := by
  have l1 : 16 ≤ bytes.length := by
    have := (List.getElem?_eq_some_iff.mp hc).1; omega
  have l2 : 16 ≤ bytes'.length := by
    have := (List.getElem?_eq_some_iff.mp hc').1; omega
  obtain ⟨n, e1, _, e2⟩ := C13_each_byte p key text bytes hb l1
  obtain ⟨n', e1', _, e2'⟩ := C13_each_byte p key text' bytes' hb' l2
  rw [h] at e1
  rw [h'] at e1'
  injection e1 with e1
  injection e1' with e1'
  subst e1 e1'
  refine ⟨_, _, by rw [e2, hc]; rfl, by rw [e2', hc']; rfl, ?_⟩
  rw [hw]
  generalize p.aes key (window bytes' j) _ = k
  show (c ^^^ k) ^^^ (c' ^^^ k) = c ^^^ c'
  rw [UInt8.xor_comm c' k, UInt8.xor_assoc, ← UInt8.xor_assoc k k c', UInt8.xor_self, UInt8.zero_xor]

/-- C13, violation: bytes can be cut off from the end of a ciphertext; the message is cut off without an error. -/
theorem C13_truncated (p : Prims) (key bytes m : Str) (n : Nat) (h : decrypt p key (b64Encode bytes) = .ok m) (hn : n ≤ m.length) :
    decrypt p key (b64Encode (bytes.take (16 + n))) = .ok (m.take n) := by
  obtain ⟨b, hb, hl⟩ := (C13_decrypt_ok_iff p key _).1 ⟨m, h⟩
  rw [b64Decode_encode] at hb
  injection hb with hb
  subst hb
  obtain ⟨m0, e1, el, e2⟩ := C13_each_byte p key _ bytes (b64Decode_encode _) hl
  rw [h] at e1
  injection e1 with e1
  subst e1
  obtain ⟨m1, e1', el', e2'⟩ := C13_each_byte p key _ (bytes.take (16 + n)) (b64Decode_encode _) (by simp; omega)
  rw [e1']
  congr 1
  apply List.ext_getElem?
  intro j
  rw [e2', List.getElem?_take, List.getElem?_take, e2]
  by_cases hj : j < n
  · rw [if_pos (by omega), if_pos hj]
    congr 1
    funext c
    have : window (bytes.take (16 + n)) j = window bytes j := by
      unfold window
      rw [List.drop_take, List.take_take]
      congr 1
      omega
    rw [this]
  · rw [if_neg (by omega), if_neg hj]
    rfl

/-- The hypotheses are met by texts which differ in the first byte of the message, and by a text of three bytes which is cut to one. -/
example : ∃ m m', decrypt toyPrims [] (b64Encode (List.replicate 16 5 ++ [1, 2, 3])) = .ok m ∧
    decrypt toyPrims [] (b64Encode (List.replicate 16 5 ++ [9, 2, 3])) = .ok m' ∧
    window (List.replicate 16 5 ++ [1, 2, 3]) 0 = window (List.replicate 16 5 ++ [9, 2, 3]) 0 ∧ 1 ≤ m.length := by
  obtain ⟨m, h, hl, _⟩ := C13_each_byte toyPrims [] _ _ (b64Decode_encode (List.replicate 16 5 ++ [1, 2, 3])) (by decide)
  obtain ⟨m', h', _, _⟩ := C13_each_byte toyPrims [] _ _ (b64Decode_encode (List.replicate 16 5 ++ [9, 2, 3])) (by decide)
  exact ⟨m, m', h, h', by decide, by simp at hl; omega⟩

end Verif.Cipher
