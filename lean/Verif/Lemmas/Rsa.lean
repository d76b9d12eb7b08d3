import Mathlib.Data.Nat.Digits.Lemmas
import Mathlib.FieldTheory.Finite.Basic
import Verif.Model.Rsa
import Verif.Lemmas.Codec

/-!
# Lemmas about the RSA keys: numbers and bytes, OAEP, DER
-/

namespace Verif.Rsa
open Verif Codec

/-! ## Numbers and bytes -/

theorem bytes_toNat (n : Nat) : (bytes n).map UInt8.toNat = (Nat.digits 256 n).reverse := by
  rw [bytes, List.map_map]
  conv_rhs => rw [← List.map_id (Nat.digits 256 n).reverse]
  refine List.map_congr_left fun d hd => ?_
  have : d < 256 := Nat.digits_lt_base (by norm_num) (List.mem_reverse.mp hd)
  simpa using Nat.mod_eq_of_lt this

theorem ofBytes_bytes (n : Nat) : ofBytes (bytes n) = n := by
  rw [ofBytes, List.map_reverse, bytes_toNat, List.reverse_reverse, Nat.ofDigits_digits]

theorem bytes_length_le {n k : Nat} : (bytes n).length ≤ k ↔ n < 256 ^ k := by
  rw [bytes, List.length_map, List.length_reverse]
  exact Nat.digits_length_le_iff (by norm_num) n

theorem ofBytes_zeros (k : Nat) (s : Str) : ofBytes (List.replicate k 0 ++ s) = ofBytes s := by
  rw [ofBytes, List.reverse_append, List.map_append, Nat.ofDigits_append, List.reverse_replicate, List.map_replicate]
  simp [ofBytes, Nat.ofDigits_replicate_zero]

theorem mem_toNat_lt {s : Str} : ∀ x ∈ s.map UInt8.toNat, x < 256 := by
  intro x hx
  obtain ⟨b, _, rfl⟩ := List.mem_map.mp hx
  exact b.toNat_lt

theorem ofBytes_lt (s : Str) : ofBytes s < 256 ^ s.length := by
  have := Nat.ofDigits_lt_base_pow_length (b := 256) (l := s.reverse.map UInt8.toNat) (by norm_num) mem_toNat_lt
  simpa [ofBytes] using this

theorem ofBytes_inj {s t : Str} (hl : s.length = t.length) (h : ofBytes s = ofBytes t) : s = t := by
  have := Nat.ofDigits_inj_of_len_eq (b := 256) (by norm_num) (L1 := s.reverse.map UInt8.toNat) (L2 := t.reverse.map UInt8.toNat)
    (by simpa using hl) mem_toNat_lt mem_toNat_lt h
  have hinj : Function.Injective UInt8.toNat := fun a b h => UInt8.toNat_inj.mp h
  exact List.reverse_injective (hinj.list_map this)

theorem fillBytes_length {k n : Nat} (h : n < 256 ^ k) : (fillBytes k n).length = k := by
  have := bytes_length_le.mpr h
  rw [fillBytes, List.length_append, List.length_replicate]; omega

theorem ofBytes_fillBytes (k n : Nat) : ofBytes (fillBytes k n) = n := by rw [fillBytes, ofBytes_zeros, ofBytes_bytes]

theorem fillBytes_ofBytes {s : Str} {k : Nat} (h : s.length = k) : fillBytes k (ofBytes s) = s := by
  subst h
  exact ofBytes_inj (fillBytes_length (ofBytes_lt s)) (ofBytes_fillBytes _ _)

theorem size_spec (k : Pub) : k.n < 256 ^ size k ∧ (size k ≠ 0 → 256 ^ (size k - 1) ≤ k.n) := by
  refine ⟨bytes_length_le.mp (le_refl _), fun h => ?_⟩
  by_contra hc
  have := (bytes_length_le (n := k.n) (k := size k - 1)).mpr (by omega)
  rw [size] at *; omega

/-! ## RSA -/

theorem pow_mod_prime {p m t : Nat} (hp : p.Prime) (ht : ((t : Int)) % (p - 1 : Int) = 1 % (p - 1 : Int)) (ht0 : 0 < t) : m ^ t ≡ m [MOD p] := by
  haveI := Fact.mk hp
  rw [← ZMod.natCast_eq_natCast_iff]
  push_cast
  have hp1 : ((p - 1 : Nat) : Int) = (p : Int) - 1 := by have := hp.one_lt; omega
  have hdvd : (p - 1) ∣ t - 1 := by
    have h1 : ((p : Int) - 1) ∣ (t : Int) - 1 := Int.dvd_of_emod_eq_zero (Int.emod_eq_emod_iff_emod_sub_eq_zero.mp ht)
    have h2 : ((t - 1 : Nat) : Int) = (t : Int) - 1 := by omega
    rw [← hp1, ← h2] at h1
    exact_mod_cast h1
  obtain ⟨c, hc⟩ := hdvd
  have e : t = (p - 1) * c + 1 := by omega
  rw [e, pow_succ, pow_mul]
  by_cases hm : (m : ZMod p) = 0
  · rw [hm, mul_zero]
  · rw [ZMod.pow_card_sub_one_eq_one hm, one_pow, one_mul]

theorem validate_pos {k : Priv} (hv : validate k = true) (hne : k.p ≠ k.q) : 0 < k.d := by
  rw [validate, Bool.and_eq_true, Bool.and_eq_true, Bool.and_eq_true, checkPub, decide_eq_true_eq, decide_eq_true_eq, decide_eq_true_eq,
    decide_eq_true_eq] at hv
  obtain ⟨⟨⟨he, hp, hq, hn⟩, h1⟩, h2⟩ := hv
  by_contra h0
  have hd : k.d = 0 := by omega
  have two : ∀ x : Nat, 1 < x → ((k.pub.e * k.d : Int)) % (x - 1 : Int) = 1 % (x - 1 : Int) → x = 2 := by
    intro x hx h
    rw [hd] at h
    simp only [Nat.cast_zero, mul_zero, Int.zero_emod] at h
    have : ((x : Int) - 1) ∣ 1 := Int.dvd_of_emod_eq_zero h.symm
    have := Int.le_of_dvd (by norm_num) this
    omega
  exact hne ((two _ hp h1).trans (two _ hq h2).symm)

/-- RSA: decryption of numbers inverts encryption. -/
theorem rsa_pow {k : Priv} (hv : validate k = true) (hp : k.p.Prime) (hq : k.q.Prime) (hne : k.p ≠ k.q) {m : Nat} (hm : m < k.pub.n) :
    (m ^ k.pub.e % k.pub.n) ^ k.d % k.pub.n = m := by
  have hd := validate_pos hv hne
  rw [validate, Bool.and_eq_true, Bool.and_eq_true, Bool.and_eq_true, checkPub, decide_eq_true_eq, decide_eq_true_eq, decide_eq_true_eq,
    decide_eq_true_eq] at hv
  obtain ⟨⟨⟨he, _, _, hn⟩, h1⟩, h2⟩ := hv
  have ht0 : 0 < k.pub.e * k.d := Nat.mul_pos (by omega) hd
  have hpow : (m ^ k.pub.e % k.pub.n) ^ k.d % k.pub.n = m ^ (k.pub.e * k.d) % k.pub.n := by rw [← Nat.pow_mod, ← pow_mul]
  rw [hpow]
  have hco : Nat.Coprime k.p k.q := (Nat.coprime_primes hp hq).mpr hne
  have : m ^ (k.pub.e * k.d) ≡ m [MOD k.p * k.q] := (Nat.modEq_and_modEq_iff_modEq_mul hco).mp
    ⟨pow_mod_prime hp (by push_cast; exact h1) ht0, pow_mod_prime hq (by push_cast; exact h2) ht0⟩
  rw [hn] at this
  rw [this, Nat.mod_eq_of_lt hm]

/-! ## OAEP -/

theorem maskBlocks_length {sha : Str → Str} (hs : ∀ s, (sha s).length = 32) (seed : Str) (i n : Nat) : (maskBlocks sha seed i n).length = 32 * n := by
  induction n generalizing i with
  | zero => rfl
  | succ n ih => rw [maskBlocks, List.length_append, hs, ih]; omega

theorem xor_xor : ∀ (out mask : Str), out.length ≤ mask.length → List.zipWith (· ^^^ ·) (List.zipWith (· ^^^ ·) out mask) mask = out
  | [], _, _ => by simp
  | a :: out, [], h => by simp at h
  | a :: out, b :: mask, h => by
    simp only [List.zipWith_cons_cons]
    rw [xor_xor out mask (by simpa using h)]
    simp [UInt8.xor_assoc]

theorem mgfXor_length {sha : Str → Str} (hs : ∀ s, (sha s).length = 32) (seed out : Str) : (mgfXor sha seed out).length = out.length := by
  rw [mgfXor, List.length_zipWith, maskBlocks_length hs]; omega

theorem mgfXor_mgfXor {sha : Str → Str} (hs : ∀ s, (sha s).length = 32) (seed out : Str) : mgfXor sha seed (mgfXor sha seed out) = out := by
  have := mgfXor_length hs seed out
  rw [mgfXor, this, mgfXor, xor_xor]
  rw [maskBlocks_length hs]; omega

theorem unpad_zeros (n : Nat) (msg : Str) : unpad (List.replicate n 0 ++ 1 :: msg) = .ok msg := by
  induction n with
  | zero => simp [unpad]
  | succ n ih => rw [List.replicate_succ, List.cons_append, unpad, if_pos rfl, ih]

theorem oaep_length {sha : Str → Str} (hs : ∀ s, (sha s).length = 32) {k : Nat} {seed msg : Str} (hseed : seed.length = 32) (hm : msg.length + 66 ≤ k) :
    (oaep sha k seed msg).length = k := by
  simp only [oaep, List.length_cons, List.length_append, mgfXor_length hs, hs, hseed, List.length_replicate]
  omega

theorem decrypt_encrypt {sha : Str → Str} (hs : ∀ s, (sha s).length = 32) {k : PrivateKey} (hv : validate k.key = true) (hp : k.key.p.Prime) (hq : k.key.q.Prime)
    (hne : k.key.p ≠ k.key.q) (hpub : k.pub = k.key.pub) {seed msg : Str} (hseed : seed.length = 32) (hm : msg.length + 66 ≤ size k.pub) :
    ∃ c, encrypt sha k.pub seed msg = .ok c ∧ c.length = size k.pub ∧ decrypt sha k c = .ok msg := by
  rw [hpub] at hm ⊢
  have hcheck : checkPub k.key.pub = true := by rw [validate, Bool.and_eq_true, Bool.and_eq_true, Bool.and_eq_true] at hv; exact hv.1.1.1
  have hsize := size_spec k.key.pub
  have hn0 : 0 < k.key.pub.n := lt_of_lt_of_le (by positivity) (hsize.2 (by omega))
  have hlt : ∀ x, x % k.key.pub.n < 256 ^ size k.key.pub := fun x => lt_trans (Nat.mod_lt _ hn0) hsize.1
  refine ⟨_, by rw [encrypt, if_neg (by simp [hcheck]), if_neg (by omega)], fillBytes_length (hlt _), ?_⟩
  have hlen := oaep_length hs hseed hm
  have hofb : ofBytes (oaep sha (size k.key.pub) seed msg) < k.key.pub.n := by
    refine lt_of_lt_of_le ?_ (hsize.2 (by omega))
    have h1 : ofBytes (oaep sha (size k.key.pub) seed msg) = ofBytes ((oaep sha (size k.key.pub) seed msg).drop 1) := by
      rw [oaep]; exact ofBytes_zeros 1 _
    rw [h1]
    have := ofBytes_lt ((oaep sha (size k.key.pub) seed msg).drop 1)
    rwa [List.length_drop, hlen] at this
  rw [decrypt]
  simp only [hcheck, Bool.not_true, Bool.false_eq_true, if_false]
  rw [fillBytes_length (hlt _), if_neg (by omega), ofBytes_fillBytes, if_neg (by have := Nat.mod_lt (ofBytes (oaep sha (size k.key.pub) seed msg) ^ k.key.pub.e) hn0; omega),
    rsa_pow hv hp hq hne hofb, fillBytes_ofBytes hlen]
  simp only [oaep]
  have l1 : ∀ x, (mgfXor sha x seed).length = 32 := fun x => by rw [mgfXor_length hs, hseed]
  have e1 : ∀ x y, List.take 32 (List.drop 1 (0 :: (mgfXor sha x seed ++ y))) = mgfXor sha x seed := fun x y => by
    rw [List.drop_succ_cons, List.drop_zero, List.take_append_of_le_length (by rw [l1]), List.take_of_length_le (by rw [l1])]
  have e2 : ∀ x y, List.drop 33 (0 :: (mgfXor sha x seed ++ y)) = y := fun x y => by
    rw [List.drop_succ_cons, List.drop_append_of_le_length (by rw [l1]), List.drop_of_length_le (by rw [l1]), List.nil_append]
  simp only [e1, e2, mgfXor_mgfXor hs, List.append_assoc]
  rw [if_pos ⟨rfl, by rw [List.take_append_of_le_length (by rw [hs]), List.take_of_length_le (by rw [hs])]⟩,
    List.drop_append_of_le_length (by rw [hs]), List.drop_of_length_le (by rw [hs]), List.nil_append, unpad_zeros]

/-! ## DER -/

theorem bytes_zero : bytes 0 = [] := by simp [bytes]

theorem bytes_ne_nil {n : Nat} (h : n ≠ 0) : ∃ b r, bytes n = b :: r ∧ b ≠ 0 := by
  cases hb : bytes n with
  | nil => exact absurd (by rw [← ofBytes_bytes n, hb]; rfl) h
  | cons b r =>
    refine ⟨b, r, rfl, ?_⟩
    rintro rfl
    have h1 : ofBytes r = n := by rw [← ofBytes_bytes n, hb]; exact (ofBytes_zeros 1 r).symm
    have h2 := (bytes_length_le (n := n) (k := r.length)).mpr (h1 ▸ ofBytes_lt r)
    rw [hb, List.length_cons] at h2
    omega

theorem ofBytes_cons (b : UInt8) (s : Str) : ofBytes (b :: s) = b.toNat * 256 ^ s.length + ofBytes s := by
  rw [ofBytes, List.reverse_cons, List.map_append, Nat.ofDigits_append]
  simp [ofBytes, Nat.ofDigits_cons]; ring

theorem readLenBytes_bytes (s rest : Str) (acc : Nat) (h0 : acc ≠ 0 ∨ ∀ b, s.head? = some b → b ≠ 0) (hlt : acc * 256 ^ s.length + ofBytes s < 2147483648) :
    readLenBytes s.length acc (s ++ rest) = .ok (acc * 256 ^ s.length + ofBytes s, rest) := by
  induction s generalizing acc with
  | nil => simp [readLenBytes, ofBytes, Nat.ofDigits]
  | cons b s ih =>
    rw [List.length_cons, List.cons_append, readLenBytes]
    have hp : 0 < 256 ^ s.length := by positivity
    have he : acc * 256 ^ (s.length + 1) + ofBytes (b :: s) = (acc * 256 + b.toNat) * 256 ^ s.length + ofBytes s := by rw [ofBytes_cons]; ring
    rw [List.length_cons, he] at hlt
    have h1 : acc * 256 + b.toNat < 2147483648 := by
      refine lt_of_le_of_lt ?_ hlt
      exact le_trans (Nat.le_mul_of_pos_right _ hp) (Nat.le_add_right _ _)
    have hnz : acc * 256 + b.toNat ≠ 0 := by
      rcases h0 with h | h
      · omega
      · have hb := h b rfl
        have : b.toNat ≠ 0 := fun e => hb (UInt8.toNat_inj.mp (by simpa using e))
        omega
    rw [if_neg (by omega), if_neg hnz, ih _ (.inl hnz) hlt, he]

theorem readLen_derLen {n : Nat} (h : n < 2147483648) (rest : Str) : readLen (derLen n ++ rest) = .ok (n, rest) := by
  rw [derLen]
  split
  · rename_i hn
    have : (UInt8.ofNat n).toNat = n := by simp; omega
    simp [readLen, this, hn]
  · rename_i hn
    obtain ⟨b, r, hb, hb0⟩ := bytes_ne_nil (n := n) (by omega)
    have hl : (bytes n).length ≤ 4 := bytes_length_le.mpr (by norm_num; omega)
    have hl1 : 1 ≤ (bytes n).length := by rw [hb]; simp
    have ht : (UInt8.ofNat (128 + (bytes n).length)).toNat = 128 + (bytes n).length := by simp; omega
    have := readLenBytes_bytes (bytes n) rest 0 (.inr (by rw [hb]; intro c hc; simp at hc; exact hc ▸ hb0)) (by rw [ofBytes_bytes]; omega)
    rw [ofBytes_bytes] at this
    rw [List.cons_append, readLen, ht, if_neg (by omega), if_neg (fun e => by rw [e, show (128 : UInt8).toNat = 128 from rfl] at ht; omega), Nat.add_sub_cancel_left, this]
    simp [hn]

theorem readTlv_derTlv {tag : UInt8} {body : Str} (h : body.length < 2147483648) (rest : Str) : readTlv tag (derTlv tag body ++ rest) = .ok (body, rest) := by
  rw [derTlv, List.cons_append, readTlv, if_neg (by simp), List.append_assoc, readLen_derLen h]
  simp

theorem readIntBody_derIntBody (n : Nat) : readIntBody (derIntBody n) = .ok n := by
  by_cases h : n = 0
  · subst h; rw [derIntBody, bytes_zero]; rfl
  · obtain ⟨b, r, hb, hb0⟩ := bytes_ne_nil h
    have hn := ofBytes_bytes n
    rw [hb] at hn
    rw [derIntBody, hb]
    dsimp only
    split
    · rename_i h128
      rw [readIntBody, if_neg (by omega), if_neg (by simp)]
      exact congrArg _ ((ofBytes_zeros 1 (b :: r)).trans hn)
    · rename_i h128
      cases r with
      | nil =>
        rw [readIntBody, if_neg h128]
        simp [ofBytes] at hn
        rw [hn]
      | cons c r => rw [readIntBody, if_neg (fun e => hb0 e.1), if_neg h128, hn]

theorem derIntBody_length {n k : Nat} (this : (bytes n).length ≤ k) : (derIntBody n).length ≤ k + 1 := by
  rw [derIntBody]
  split
  · simp
  · rename_i b r hb
    rw [hb] at this
    split <;> simp at this ⊢ <;> omega

theorem derLen_length {n : Nat} (h : n < 2147483648) : (derLen n).length ≤ 5 := by
  rw [derLen]
  split
  · simp
  · have : (bytes n).length ≤ 4 := bytes_length_le.mpr (by norm_num; omega)
    simp; omega

theorem derInt_length {n k : Nat} (h : (bytes n).length ≤ k) (hk : k < 1000000000) : (derInt n).length ≤ k + 7 := by
  have h1 := derIntBody_length h
  have := derLen_length (n := (derIntBody n).length) (by omega)
  rw [derInt, derTlv, List.length_cons, List.length_append]; omega

theorem readInt_derInt {n k : Nat} (h : (bytes n).length ≤ k) (hk : k < 1000000000) (rest : Str) : readInt (derInt n ++ rest) = .ok (n, rest) := by
  have h1 := derIntBody_length h
  rw [readInt, derInt, readTlv_derTlv (by omega), Out.bind_ok, readIntBody_derIntBody, Out.bind_ok]

/-! Reading does not depend on what follows. -/

theorem readLenBytes_append {n acc m : Nat} {s r : Str} (h : readLenBytes n acc s = .ok (m, r)) (t : Str) : readLenBytes n acc (s ++ t) = .ok (m, r ++ t) := by
  induction n generalizing acc s with
  | zero => simp [readLenBytes] at h ⊢; obtain ⟨rfl, rfl⟩ := h; simp
  | succ n ih =>
    cases s with
    | nil => simp [readLenBytes] at h
    | cons b s =>
      rw [readLenBytes] at h
      rw [List.cons_append, readLenBytes]
      split at h
      · simp at h
      · rename_i h1
        split at h
        · simp at h
        · rename_i h2
          rw [if_neg h1, if_neg h2, ih h]

theorem readLen_append {m : Nat} {s r : Str} (h : readLen s = .ok (m, r)) (t : Str) : readLen (s ++ t) = .ok (m, r ++ t) := by
  cases s with
  | nil => simp [readLen] at h
  | cons b s =>
    rw [readLen] at h
    rw [List.cons_append, readLen]
    split at h
    · rename_i h1; rw [if_pos h1]; simp at h ⊢; obtain ⟨rfl, rfl⟩ := h; simp
    · rename_i h1
      split at h
      · simp at h
      · rename_i h2
        rw [if_neg h1, if_neg h2]
        cases hr : readLenBytes (b.toNat - 128) 0 s with
        | err => simp [hr] at h
        | panic => simp [hr] at h
        | ok x =>
          obtain ⟨a, u⟩ := x
          rw [hr, Out.bind_ok] at h
          dsimp only at h
          split at h
          · simp at h
          · rename_i h3
            rw [readLenBytes_append hr, Out.bind_ok]
            dsimp only
            rw [if_neg h3]
            simp at h
            obtain ⟨rfl, rfl⟩ := h; rfl

theorem readTlv_append {tag : UInt8} {s b r : Str} (h : readTlv tag s = .ok (b, r)) (t : Str) : readTlv tag (s ++ t) = .ok (b, r ++ t) := by
  cases s with
  | nil => simp [readTlv] at h
  | cons c s =>
    rw [readTlv] at h
    rw [List.cons_append, readTlv]
    split at h
    · simp at h
    · rename_i h1
      rw [if_neg h1]
      cases hr : readLen s with
      | err => simp [hr] at h
      | panic => simp [hr] at h
      | ok x =>
        obtain ⟨m, u⟩ := x
        rw [hr, Out.bind_ok] at h
        dsimp only at h
        split at h
        · simp at h
        · rename_i h2
          rw [readLen_append hr, Out.bind_ok]
          dsimp only
          rw [if_neg (by simp; omega)]
          simp at h
          obtain ⟨rfl, rfl⟩ := h
          rw [List.take_append_of_le_length (by omega), List.drop_append_of_le_length (by omega)]

theorem readLenBytes_panic (n acc : Nat) (s : Str) : readLenBytes n acc s ≠ .panic := by
  induction n generalizing acc s with
  | zero => simp [readLenBytes]
  | succ n ih =>
    cases s with
    | nil => simp [readLenBytes]
    | cons b s =>
      rw [readLenBytes]
      split
      · simp
      · split
        · simp
        · exact ih _ _

theorem readTlv_panic (tag : UInt8) (s : Str) : readTlv tag s ≠ .panic := by
  cases s with
  | nil => simp [readTlv]
  | cons c s =>
    rw [readTlv]
    split
    · simp
    · have hl : readLen s ≠ .panic := by
        cases s with
        | nil => simp [readLen]
        | cons b s =>
          rw [readLen]
          split
          · simp
          · split
            · simp
            · cases hr : readLenBytes (b.toNat - 128) 0 s with
              | err => simp
              | panic => exact absurd hr (readLenBytes_panic _ _ _)
              | ok x => rw [Out.bind_ok]; split <;> simp
      cases hr : readLen s with
      | err => simp
      | panic => exact absurd hr hl
      | ok x => rw [Out.bind_ok]; split <;> simp

theorem readInt_panic (s : Str) : readInt s ≠ .panic := by
  rw [readInt]
  cases hr : readTlv 2 s with
  | err => simp
  | panic => exact absurd hr (readTlv_panic _ _)
  | ok x =>
    rw [Out.bind_ok]
    cases hb : readIntBody x.1 with
    | err => simp
    | ok => simp
    | panic =>
      exfalso
      revert hb
      rcases x.1 with _ | ⟨b, _ | ⟨c, r⟩⟩
      · simp [readIntBody]
      · rw [readIntBody]; split <;> simp
      · rw [readIntBody]; split
        · simp
        · split <;> simp

theorem bytes_length_mono {m n : Nat} (h : m ≤ n) : (bytes m).length ≤ (bytes n).length :=
  bytes_length_le.mpr (lt_of_le_of_lt h (bytes_length_le.mp (le_refl _)))

theorem small_length {n : Nat} (h : n < 2147483648) : (bytes n).length ≤ 4 := bytes_length_le.mpr (by norm_num; omega)

/-- Reading a public key which is followed by `t` inside of the sequence and by `u` behind it. -/
theorem pub_roundtrip {k : Pub} (hn : 0 < k.n) (hn' : (bytes k.n).length ≤ 16777216) (he : 0 < k.e) (he' : k.e < 2147483648) {t : Str}
    (ht : t.length ≤ 1073741824) (u : Str) : pubFromBytes (derTlv 48 (derInt k.n ++ derInt k.e ++ t) ++ u) = if u = [] then .ok k else .err := by
  have l1 := derInt_length hn' (by norm_num)
  have l2 := derInt_length (small_length he') (by norm_num)
  rw [pubFromBytes, readTlv_derTlv (by simp only [List.length_append]; omega), Out.bind_ok]
  dsimp only
  rw [List.append_assoc, readInt_derInt hn' (by norm_num), Out.bind_ok]
  dsimp only
  rw [readInt_derInt (small_length he') (by norm_num), Out.bind_ok]
  dsimp only
  by_cases h : u = []
  · rw [if_neg (by simpa using h), if_neg (by omega), if_neg (by omega), if_pos h]; rfl
  · rw [if_pos h, if_neg h]

/-- The numbers of a private key which are read. -/
theorem priv_roundtrip {k : Priv} (hn : (bytes k.pub.n).length ≤ 16777216) (hd : (bytes k.d).length ≤ 16777216) (hp : (bytes k.p).length ≤ 16777216)
    (hq : (bytes k.q).length ≤ 16777216) (he : k.pub.e < 2147483648) {t : Str} (ht : t.length ≤ 1073741824) (u : Str) :
    privFromBytes (derTlv 48 (derInt 0 ++ derInt k.pub.n ++ derInt k.pub.e ++ derInt k.d ++ derInt k.p ++ derInt k.q ++ t) ++ u) =
      if u = [] ∧ k.pub.n ≠ 0 ∧ k.d ≠ 0 ∧ k.p ≠ 0 ∧ k.q ≠ 0 ∧ validate k = true then .ok ⟨k, k.pub⟩ else .err := by
  have l0 := derInt_length (n := 0) (k := 0) (by rw [bytes_zero]; simp) (by norm_num)
  have l1 := derInt_length hn (by norm_num)
  have l2 := derInt_length (small_length he) (by norm_num)
  have l3 := derInt_length hd (by norm_num)
  have l4 := derInt_length hp (by norm_num)
  have l5 := derInt_length hq (by norm_num)
  rw [privFromBytes, readTlv_derTlv (by simp only [List.length_append]; omega), Out.bind_ok]
  simp only [List.append_assoc]
  rw [readInt_derInt (n := 0) (k := 0) (by rw [bytes_zero]; simp) (by norm_num), Out.bind_ok]
  dsimp only
  rw [readInt_derInt hn (by norm_num), Out.bind_ok]
  dsimp only
  rw [readInt_derInt (small_length he) (by norm_num), Out.bind_ok]
  dsimp only
  rw [readInt_derInt hd (by norm_num), Out.bind_ok]
  dsimp only
  rw [readInt_derInt hp (by norm_num), Out.bind_ok]
  dsimp only
  rw [readInt_derInt hq (by norm_num), Out.bind_ok]
  dsimp only
  clear l0 l1 l2 l3 l4 l5 hn hd hp hq he ht
  by_cases h : u = []
  · rw [if_neg (not_not.mpr h), if_neg (by decide)]
    by_cases h0 : k.pub.n = 0 ∨ k.d = 0 ∨ k.p = 0 ∨ k.q = 0
    · rw [if_pos h0, if_neg (fun hh => h0.elim hh.2.1 (fun h1 => h1.elim hh.2.2.1 (fun h2 => h2.elim hh.2.2.2.1 hh.2.2.2.2.1)))]
    · rw [if_neg h0]
      by_cases hv : validate k = true
      · rw [if_pos hv, if_pos ⟨h, fun e => h0 (.inl e), fun e => h0 (.inr (.inl e)), fun e => h0 (.inr (.inr (.inl e))), fun e => h0 (.inr (.inr (.inr e))), hv⟩]; rfl
      · rw [if_neg hv, if_neg (fun hh => hv hh.2.2.2.2.2)]
  · rw [if_pos h, if_neg (fun hh => h hh.1)]

end Verif.Rsa
