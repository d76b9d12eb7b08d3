import Mathlib.Tactic.NormNum.Prime
import Mathlib.NumberTheory.LucasLehmer
import Verif.Lemmas.Rsa

/-!
# Properties C105 and C106 (`domain/cryptography/keys/encryption`)
-/

namespace Verif.Rsa
open Verif Codec

/-- What an RSA private key is: two different primes with the modulus as product, and `e·d = 1` modulo each prime minus one; `e` fits into 31 bits and is not
one. -/
structure IsRsaKey (k : Priv) : Prop where
  p_prime : k.p.Prime
  q_prime : k.q.Prime
  distinct : k.p ≠ k.q
  modulus : k.pub.n = k.p * k.q
  exponent : 2 ≤ k.pub.e ∧ k.pub.e < 2 ^ 31
  inverse_p : k.pub.e * k.d ≡ 1 [MOD k.p - 1]
  inverse_q : k.pub.e * k.d ≡ 1 [MOD k.q - 1]

theorem int_mod_iff {t x : Nat} (hx : 1 < x) : ((t : Int)) % (x - 1 : Int) = 1 % (x - 1 : Int) ↔ t ≡ 1 [MOD x - 1] := by
  have : ((x - 1 : Nat) : Int) = (x : Int) - 1 := by omega
  rw [← this, Nat.ModEq]
  constructor <;> intro h <;> exact_mod_cast h

/-- The check when a key is read accepts all RSA keys. -/
theorem IsRsaKey.validate {k : Priv} (h : IsRsaKey k) : validate k = true := by
  rw [Rsa.validate, Bool.and_eq_true, Bool.and_eq_true, Bool.and_eq_true, checkPub, decide_eq_true_eq, decide_eq_true_eq, decide_eq_true_eq, decide_eq_true_eq]
  have h1 := (int_mod_iff h.p_prime.one_lt).mpr h.inverse_p
  have h2 := (int_mod_iff h.q_prime.one_lt).mpr h.inverse_q
  push_cast at h1 h2
  exact ⟨⟨⟨⟨h.exponent.1, by have := h.exponent.2; norm_num at this; omega⟩, h.p_prime.one_lt, h.q_prime.one_lt, h.modulus.symm⟩, h1⟩, h2⟩

/-! ## C105 -/

/-- C105: for a private key built from an RSA key, `Decrypt(Encrypt(m)) = m` with its public key, for every message which is at least 66 bytes shorter than the
modulus and for every random seed; the ciphertext has the length of the modulus. -/
theorem C105_decrypt_encrypt (sha256 : Str → Str) (hs : ∀ s, (sha256 s).length = 32) (rsa : Priv) (hrsa : IsRsaKey rsa) (k : PrivateKey)
    (hk : buildPriv (some rsa) = .ok k) (seed msg : Str) (hseed : seed.length = 32) (hm : msg.length + 66 ≤ (bytes rsa.pub.n).length) :
    ∃ c, encrypt sha256 k.pub seed msg = .ok c ∧ c.length = (bytes rsa.pub.n).length ∧ decrypt sha256 k c = .ok msg := by
  have : k = ⟨rsa, rsa.pub⟩ := by simpa [buildPriv, buildPub, eq_comm] using hk
  subst this
  exact decrypt_encrypt hs (k := ⟨rsa, rsa.pub⟩) hrsa.validate hrsa.p_prime hrsa.q_prime hrsa.distinct rfl hseed hm

/-- C105: `Encrypt` gives an error exactly on messages which are too long (and for exponents out of range); it never panics. -/
theorem C105_encrypt_iff (sha256 : Str → Str) (k : Pub) (seed msg : Str) :
    (encrypt sha256 k seed msg = .err ↔ ¬(2 ≤ k.e ∧ k.e < 2 ^ 31) ∨ (bytes k.n).length < msg.length + 66) ∧ encrypt sha256 k seed msg ≠ .panic := by
  rw [encrypt]
  by_cases h : checkPub k = true
  · have h' := h
    rw [checkPub, decide_eq_true_eq] at h'
    simp only [h, Bool.not_true, Bool.false_eq_true, if_false]
    have : 2 ≤ k.e ∧ k.e < 2 ^ 31 := ⟨h'.1, by norm_num; omega⟩
    by_cases hl : size k < msg.length + 66
    · rw [if_pos hl]; exact ⟨⟨fun _ => .inr hl, fun _ => rfl⟩, by simp⟩
    · rw [if_neg hl]; exact ⟨⟨by simp, fun h => (h.elim (fun h => absurd this h) (fun h => absurd h hl))⟩, by simp⟩
  · have h' := h
    rw [checkPub, decide_eq_true_eq] at h'
    rw [if_pos (by simpa using h)]
    exact ⟨⟨fun _ => .inl (fun h => h' ⟨h.1, by have := h.2; norm_num at this; omega⟩), fun _ => rfl⟩, by simp⟩

/-- C105 (violation): a factory with at most 520 bits creates keys without an error, but such a key can encrypt no message whatever, not even the empty one. -/
theorem C105_small_keys_violation (sha256 : Str → Str) (rsa : Priv) (hbits : rsa.pub.n < 2 ^ 520) :
    ∃ k, create (.ok rsa) = .ok k ∧ ∀ seed msg, encrypt sha256 k.pub seed msg = .err := by
  refine ⟨⟨rsa, rsa.pub⟩, rfl, fun seed msg => (C105_encrypt_iff _ _ _ _).1.mpr (.inr ?_)⟩
  have : (bytes rsa.pub.n).length ≤ 65 := bytes_length_le.mpr (lt_of_lt_of_eq hbits (by rw [show (256 : Nat) = 2 ^ 8 from rfl, ← pow_mul]))
  show (bytes rsa.pub.n).length < _
  omega

theorem unpad_panic : ∀ s, unpad s ≠ .panic
  | [] => by simp [unpad]
  | b :: r => by
    rw [unpad]
    split
    · exact unpad_panic r
    · split <;> simp

/-- C105: `Decrypt` never panics, and texts which are longer than the modulus are errors. -/
theorem C105_decrypt_total (sha256 : Str → Str) (k : PrivateKey) (c : Str) :
    decrypt sha256 k c ≠ .panic ∧ ((bytes k.key.pub.n).length < c.length → decrypt sha256 k c = .err) := by
  rw [decrypt]
  dsimp only
  constructor
  · split
    · simp
    · split
      · simp
      · split
        · simp
        · split
          · exact unpad_panic _
          · simp
  · intro h
    split
    · rfl
    · rw [if_pos (.inl h)]

/-- An RSA key of 648 bits: two Mersenne primes and the usual exponent. -/
def exKey : Priv where
  p := 2 ^ 127 - 1
  q := 2 ^ 521 - 1
  pub := ⟨(2 ^ 127 - 1) * (2 ^ 521 - 1), 65537⟩
  d := 193900767558032071937636487021452117448910287312278971207800283425644781136078887330150457137153435273259066364624685827854923748501752122182388647400968388233585136878839649485385373845435689473

theorem prime_127 : (mersenne 127).Prime := lucas_lehmer_sufficiency 127 (by norm_num) (by norm_num)

theorem prime_521 : (mersenne 521).Prime := lucas_lehmer_sufficiency 521 (by norm_num) (by norm_num)

set_option maxRecDepth 10000 in
theorem exKey_isRsa : IsRsaKey exKey where
  p_prime := prime_127
  q_prime := prime_521
  distinct := by decide +kernel
  modulus := rfl
  exponent := by decide +kernel
  inverse_p := by show _ % _ = _ % _; decide +kernel
  inverse_q := by show _ % _ = _ % _; decide +kernel

/-- A function with the format of SHA-256. -/
def toySha (s : Str) : Str := (s ++ List.replicate 32 7).take 32

theorem toySha_length (s : Str) : (toySha s).length = 32 := by simp [toySha]

/-- The key encrypts and decrypts a message of 15 bytes, the longest possible. -/
example (seed : Str) (hseed : seed.length = 32) :
    ∃ c, encrypt toySha exKey.pub seed (lit "fifteen letters") = .ok c ∧ decrypt toySha ⟨exKey, exKey.pub⟩ c = .ok (lit "fifteen letters") := by
  obtain ⟨c, h1, _, h2⟩ := C105_decrypt_encrypt toySha toySha_length exKey exKey_isRsa ⟨exKey, exKey.pub⟩ rfl seed (lit "fifteen letters") hseed
    (by have : ¬(bytes exKey.pub.n).length ≤ 80 := fun h => absurd (bytes_length_le.mp h) (by decide +kernel)
        have : (lit "fifteen letters").length = 15 := by decide
        omega)
  exact ⟨c, h1, h2⟩

/-! ## C106 -/

/-- The numbers which occur in practice: those with at most 2^24 bytes (134 million bits). -/
def Handy (n : Nat) : Prop := (bytes n).length ≤ 2 ^ 24

/-- C106: reading the encoding of a public key, as bytes or as text, gives this key, if its numbers are those of a public key. -/
theorem C106_public_roundtrip (k : Pub) (hn : 0 < k.n) (hn' : Handy k.n) (he : 0 < k.e) (he' : k.e < 2 ^ 31) :
    pubFromBytes (pubToBytes k) = .ok k ∧ pubFromEncoded (pubToEncoded k) = .ok k := by
  have main := pub_roundtrip (t := []) hn hn' he he' (by simp) []
  rw [List.append_nil, List.append_nil, if_pos rfl] at main
  exact ⟨main, by rw [pubFromEncoded, pubToEncoded, b64Decode_encode, Out.bind_ok]; exact main⟩

/-- C106: a truncated or lengthened encoding of a public key is an error. -/
theorem C106_public_exact (k : Pub) (hn : 0 < k.n) (hn' : Handy k.n) (he : 0 < k.e) (he' : k.e < 2 ^ 31) :
    (∀ s t, s ++ t = pubToBytes k → t ≠ [] → pubFromBytes s = .err) ∧ ∀ t, t ≠ [] → pubFromBytes (pubToBytes k ++ t) = .err := by
  constructor
  · intro s t hst ht
    have main := C106_public_roundtrip k hn hn' he he'
    have l1 := derInt_length hn' (by norm_num)
    have l2 := derInt_length (small_length he') (by norm_num)
    rw [pubFromBytes]
    cases hr : readTlv 48 s with
    | err => rfl
    | panic => exact absurd hr (readTlv_panic _ _)
    | ok x =>
      obtain ⟨b, r⟩ := x
      have h1 := readTlv_append hr t
      have h2 := readTlv_derTlv (tag := 48) (body := derInt k.n ++ derInt k.e) (by rw [List.length_append]; norm_num at l1; omega) []
      rw [List.append_nil] at h2
      rw [hst, pubToBytes, h2] at h1
      simp at h1
      exact absurd h1.2.2 ht
  · intro t ht
    have := pub_roundtrip (t := []) hn hn' he he' (by simp) t
    rw [List.append_nil, if_neg ht] at this
    exact this

/-- C106: whatever is accepted as a public key has a positive modulus and a positive exponent of at most 31 bits, and reading never panics. -/
theorem C106_public_valid (s : Str) : pubFromBytes s ≠ .panic ∧ ∀ k, pubFromBytes s = .ok k → 0 < k.n ∧ 0 < k.e ∧ k.e < 2 ^ 31 := by
  rw [pubFromBytes]
  cases hs : readTlv 48 s with
  | err => simp
  | panic => exact absurd hs (readTlv_panic _ _)
  | ok seq =>
    rw [Out.bind_ok]
    cases hn : readInt seq.1 with
    | err => simp
    | panic => exact absurd hn (readInt_panic _)
    | ok n =>
      rw [Out.bind_ok]
      cases he : readInt n.2 with
      | err => simp
      | panic => exact absurd he (readInt_panic _)
      | ok e =>
        rw [Out.bind_ok]
        split
        · simp
        · split
          · simp
          · split
            · simp
            · rename_i h1 h2
              refine ⟨by simp [buildPub], fun k hk => ?_⟩
              have : k = ⟨n.1, e.1⟩ := by simpa [buildPub, eq_comm] using hk
              subst this
              norm_num; omega

/-- C106 (violation): the encoding of a public key should be unique, but whatever stands behind the two numbers inside of the sequence is ignored. -/
theorem C106_public_malleable_violation (k : Pub) (hn : 0 < k.n) (hn' : Handy k.n) (he : 0 < k.e) (he' : k.e < 2 ^ 31) (t : Str) (ht : t.length ≤ 2 ^ 30) :
    pubFromBytes (48 :: (derLen (derInt k.n ++ derInt k.e ++ t).length ++ (derInt k.n ++ derInt k.e ++ t))) = .ok k := by
  have := pub_roundtrip (t := t) hn hn' he he' ht []
  rwa [List.append_nil, if_pos rfl] at this

/-- C106: the hash of a public key determines the key, unless SHA-512 has a collision or gives one of the two encodings itself. -/
theorem C106_hash_binds (sha512 : Str → Hash) (k k' : Pub) (hn : 0 < k.n) (hn1 : Handy k.n) (he : 0 < k.e) (he1 : k.e < 2 ^ 31)
    (hn' : 0 < k'.n) (hn1' : Handy k'.n) (he' : 0 < k'.e) (he1' : k'.e < 2 ^ 31) (h : pubToHash sha512 k = pubToHash sha512 k') :
    k = k' ∨ (pubToBytes k ≠ pubToBytes k' ∧ (sha512 (pubToBytes k) = sha512 (pubToBytes k') ∨ (sha512 (pubToBytes k)).bytes = pubToBytes k' ∨
      (sha512 (pubToBytes k')).bytes = pubToBytes k)) := by
  by_cases hb : pubToBytes k = pubToBytes k'
  · have h1 := (C106_public_roundtrip k hn hn1 he he1).1
    have h2 := (C106_public_roundtrip k' hn' hn1' he' he1').1
    rw [hb, h2] at h1
    exact .inl (by simpa [eq_comm] using h1)
  · refine .inr ⟨hb, ?_⟩
    rw [pubToHash, pubToHash, Hash.fromBytes, Hash.fromBytes] at h
    split at h
    · split at h
      · exact absurd (congrArg Hash.bytes h) hb
      · exact .inr (.inr (congrArg Hash.bytes h).symm)
    · split at h
      · exact .inr (.inl (congrArg Hash.bytes h))
      · exact .inl h

/-- C106: reading the encoding of a private key, as bytes or as text, gives this key, if it was built from an RSA key. -/
theorem C106_private_roundtrip (rsa : Priv) (hrsa : IsRsaKey rsa) (hn : Handy rsa.pub.n) (hd : Handy rsa.d) (k : PrivateKey) (hk : buildPriv (some rsa) = .ok k) :
    privFromBytes (privToBytes k) = .ok k ∧ privFromEncoded (privToEncoded k) = .ok k := by
  have : k = ⟨rsa, rsa.pub⟩ := by simpa [buildPriv, buildPub, eq_comm] using hk
  subst this
  have hp0 := hrsa.p_prime.pos
  have hq0 := hrsa.q_prime.pos
  have hp : (bytes rsa.p).length ≤ 16777216 := le_trans (bytes_length_mono (by rw [hrsa.modulus]; exact Nat.le_mul_of_pos_right _ hq0)) hn
  have hq : (bytes rsa.q).length ≤ 16777216 := le_trans (bytes_length_mono (by rw [hrsa.modulus]; exact Nat.le_mul_of_pos_left _ hp0)) hn
  have main := priv_roundtrip hn hd hp hq hrsa.exponent.2
    (t := derInt (rsa.d % (rsa.p - 1)) ++ (derInt (rsa.d % (rsa.q - 1)) ++ derInt (Int.emod (Nat.gcdA rsa.q rsa.p) rsa.p).toNat)) (by
      have l1 := derInt_length (le_trans (bytes_length_mono (Nat.mod_le rsa.d (rsa.p - 1))) hd) (by norm_num)
      have l2 := derInt_length (le_trans (bytes_length_mono (Nat.mod_le rsa.d (rsa.q - 1))) hd) (by norm_num)
      have h3 : (Int.emod (Nat.gcdA rsa.q rsa.p) rsa.p).toNat ≤ rsa.p := by
        have := Int.emod_lt_of_pos (Nat.gcdA rsa.q rsa.p) (by exact_mod_cast hp0 : (0 : Int) < rsa.p)
        change (Nat.gcdA rsa.q rsa.p % (rsa.p : Int)).toNat ≤ rsa.p
        omega
      have l3 := derInt_length (le_trans (bytes_length_mono h3) hp) (by norm_num)
      simp only [List.length_append]
      norm_num at l1 l2
      omega) []
  have hn0 : rsa.pub.n ≠ 0 := by rw [hrsa.modulus]; exact Nat.mul_ne_zero (by omega) (by omega)
  rw [List.append_nil, if_pos ⟨rfl, hn0, by have := validate_pos hrsa.validate hrsa.distinct; omega, by omega, by omega, hrsa.validate⟩] at main
  have main' : privFromBytes (privToBytes ⟨rsa, rsa.pub⟩) = .ok ⟨rsa, rsa.pub⟩ := by rw [← main, privToBytes]; simp only [List.append_assoc]
  exact ⟨main', by rw [privFromEncoded, privToEncoded, b64Decode_encode, Out.bind_ok]; exact main'⟩

/-- C106: whatever is accepted as a private key has consistent numbers and the public key of these numbers. -/
theorem C106_private_valid (s : Str) (k : PrivateKey) (h : privFromBytes s = .ok k) :
    k.pub = k.key.pub ∧ k.key.p * k.key.q = k.key.pub.n ∧ 1 < k.key.p ∧ 1 < k.key.q ∧ 2 ≤ k.key.pub.e ∧ k.key.pub.e < 2 ^ 31 ∧
      k.key.pub.e * k.key.d ≡ 1 [MOD k.key.p - 1] ∧ k.key.pub.e * k.key.d ≡ 1 [MOD k.key.q - 1] := by
  rw [privFromBytes] at h
  simp only [Out.bind_eq_ok] at h
  obtain ⟨_, _, _, _, n, _, e, _, d, _, p, _, q, _, h⟩ := h
  split at h
  · simp at h
  · split at h
    · simp at h
    · split at h
      · simp at h
      · split at h
        · rename_i hv
          have : k = ⟨⟨⟨n.1, e.1⟩, d.1, p.1, q.1⟩, ⟨n.1, e.1⟩⟩ := by simpa [buildPriv, buildPub, eq_comm] using h
          subst this
          rw [validate, Bool.and_eq_true, Bool.and_eq_true, Bool.and_eq_true, checkPub, decide_eq_true_eq, decide_eq_true_eq, decide_eq_true_eq,
            decide_eq_true_eq] at hv
          obtain ⟨⟨⟨he, hp, hq, hn⟩, h1⟩, h2⟩ := hv
          refine ⟨rfl, hn, hp, hq, he.1, by have := he.2; norm_num; dsimp only at this; omega, (int_mod_iff hp).mp (by push_cast; exact h1), (int_mod_iff hq).mp (by push_cast; exact h2)⟩
        · simp at h

/-- C106 (violation): the builder does not validate: it accepts every key with a modulus which is not the product of its primes, and what is written for such
a key cannot be read. -/
theorem C106_unchecked_violation (rsa : Priv) (hbad : rsa.p * rsa.q ≠ rsa.pub.n) (hp1 : 1 < rsa.p) (_hq1 : 1 < rsa.q) (hn : Handy rsa.pub.n) (hd : Handy rsa.d) (hp : Handy rsa.p)
    (hq : Handy rsa.q) (he : rsa.pub.e < 2 ^ 31) : ∃ k, buildPriv (some rsa) = .ok k ∧ privFromBytes (privToBytes k) = .err := by
  refine ⟨⟨rsa, rsa.pub⟩, rfl, ?_⟩
  have main := priv_roundtrip hn hd hp hq he
    (t := derInt (rsa.d % (rsa.p - 1)) ++ (derInt (rsa.d % (rsa.q - 1)) ++ derInt (Int.emod (Nat.gcdA rsa.q rsa.p) rsa.p).toNat)) (by
      have l1 := derInt_length (le_trans (bytes_length_mono (Nat.mod_le rsa.d (rsa.p - 1))) hd) (by norm_num)
      have l2 := derInt_length (le_trans (bytes_length_mono (Nat.mod_le rsa.d (rsa.q - 1))) hd) (by norm_num)
      have h3 : (Int.emod (Nat.gcdA rsa.q rsa.p) rsa.p).toNat ≤ rsa.p := by
        have := Int.emod_lt_of_pos (Nat.gcdA rsa.q rsa.p) (by exact_mod_cast (by omega : 0 < rsa.p) : (0 : Int) < rsa.p)
        change (Nat.gcdA rsa.q rsa.p % (rsa.p : Int)).toNat ≤ rsa.p
        omega
      have l3 := derInt_length (le_trans (bytes_length_mono h3) hp) (by norm_num)
      simp only [List.length_append]
      norm_num at l1 l2 l3
      omega) []
  rw [if_neg (fun h => hbad (by
    have hv := h.2.2.2.2.2
    rw [validate, Bool.and_eq_true, Bool.and_eq_true, Bool.and_eq_true, checkPub, decide_eq_true_eq, decide_eq_true_eq] at hv
    exact hv.1.1.2.2.2)), List.append_nil] at main
  rw [← main, privToBytes]
  simp only [List.append_assoc]

/-- The hypotheses of C106 are met by the key of 648 bits, and those of the violation by the same key with a wrong prime. -/
example : Handy exKey.pub.n ∧ Handy exKey.d ∧ privFromBytes (privToBytes ⟨exKey, exKey.pub⟩) = .ok ⟨exKey, exKey.pub⟩ ∧
    pubFromBytes (pubToBytes exKey.pub) = .ok exKey.pub ∧ privFromBytes (privToBytes ⟨{ exKey with p := 7 }, exKey.pub⟩) = .err := by
  have h : ∀ n, n < 256 ^ 81 → Handy n := fun n hn => le_trans (bytes_length_le.mpr hn) (by norm_num)
  have h1 : Handy exKey.pub.n := h _ (by decide +kernel)
  have h2 : Handy exKey.d := h _ (by decide +kernel)
  refine ⟨h1, h2, (C106_private_roundtrip exKey exKey_isRsa h1 h2 _ rfl).1, (C106_public_roundtrip exKey.pub (by decide +kernel) h1 (by decide +kernel)
    (by decide +kernel)).1, ?_⟩
  obtain ⟨k, h3, h4⟩ := C106_unchecked_violation { exKey with p := 7 } (by decide +kernel) (by decide +kernel) (by decide +kernel) h1 h2 (h _ (by decide +kernel))
    (h _ (by decide +kernel)) (by decide +kernel)
  have : k = ⟨{ exKey with p := 7 }, exKey.pub⟩ := by
    have : buildPriv (some { exKey with p := 7 }) = .ok ⟨{ exKey with p := 7 }, exKey.pub⟩ := rfl
    rw [this] at h3
    exact (Out.ok.inj h3).symm
  rw [this] at h4
  exact h4

/-- C106: a builder without key gives an error, and so does a failed generation; a builder with a key gives exactly this key, with its public key. -/
theorem C106_built (pk : Option Priv) (generated : Out Priv) (hg : generated ≠ .panic) :
    (buildPriv pk = .err ↔ pk = none) ∧ (∀ k, buildPriv pk = .ok k ↔ pk = some k.key ∧ k.pub = k.key.pub) ∧ buildPriv pk ≠ .panic ∧
    (create generated = .err ↔ generated = .err) ∧ (∀ k, create generated = .ok k ↔ generated = .ok k.key ∧ k.pub = k.key.pub) ∧
    (∀ key, buildPub key = .err ↔ key = none) ∧ ∀ key k, buildPub key = .ok k ↔ key = some k := by
  have hb : ∀ pk, (buildPriv pk = .err ↔ pk = none) ∧ (∀ k, buildPriv pk = .ok k ↔ pk = some k.key ∧ k.pub = k.key.pub) ∧ buildPriv pk ≠ .panic := by
    intro pk
    cases pk with
    | none => simp [buildPriv]
    | some k =>
      have : buildPriv (some k) = .ok ⟨k, k.pub⟩ := rfl
      rw [this]
      refine ⟨by simp, fun k' => ?_, by simp⟩
      obtain ⟨a, b⟩ := k'
      simp only [Out.ok.injEq, PrivateKey.mk.injEq, Option.some.injEq]
      constructor
      · rintro ⟨rfl, rfl⟩; exact ⟨rfl, rfl⟩
      · rintro ⟨rfl, rfl⟩; exact ⟨rfl, rfl⟩
  refine ⟨(hb pk).1, (hb pk).2.1, (hb pk).2.2, ?_, ?_, ?_, ?_⟩
  · cases generated with
    | panic => exact absurd rfl hg
    | err => exact ⟨fun _ => rfl, fun _ => rfl⟩
    | ok k =>
      have : create (.ok k) = buildPriv (some k) := rfl
      rw [this, (hb _).1]
      simp
  · intro k
    cases generated with
    | panic => exact absurd rfl hg
    | err =>
      have : create .err = .err := rfl
      rw [this]; simp
    | ok k' =>
      have : create (.ok k') = buildPriv (some k') := rfl
      rw [this, (hb _).2.1]
      simp
  · intro key; cases key <;> simp [buildPub]
  · intro key k; cases key <;> simp [buildPub]

end Verif.Rsa
