import Verif.Lemmas.Hash

/-!
# Properties C01–C04 (`domain/hash`)
-/

namespace Verif
open Hash

/-! ## C01 -/

/-- C01: `FromString(h.String())` is `h`. -/
theorem C01_hash_text_roundtrip (sha : Str → Hash) (h : Hash) :
    fromString sha h.toStr = .ok h := by
  simp [fromString, toStr, hexDecode_hexEncode, fromBytes_bytes]

/-- C01: different hashes have different texts. -/
theorem C01_hash_text_injective (h k : Hash) (e : h.toStr = k.toStr) : h = k := by
  have h1 := C01_hash_text_roundtrip (fun _ => h) h
  have h2 := C01_hash_text_roundtrip (fun _ => h) k
  rw [e, h2] at h1
  simpa using h1.symm

/-- C01: `FromString` succeeds on hexadecimal text of even length and reports an error (never panics)
on everything else. -/
theorem C01_fromString_error_iff (sha : Str → Hash) (s : Str) :
    (SpecHexText s → ∃ h, fromString sha s = .ok h) ∧
    (¬ SpecHexText s → fromString sha s = .err) := by
  constructor
  · intro h
    obtain ⟨b, hb⟩ := (hexDecode_ok_iff s).mpr h
    exact ⟨fromBytes sha b, by simp [fromString, hb]⟩
  · intro h
    rcases hexDecode_ok_or_err s with hb | hb
    · exact absurd ((hexDecode_ok_iff s).mp hb) h
    · simp [fromString, hb]

example : SpecHexText (lit "00fF") ∧ ¬ SpecHexText (lit "00f") ∧ ¬ SpecHexText (lit "0g") := by
  refine ⟨⟨by decide, ?_⟩, fun h => absurd h.1 (by decide), fun h => ?_⟩
  · unfold SpecHexDigit; decide
  · have := h.2 103 (by decide)
    revert this; unfold SpecHexDigit; decide

/-! ## C02 -/

/-- C02: exactly 64 bytes pass through unchanged; everything else is digested. -/
theorem C02_fromBytes_spec (sha : Str → Hash) (b : Str) :
    (b.length = 64 → (fromBytes sha b).bytes = b) ∧ (b.length ≠ 64 → fromBytes sha b = sha b) := by
  constructor
  · intro h; simp [fromBytes_64 sha b h, bytes]
  · intro h; simp [fromBytes, h]

/-- C02: hashing the bytes of a hash gives the hash back. -/
theorem C02_fromBytes_idempotent (sha : Str → Hash) (b : Str) :
    fromBytes sha (fromBytes sha b).bytes = fromBytes sha b := fromBytes_bytes sha _

/-- C02 (weakness): every document of a length other than 64 has a second preimage that anybody can
compute, for every digest function. -/
theorem C02_second_preimage (sha : Str → Hash) (b : Str) (h : b.length ≠ 64) :
    ∃ b', b' ≠ b ∧ fromBytes sha b' = fromBytes sha b :=
  ⟨(fromBytes sha b).bytes, fun e => h (by rw [← e]; exact (fromBytes sha b).2),
    C02_fromBytes_idempotent sha b⟩

example : (lit "this").length ≠ 64 := by decide

/-! ## C03 -/

/-- C03: only the concatenation of the rows matters. -/
theorem C03_multi_is_concat (sha : Str → Hash) (l : List Str) :
    fromMultiBytes sha l = fromBytes sha l.flatten := by
  simp [fromMultiBytes, foldl_append]

/-- C03: regrouping the rows in any way keeps the hash. -/
theorem C03_regroup (sha : Str → Hash) (l m : List Str) (h : l.flatten = m.flatten) :
    fromMultiBytes sha l = fromMultiBytes sha m := by
  rw [C03_multi_is_concat, C03_multi_is_concat, h]

example : [lit "ab", lit "c"].flatten = [lit "a", lit "bc"].flatten := by decide

/-- C03 (negation of "the hash binds the rows"): whatever the digest, some two different
row lists have one hash. -/
theorem C03_not_injective (sha : Str → Hash) : ¬ Function.Injective (fromMultiBytes sha) := by
  intro h
  have := h (C03_regroup sha [lit "ab", lit "c"] [lit "a", lit "bc"] (by decide))
  exact absurd this (by decide)

/-- C03: what is bound: equal hashes of lists with equal row lengths are equal lists, or the two concatenations
are themselves a collision of the digest. -/
theorem C03_binding_same_lengths (sha : Str → Hash) (l m : List Str)
    (hlen : l.map List.length = m.map List.length)
    (h : fromMultiBytes sha l = fromMultiBytes sha m) :
    l = m ∨ (l.flatten ≠ m.flatten ∧ sha l.flatten = sha m.flatten) := by
  rw [C03_multi_is_concat, C03_multi_is_concat] at h
  have hl : l.flatten.length = m.flatten.length := by simp [List.length_flatten, hlen]
  by_cases e : l.flatten = m.flatten
  · left
    clear h hl
    induction l generalizing m with
    | nil => cases m <;> simp_all
    | cons x l ih =>
      cases m with
      | nil => simp at hlen
      | cons y m =>
        simp only [List.map_cons, List.cons.injEq] at hlen
        simp only [List.flatten_cons] at e
        obtain ⟨h1, h2⟩ := List.append_inj e hlen.1
        rw [h1, ih m hlen.2 h2]
  · right
    by_cases h64 : l.flatten.length = 64
    · rw [fromBytes_64 sha _ h64, fromBytes_64 sha _ (hl ▸ h64)] at h
      exact absurd (by simpa using h) e
    · refine ⟨e, ?_⟩
      rw [(C02_fromBytes_spec sha _).2 h64, (C02_fromBytes_spec sha _).2 (hl ▸ h64)] at h
      exact h

example : [lit "ab", lit "c"].map List.length = [lit "xy", lit "z"].map List.length := by decide

/-! ## C04 -/

/-- C04: `Compare` decides equality of the 64 bytes. -/
theorem C04_compare_iff (a b : Hash) : Hash.compare a b = true ↔ a.bytes = b.bytes := by
  simp [Hash.compare, bytesCompare_eq]

/-- C04: `Compare` is an equivalence. -/
theorem C04_compare_equiv : Equivalence (fun a b : Hash => Hash.compare a b = true) :=
  ⟨fun a => (C04_compare_iff a a).mpr rfl,
   fun h => (C04_compare_iff _ _).mpr ((C04_compare_iff _ _).mp h).symm,
   fun h g => (C04_compare_iff _ _).mpr (((C04_compare_iff _ _).mp h).trans ((C04_compare_iff _ _).mp g))⟩

end Verif
