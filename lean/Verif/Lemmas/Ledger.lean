import Verif.Spec.Ledger
import Verif.Lemmas.Num
import Verif.Props.Hash

namespace Verif.Ledger
open Verif

theorem toInt_range (n : Int) : -2 ^ 63 ≤ toInt n ∧ toInt n < 2 ^ 63 := by
  unfold toInt
  have h1 := @Int.le_bmod n (2 ^ 64) (by decide)
  have h2 := @Int.bmod_lt n (2 ^ 64) (by decide)
  constructor
  · have : -(((2 ^ 64 : Nat) : Int) / 2) = -2 ^ 63 := by decide
    omega
  · have : (((2 ^ 64 : Nat) : Int) + 1) / 2 = 2 ^ 63 := by decide
    omega

theorem toInt_eq_self {n : Int} (h : -2 ^ 63 ≤ n ∧ n < 2 ^ 63) : toInt n = n := by
  unfold toInt
  apply Int.bmod_eq_of_le <;> omega

theorem itoa_length_pos (n : Int) : 1 ≤ (itoa n).length := by
  unfold itoa
  split
  · simp
  · exact List.length_pos_iff.mpr (itoaNat_ne_nil _)

theorem itoa_length_le {n : Int} (h : -2 ^ 63 ≤ n ∧ n < 2 ^ 63) : (itoa n).length ≤ 20 := by
  have h2 : (itoaNat n.natAbs).length ≤ 19 := by
    apply itoaNat_length_le (by omega)
    omega
  unfold itoa
  split
  · simp; omega
  · omega

theorem uintText_len (n : UInt64) : 1 ≤ (uintText n).length ∧ (uintText n).length ≤ 20 :=
  ⟨itoa_length_pos _, itoa_length_le (toInt_range _)⟩

theorem secondsText_len (t : Time) : 1 ≤ (secondsText t).length ∧ (secondsText t).length ≤ 20 :=
  ⟨itoa_length_pos _, itoa_length_le (toInt_range _)⟩

theorem nanosText_len (t : Time) : 1 ≤ (nanosText t).length ∧ (nanosText t).length ≤ 20 :=
  ⟨itoa_length_pos _, itoa_length_le (toInt_range _)⟩

theorem uintText_injective {n m : UInt64} (h : uintText n = uintText m) : n = m := by
  have h1 := itoa_injective h
  have hn := n.toNat_lt
  have hm := m.toNat_lt
  unfold toInt at h1
  apply UInt64.toNat_inj.mp
  have h2 : ((n.toNat : Int) - m.toNat) % (2 ^ 64 : Nat) = 0 := by
    have h3 : (n.toNat : Int) % (2 ^ 64 : Nat) = (m.toNat : Int) % (2 ^ 64 : Nat) := by
      have a := @Int.bmod_emod (n.toNat : Int) (2 ^ 64)
      have b := @Int.bmod_emod (m.toNat : Int) (2 ^ 64)
      rw [← a, ← b, h1]
    omega
  omega

theorem secondsText_injective {t u : Time} (ht : SecondsFit t) (hu : SecondsFit u)
    (h : secondsText t = secondsText u) : t / 1000000000 = u / 1000000000 := by
  have := itoa_injective h
  rwa [toInt_eq_self ht, toInt_eq_self hu] at this

theorem nanosText_injective {t u : Time} (ht : NanosFit t) (hu : NanosFit u)
    (h : nanosText t = nanosText u) : t = u := by
  have := itoa_injective h
  rwa [toInt_eq_self ht, toInt_eq_self hu] at this

@[simp] theorem bytes_len (h : Hash) : h.bytes.length = 64 := h.2

theorem bytes_injective {a b : Hash} (h : a.bytes = b.bytes) : a = b := Subtype.ext h

variable (sha : Str → Hash)

/-- Equal digests of two long strings: equal strings or a collision. -/
theorem eq_or_collision {x y : Str} (hx : x.length ≠ 64) (hy : y.length ≠ 64)
    (h : Hash.fromBytes sha x = Hash.fromBytes sha y) : x = y ∨ Collision sha x y := by
  by_cases e : x = y
  · exact .inl e
  · right
    rw [(C02_fromBytes_spec sha _).2 hx, (C02_fromBytes_spec sha _).2 hy] at h
    exact ⟨e, h⟩

theorem uintText_small {n : UInt64} (h : n.toNat < 2 ^ 63) : uintText n = itoaNat n.toNat := by
  unfold uintText
  rw [toInt_eq_self (by omega)]
  unfold itoa
  simp

end Verif.Ledger
