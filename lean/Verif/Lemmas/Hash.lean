import Verif.Model.Hash
import Verif.Spec.Hash

namespace Verif
open Hash

/-! ## Lemmas -/

theorem hexDigit_toNat (n : Nat) (h : n < 16) :
    (hexDigit n).toNat = if n < 10 then 48 + n else 87 + n := by
  unfold hexDigit
  split <;> simp <;> omega

theorem unhex_hexDigit (n : Nat) (h : n < 16) : unhexDigit (hexDigit n) = some n := by
  unfold unhexDigit
  rw [hexDigit_toNat n h]
  by_cases h10 : n < 10
  · simp only [h10, if_true]
    rw [if_pos (by omega)]; simp
  · simp only [h10, if_false]
    rw [if_neg (by omega), if_pos (by omega)]
    simp

theorem hexDecode_hexEncode (b : Str) : hexDecode (hexEncode b) = .ok b := by
  induction b with
  | nil => rfl
  | cons x l ih =>
    have hx := x.toNat_lt
    simp only [hexEncode, hexDecode, unhex_hexDigit _ (show x.toNat / 16 < 16 by omega),
      unhex_hexDigit _ (show x.toNat % 16 < 16 by omega), ih, Out.bind_ok, Out.pure_eq]
    congr 2
    rw [Nat.div_add_mod]
    simp

theorem hexDecode_ok_or_err (s : Str) : (∃ b, hexDecode s = .ok b) ∨ hexDecode s = .err := by
  fun_induction hexDecode s with
  | case1 => simp
  | case2 => simp
  | case3 a b l x y hy hx ih =>
    rcases ih with ⟨r, hr⟩ | hr <;> simp [hr]
  | case4 => simp

theorem unhexDigit_isSome (c : UInt8) : (∃ x, unhexDigit c = some x) ↔ SpecHexDigit c := by
  unfold unhexDigit SpecHexDigit
  constructor
  · intro ⟨x, h⟩
    split at h
    · omega
    · split at h
      · omega
      · split at h
        · omega
        · simp at h
  · intro h
    split
    · simp
    · split
      · simp
      · split
        · simp
        · omega

theorem hexDecode_ok_iff (s : Str) : (∃ b, hexDecode s = .ok b) ↔ SpecHexText s := by
  fun_induction hexDecode s with
  | case1 => simp [SpecHexText]
  | case2 => simp [SpecHexText]
  | case3 a b l x y hy hx ih =>
    have ha := (unhexDigit_isSome a).mp ⟨x, hx⟩
    have hb := (unhexDigit_isSome b).mp ⟨y, hy⟩
    have : SpecHexText (a :: b :: l) ↔ SpecHexText l := by
      simp only [SpecHexText, List.length_cons, List.mem_cons, forall_eq_or_imp, ha, hb, true_and]
      constructor <;> (rintro ⟨h1, h2⟩; exact ⟨by omega, h2⟩)
    rw [this, ← ih]
    constructor
    · rintro ⟨r, hr⟩
      obtain ⟨r', h', _⟩ := Out.bind_eq_ok.mp hr
      exact ⟨r', h'⟩
    · rintro ⟨r, hr⟩
      exact ⟨UInt8.ofNat (16 * x + y) :: r, by simp [hr]⟩
  | case4 a b l h =>
    simp only [reduceCtorEq, exists_false, false_iff]
    rintro ⟨_, h2⟩
    obtain ⟨x, hx⟩ := (unhexDigit_isSome a).mpr (h2 a (by simp))
    obtain ⟨y, hy⟩ := (unhexDigit_isSome b).mpr (h2 b (by simp))
    exact h x y hx hy

theorem foldl_append (l : List Str) (a : Str) :
    l.foldl (fun merged row => merged ++ row) a = a ++ l.flatten := by
  induction l generalizing a with
  | nil => simp
  | cons x l ih => simp [ih, List.append_assoc]

theorem fromBytes_64 (sha : Str → Hash) (b : Str) (h : b.length = 64) :
    fromBytes sha b = ⟨b, h⟩ := by simp [fromBytes, h]

theorem fromBytes_bytes (sha : Str → Hash) (h : Hash) : fromBytes sha h.bytes = h :=
  fromBytes_64 sha h.1 h.2

theorem bytesCompare_eq (a b : Str) : bytesCompare a b = .eq ↔ a = b := by
  induction a generalizing b with
  | nil => cases b <;> simp [bytesCompare]
  | cons x l ih =>
    cases b with
    | nil => simp [bytesCompare]
    | cons y m =>
      simp only [bytesCompare]
      split
      · rename_i h; simp; intro e; subst e; exact absurd h (UInt8.lt_irrefl x)
      · split
        · rename_i h; simp; intro e; subst e; exact absurd h (UInt8.lt_irrefl x)
        · rename_i h1 h2
          have : x = y := UInt8.le_antisymm (UInt8.not_lt.mp h2) (UInt8.not_lt.mp h1)
          simp [this, ih]

end Verif
