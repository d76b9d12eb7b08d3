import Verif.Model.Codec

namespace Verif.Codec
open Verif

theorem b64Val_b64Char : ∀ n < 64, b64Val (b64Char n) = some n := by decide

theorem b64Char_ne_nl : ∀ n < 64, b64Char n ≠ 10 ∧ b64Char n ≠ 13 := by decide

theorem b64Val_pad : b64Val pad = none := by decide

theorem b64Encode_no_nl (s : Str) : ∀ c ∈ b64Encode s, c ≠ 10 ∧ c ≠ 13 := by
  fun_induction b64Encode s with
  | case1 a b c rest v ih =>
    have := a.toNat_lt; have := b.toNat_lt; have := c.toNat_lt
    intro x hx
    simp only [List.mem_cons] at hx
    rcases hx with rfl | rfl | rfl | rfl | hx
    · exact b64Char_ne_nl _ (by omega)
    · exact b64Char_ne_nl _ (by omega)
    · exact b64Char_ne_nl _ (by omega)
    · exact b64Char_ne_nl _ (by omega)
    · exact ih x hx
  | case2 a b v =>
    have := a.toNat_lt; have := b.toNat_lt
    intro x hx
    simp only [List.mem_cons, List.not_mem_nil, or_false] at hx
    rcases hx with rfl | rfl | rfl | rfl
    · exact b64Char_ne_nl _ (by omega)
    · exact b64Char_ne_nl _ (by omega)
    · exact b64Char_ne_nl _ (by omega)
    · decide
  | case3 a v =>
    have := a.toNat_lt
    intro x hx
    simp only [List.mem_cons, List.not_mem_nil, or_false] at hx
    rcases hx with rfl | rfl | rfl | rfl
    · exact b64Char_ne_nl _ (by omega)
    · exact b64Char_ne_nl _ (by omega)
    · decide
    · decide
  | case4 => simp

theorem ofNat_eq (a : UInt8) (n : Nat) (h : n = a.toNat) : UInt8.ofNat n = a := by
  subst h; simp

theorem b64Quanta_encode (s : Str) : b64Quanta (b64Encode s) = .ok s := by
  fun_induction b64Encode s with
  | case1 a b c rest v ih =>
    have := a.toNat_lt; have := b.toNat_lt; have := c.toNat_lt
    have hv : v = a.toNat * 65536 + b.toNat * 256 + c.toNat := rfl
    clear_value v
    simp only [b64Quanta, b64Val_b64Char _ (show v / 262144 < 64 by omega),
      b64Val_b64Char _ (show v / 4096 % 64 < 64 by omega), b64Val_b64Char _ (show v / 64 % 64 < 64 by omega),
      b64Val_b64Char _ (show v % 64 < 64 by omega), ih, Out.bind_ok, Out.pure_eq, Out.ok.injEq, List.cons.injEq,
      and_true]
    refine ⟨ofNat_eq _ _ ?_, ofNat_eq _ _ ?_, ofNat_eq _ _ ?_⟩ <;> omega
  | case2 a b v =>
    have := a.toNat_lt; have := b.toNat_lt
    have hv : v = a.toNat * 65536 + b.toNat * 256 := rfl
    clear_value v
    simp only [b64Quanta, b64Val_b64Char _ (show v / 262144 < 64 by omega), b64Val_pad,
      b64Val_b64Char _ (show v / 4096 % 64 < 64 by omega), b64Val_b64Char _ (show v / 64 % 64 < 64 by omega),
      and_self, if_true, Out.ok.injEq, List.cons.injEq, and_true]
    refine ⟨ofNat_eq _ _ ?_, ofNat_eq _ _ ?_⟩ <;> omega
  | case3 a v =>
    have := a.toNat_lt
    have hv : v = a.toNat * 65536 := rfl
    clear_value v
    simp only [b64Quanta, b64Val_b64Char _ (show v / 262144 < 64 by omega), b64Val_pad,
      b64Val_b64Char _ (show v / 4096 % 64 < 64 by omega), 
      and_self, if_true, Out.ok.injEq, List.cons.injEq, and_true]
    refine ofNat_eq _ _ ?_; omega
  | case4 => rfl

theorem b64Decode_encode (s : Str) : b64Decode (b64Encode s) = .ok s := by
  unfold b64Decode
  rw [List.filter_eq_self.mpr, b64Quanta_encode]
  intro a ha
  simpa using b64Encode_no_nl s a ha

/-- Splitting text without separators. -/
theorem split_of_not_mem (sep : UInt8) (s : Str) (h : sep ∉ s) : split sep s = [s] := by
  induction s with
  | nil => rfl
  | cons c s ih =>
    have h1 : c ≠ sep := fun e => h (by simp [e])
    have h2 : sep ∉ s := fun e => h (by simp [e])
    simp [split, h1, ih h2]

theorem split_append (sep : UInt8) (s t : Str) (h : sep ∉ s) :
    split sep (s ++ sep :: t) = s :: split sep t := by
  induction s with
  | nil => simp [split]
  | cons c s ih =>
    have h1 : c ≠ sep := fun e => h (by simp [e])
    have h2 : sep ∉ s := fun e => h (by simp [e])
    simp [split, h1, ih h2]

theorem split_ne_nil (sep : UInt8) (s : Str) : split sep s ≠ [] := by
  cases s with
  | nil => simp [split]
  | cons c s =>
    simp only [split]
    split
    · simp
    · split <;> simp

/-- `strings.Join(strings.Split(s, sep), sep) = s`. -/
theorem intercalate_split (sep : UInt8) (s : Str) : List.intercalate [sep] (split sep s) = s := by
  induction s with
  | nil => rfl
  | cons c s ih =>
    simp only [split]
    split
    · rename_i e
      subst e
      obtain ⟨h, t, e⟩ := List.exists_cons_of_ne_nil (split_ne_nil c s)
      rw [e] at ih ⊢
      simp only [List.intercalate, List.intersperse_cons_cons, List.flatten_cons] at *
      simp [ih]
    · obtain ⟨h, t, e⟩ := List.exists_cons_of_ne_nil (split_ne_nil sep s)
      rw [e] at ih ⊢
      cases t with
      | nil => simp [List.intercalate] at *; exact ih
      | cons x t =>
        simp only [List.intercalate, List.intersperse_cons_cons, List.flatten_cons] at *
        simp [← ih]

theorem length_split (sep : UInt8) (s : Str) : (split sep s).length = s.count sep + 1 := by
  induction s with
  | nil => rfl
  | cons c s ih =>
    simp only [split]
    split
    · rename_i e; subst e; simp [ih]
    · rename_i e
      obtain ⟨h, t, e'⟩ := List.exists_cons_of_ne_nil (split_ne_nil sep s)
      rw [e'] at ih ⊢
      rw [List.count_cons_of_ne (by simpa using e)]
      simpa using ih

end Verif.Codec
