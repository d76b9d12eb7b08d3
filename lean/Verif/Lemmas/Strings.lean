import Verif.Model.Strings
import Verif.Lemmas.Num
import Mathlib.Data.List.Infix

/-! # Facts about the string functions -/

namespace Verif

theorem ofInt_toNat (n : UInt64) : UInt64.ofInt (n.toNat : Int) = n := by
  have h := n.toNat_lt
  unfold UInt64.ofInt
  have : ((n.toNat : Int) % 2 ^ 64).toNat = n.toNat := by omega
  rw [this]; simp

theorem strIndex_none {sep s : Str} : strIndex sep s = none ↔ ¬ sep <:+: s := by
  induction s with
  | nil => simp [strIndex]
  | cons c cs ih =>
    simp only [strIndex]
    split
    · rename_i h; simp [h.isInfix]
    · rename_i h
      simp only [Option.map_eq_none_iff, ih, List.infix_cons_iff, h, false_or]

theorem strIndex_some {sep s : Str} {m : Nat} : strIndex sep s = some m ↔
    m ≤ s.length ∧ sep <+: s.drop m ∧ ∀ i < m, ¬ sep <+: s.drop i := by
  induction s generalizing m with
  | nil =>
    simp only [strIndex]
    constructor
    · intro h
      split at h
      · simp at h; subst h; simp_all
      · simp at h
    · rintro ⟨h1, h2, _⟩
      simp at h1; subst h1
      simp at h2; simp [h2]
  | cons c cs ih =>
    simp only [strIndex]
    split
    · rename_i h
      constructor
      · intro e; simp at e; subst e; simp [h]
      · rintro ⟨_, _, h3⟩
        by_contra hne
        have : 0 < m := by
          rcases Nat.eq_zero_or_pos m with h0 | h0
          · simp [h0] at hne
          · exact h0
        exact h3 0 this (by simpa using h)
    · rename_i h
      cases m with
      | zero =>
        simp only [List.drop_zero]
        constructor
        · intro e; simp at e
        · rintro ⟨_, h2, _⟩; exact absurd h2 h
      | succ m =>
        have : ((strIndex sep cs).map (· + 1) = some (m + 1)) ↔ strIndex sep cs = some m := by
          simp
        rw [this, ih]
        constructor
        · rintro ⟨a, b, d⟩
          refine ⟨by simp; omega, by simpa using b, ?_⟩
          intro i hi
          cases i with
          | zero => simpa using h
          | succ i => simpa using d i (by omega)
        · rintro ⟨a, b, d⟩
          refine ⟨by simp at a; omega, by simpa using b, ?_⟩
          intro i hi
          simpa using d (i + 1) (by omega)

theorem isPrefix_of_append_len {a b x : Str} (h : a <+: b ++ x) (hl : a.length ≤ b.length) : a <+: b := by
  rw [List.prefix_iff_eq_take] at h ⊢
  rw [List.take_append_of_le_length hl] at h
  exact h

/-- The first occurrence of `sep` in `a ++ sep ++ b` is at `a.length` iff it does not occur in `a` followed by all but
the last byte of `sep`. -/
theorem first_occ {sep a b : Str} (hs : sep ≠ []) :
    (∀ i < a.length, ¬ sep <+: (a ++ sep ++ b).drop i) ↔ ¬ sep <:+: a ++ sep.dropLast := by
  have hpos : 0 < sep.length := List.length_pos_iff.mpr hs
  constructor
  · rintro h ⟨u, v, e⟩
    have hl := congrArg List.length e
    simp at hl
    apply h u.length (by omega)
    have : a ++ sep ++ b = u ++ (sep ++ v) ++ [sep.getLast hs] ++ b := by
      conv_lhs => rw [← List.dropLast_append_getLast hs]
      rw [← List.append_assoc u, e]; simp
    rw [this]
    simp only [List.append_assoc, List.drop_left]
    exact List.prefix_append _ _
  · intro h i hi hp
    apply h
    have e1 : (a ++ sep ++ b).drop i = (a ++ sep.dropLast).drop i ++ ([sep.getLast hs] ++ b) := by
      conv_lhs => rw [← List.dropLast_append_getLast hs]
      have : i ≤ (a ++ sep.dropLast).length := by simp; omega
      rw [← List.drop_append_of_le_length this]; simp
    rw [e1] at hp
    have hlen : sep.length ≤ ((a ++ sep.dropLast).drop i).length := by simp; omega
    exact (isPrefix_of_append_len hp hlen).isInfix.trans (List.drop_suffix _ _).isInfix

theorem splitSep_eq {c : UInt8} {ds s : Str} : splitSep c ds s =
    (match strIndex (c :: ds) s with
    | none => [s]
    | some m => s.take m :: splitSep c ds (s.drop (m + (ds.length + 1)))) := by
  conv_lhs => unfold splitSep
  split <;> rename_i h <;> rw [h]

theorem splitSep_none {c : UInt8} {ds s : Str} (h : ¬ (c :: ds) <:+: s) : splitSep c ds s = [s] := by
  rw [splitSep_eq, strIndex_none.mpr h]

theorem splitSep_ne_nil {c : UInt8} {ds s : Str} : splitSep c ds s ≠ [] := by
  rw [splitSep_eq]; split <;> simp

theorem splitSep_single {c : UInt8} {ds s a : Str} : splitSep c ds s = [a] ↔ a = s ∧ ¬ (c :: ds) <:+: s := by
  constructor
  · intro h
    rw [splitSep_eq] at h
    split at h
    · rename_i h0; simp at h; exact ⟨h.symm, strIndex_none.mp h0⟩
    · simp at h; exact absurd h.2 splitSep_ne_nil
  · rintro ⟨rfl, h⟩; exact splitSep_none h

/-- Splitting at the first occurrence. -/
theorem splitSep_cons {c : UInt8} {ds s a : Str} {r : List Str} (hr : r ≠ []) : splitSep c ds s = a :: r ↔
    ∃ b, s = a ++ (c :: ds) ++ b ∧ ¬ (c :: ds) <:+: a ++ (c :: ds).dropLast ∧ splitSep c ds b = r := by
  have hs : c :: ds ≠ [] := by simp
  constructor
  · intro h
    rw [splitSep_eq] at h
    split at h
    · simp at h; exact absurd h.2.symm (by simpa using hr)
    · rename_i m hm
      simp only [List.cons.injEq] at h
      obtain ⟨h1, h2⟩ := h
      obtain ⟨hm1, ⟨t, ht⟩, hm3⟩ := strIndex_some.mp hm
      have e : s = a ++ (c :: ds) ++ t := by
        rw [← h1, List.append_assoc, ht, List.take_append_drop]
      have hal : a.length = m := by rw [← h1]; simp; omega
      refine ⟨t, e, ?_, ?_⟩
      · rw [← first_occ hs (b := t), ← e, hal]; exact hm3
      · rw [← h2]; congr 1
        rw [← List.drop_drop, ← ht]; simp
  · rintro ⟨b, e, h1, h2⟩
    have hm : strIndex (c :: ds) s = some a.length := by
      rw [strIndex_some]
      refine ⟨by rw [e]; simp, by rw [e]; simp, ?_⟩
      rw [e]; exact (first_occ hs).mpr h1
    rw [splitSep_eq, hm]
    simp only [List.cons.injEq]
    refine ⟨by rw [e]; simp, ?_⟩
    rw [← h2, e]; congr 1
    rw [List.append_assoc, ← List.drop_drop]; simp

theorem splitSep_pair {c : UInt8} {ds s a b : Str} : splitSep c ds s = [a, b] ↔
    s = a ++ (c :: ds) ++ b ∧ ¬ (c :: ds) <:+: a ++ (c :: ds).dropLast ∧ ¬ (c :: ds) <:+: b := by
  rw [splitSep_cons (by simp)]
  constructor
  · rintro ⟨b', e, h1, h2⟩
    obtain ⟨rfl, h3⟩ := splitSep_single.mp h2
    exact ⟨e, h1, h3⟩
  · rintro ⟨e, h1, h2⟩
    exact ⟨b, e, h1, splitSep_single.mpr ⟨rfl, h2⟩⟩

theorem mem_of_infix_single {c : UInt8} {s : Str} : [c] <:+: s ↔ c ∈ s := by
  constructor
  · intro h; exact h.subset (by simp)
  · intro h
    obtain ⟨u, v, e⟩ := List.append_of_mem h
    exact ⟨u, v, by simp [e]⟩

/-! ## Numbers -/

theorem digit_number {n : Nat} (h : n < 2 ^ 63) : atoi (itoaNat n) = .ok (n : Int) := by
  have := atoi_itoa (n : Int) (by omega) (by omega)
  have h0 : ¬ ((n : Int) < 0) := by omega
  simpa [itoa, h0] using this

theorem digit_number_big {n : Nat} (h : 2 ^ 63 ≤ n) : atoi (itoaNat n) = .err := by
  have hd := itoaNat_digits n
  have hv := digits1_itoaNat n
  cases hs : itoaNat n with
  | nil => exact absurd hs (itoaNat_ne_nil n)
  | cons c r =>
    have hc := hd c (by rw [hs]; simp)
    rw [hs] at hv
    have h1 : c ≠ 43 := by rintro rfl; simp at hc
    have h2 : c ≠ 45 := by rintro rfl; simp at hc
    unfold atoi
    simp only
    split
    · rfl
    · rename_i m hm
      split at hm
      · simp_all
      · simp_all
      · rw [hv] at hm; simp at hm; subst hm
        rw [if_neg (by omega)]

/-! ## Trimming -/

theorem trimLeft_id {seqs : List Str} {n : Nat} {s : Str} (h : ∀ q ∈ seqs, ¬ q <+: s) :
    trimLeft seqs n s = s := by
  cases n with
  | zero => rfl
  | succ n =>
    have : seqs.find? (fun q => q.isPrefixOf s) = none := by
      rw [List.find?_eq_none]; intro q hq; simpa using h q hq
    simp [trimLeft, this]

/-- A printable ASCII character that is not a space. -/
def Visible (c : UInt8) : Prop := 33 ≤ c.toNat ∧ c.toNat ≤ 126

theorem spaceSeqs_visible : ∀ q ∈ spaceSeqs, ∃ a ∈ q.head?, ∃ b ∈ q.getLast?,
    (a.toNat < 33 ∨ 126 < a.toNat) ∧ (b.toNat < 33 ∨ 126 < b.toNat) := by
  decide

theorem trimSpace_id {s : Str} (h1 : ∀ c ∈ s.head?, Visible c) (h2 : ∀ c ∈ s.getLast?, Visible c) :
    trimSpace s = s := by
  have hl : trimLeft spaceSeqs s.length s = s := by
    apply trimLeft_id
    intro q hq hp
    obtain ⟨a, ha, _, _, hab, _⟩ := spaceSeqs_visible q hq
    obtain ⟨t, rfl⟩ := hp
    cases q with
    | nil => simp at ha
    | cons x q =>
      simp at ha; subst ha
      have := h1 x (by simp)
      unfold Visible at this; omega
  unfold trimSpace
  simp only [hl]
  rw [trimLeft_id, List.reverse_reverse]
  intro q hq hp
  simp only [List.mem_map] at hq
  obtain ⟨p, hp', rfl⟩ := hq
  obtain ⟨_, _, b, hb, _, hab⟩ := spaceSeqs_visible p hp'
  rw [List.reverse_prefix] at hp
  obtain ⟨t, rfl⟩ := hp
  have : b ∈ (t ++ p).getLast? := by
    rw [List.getLast?_append]; simp at hb; simp [hb]
  have := h2 b this
  unfold Visible at this; omega

theorem trimLeft_suffix (seqs : List Str) (n : Nat) (s : Str) : trimLeft seqs n s <:+ s := by
  induction n generalizing s with
  | zero => simp [trimLeft]
  | succ n ih =>
    simp only [trimLeft]
    split
    · exact List.suffix_rfl
    · exact (ih _).trans (List.drop_suffix _ _)

theorem trimSpace_infix (s : Str) : trimSpace s <:+: s := by
  unfold trimSpace
  have h1 := trimLeft_suffix spaceSeqs s.length s
  have h2 := trimLeft_suffix (spaceSeqs.map List.reverse) (trimLeft spaceSeqs s.length s).length
    (trimLeft spaceSeqs s.length s).reverse
  have h3 := List.reverse_prefix.mpr h2
  rw [List.reverse_reverse] at h3
  exact h3.isInfix.trans h1.isInfix

/-- The number of removals allowed by the fuel is sufficient: nothing that could be removed remains. -/
theorem trimLeft_done {seqs : List Str} (h : ∀ q ∈ seqs, q ≠ []) (n : Nat) (s : Str) (hn : s.length ≤ n) :
    ∀ q ∈ seqs, ¬ q <+: trimLeft seqs n s := by
  induction n generalizing s with
  | zero =>
    have : s = [] := List.length_eq_zero_iff.mp (by omega)
    subst this
    intro q hq hp
    simp [trimLeft] at hp
    exact h q hq hp
  | succ n ih =>
    simp only [trimLeft]
    split
    · rename_i hf
      rw [List.find?_eq_none] at hf
      intro q hq; simpa using hf q hq
    · rename_i q hf
      have hq := List.mem_of_find?_eq_some hf
      have hp := List.find?_some hf
      apply ih
      have := List.length_pos_iff.mpr (h q hq)
      simp; omega

end Verif
