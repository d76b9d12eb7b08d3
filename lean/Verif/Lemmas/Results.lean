import Verif.Lemmas.Patterns

namespace Verif.Patterns
open Verif.Cardinality

/-! # Facts about several patterns and about rule results -/

theorem fromPattern_cases (p : Pattern) (hp : WellFormed p) (s : Str) :
    (∃ k r, k < s.length ∧ fromPattern p s = .ok r ∧ r.input = s.drop k ∧ r.discoveries ≠ [] ∧
      SpecLeading p.choices (s.drop k) (r.discoveries.map Discovery.content) ∧ r.index = .ok k ∧
      ∀ j < k, SpecLeading p.choices (s.drop j) []) ∨
    ((∀ j < s.length, SpecLeading p.choices (s.drop j) []) ∧ fromPattern p s = .err) := by
  have := fromPatternAt_spec p hp 0 s
  simpa [fromPattern] using this

/-- The loop keeps the first of the earliest results. -/
theorem fromPatternsLoop_spec (s : Str) (ps : List Pattern) (hp : ∀ p ∈ ps, WellFormed p)
    (best : Option (Nat × Result)) :
    (fromPatternsLoop s ps best = .ok best ∧
      ∀ q ∈ ps, ∀ r i, fromPattern q s = .ok r → r.index = .ok i → ∃ b, best = some b ∧ b.1 ≤ i) ∨
    (∃ pre p post r i, ps = pre ++ p :: post ∧ fromPattern p s = .ok r ∧ r.index = .ok i ∧
      fromPatternsLoop s ps best = .ok (some (i, r)) ∧
      (∀ b, best = some b → i < b.1) ∧
      (∀ q ∈ pre, ∀ r' i', fromPattern q s = .ok r' → r'.index = .ok i' → i < i') ∧
      (∀ q ∈ post, ∀ r' i', fromPattern q s = .ok r' → r'.index = .ok i' → i ≤ i')) := by
  induction ps generalizing best with
  | nil => left; simp [fromPatternsLoop]
  | cons p ps ih =>
    have ih := ih (fun q hq => hp q (by simp [hq]))
    simp only [fromPatternsLoop]
    rcases fromPattern_cases p (hp p (by simp)) s with ⟨k, r, _, h, _, _, _, hi, _⟩ | ⟨_, h⟩
    · rw [h]
      simp only [hi, Out.bind_ok]
      have take : (∀ b, best = some b → k < b.1) →
          ((fromPatternsLoop s ps (some (k, r)) = .ok (some (k, r)) ∧
            ∀ q ∈ ps, ∀ r' i, fromPattern q s = .ok r' → r'.index = .ok i → ∃ b, some (k, r) = some b ∧ b.1 ≤ i) ∨
          (∃ pre p' post r' i, ps = pre ++ p' :: post ∧ fromPattern p' s = .ok r' ∧ r'.index = .ok i ∧
            fromPatternsLoop s ps (some (k, r)) = .ok (some (i, r')) ∧
            (∀ b, some (k, r) = some b → i < b.1) ∧
            (∀ q ∈ pre, ∀ r' i', fromPattern q s = .ok r' → r'.index = .ok i' → i < i') ∧
            (∀ q ∈ post, ∀ r' i', fromPattern q s = .ok r' → r'.index = .ok i' → i ≤ i'))) →
          ∃ pre p' post r' i, p :: ps = pre ++ p' :: post ∧ fromPattern p' s = .ok r' ∧ r'.index = .ok i ∧
            fromPatternsLoop s ps (some (k, r)) = .ok (some (i, r')) ∧
            (∀ b, best = some b → i < b.1) ∧
            (∀ q ∈ pre, ∀ r' i', fromPattern q s = .ok r' → r'.index = .ok i' → i < i') ∧
            (∀ q ∈ post, ∀ r' i', fromPattern q s = .ok r' → r'.index = .ok i' → i ≤ i') := by
        intro hb hcase
        rcases hcase with ⟨a, b⟩ | ⟨pre, p', post, r', i, a, b, c, d, e, f, g⟩
        · refine ⟨[], p, ps, r, k, rfl, h, hi, a, hb, by simp, ?_⟩
          intro q hq r' i' hq' hi'
          obtain ⟨b', hb', hle⟩ := b q hq r' i' hq' hi'
          simp at hb'; subst hb'; exact hle
        · have hik : i < k := e _ rfl
          refine ⟨p :: pre, p', post, r', i, by simp [a], b, c, d, ?_, ?_, g⟩
          · intro b hbb; exact lt_trans hik (hb b hbb)
          · intro q hq r'' i' hq' hi'
            rcases List.mem_cons.mp hq with rfl | hq
            · rw [h] at hq'; simp at hq'; subst hq'
              rw [hi] at hi'; simp at hi'; subst hi'; exact hik
            · exact f q hq r'' i' hq' hi'
      cases best with
      | none => right; exact take (by simp) (ih (some (k, r)))
      | some b =>
        obtain ⟨j, r0⟩ := b
        simp only
        by_cases hk : k < j
        · rw [if_pos hk]; right; exact take (by rintro b hb; simp at hb; subst hb; exact hk) (ih (some (k, r)))
        · rw [if_neg hk]
          rcases ih (some (j, r0)) with ⟨a, b⟩ | ⟨pre, p', post, r', i, a, b, c, d, e, f, g⟩
          · left
            refine ⟨a, ?_⟩
            intro q hq r' i hq' hi'
            rcases List.mem_cons.mp hq with rfl | hq
            · rw [h] at hq'; simp at hq'; subst hq'
              rw [hi] at hi'; simp at hi'; subst hi'
              exact ⟨_, rfl, by simpa using hk⟩
            · exact b q hq r' i hq' hi'
          · right
            refine ⟨p :: pre, p', post, r', i, by simp [a], b, c, d, e, ?_, g⟩
            intro q hq r'' i' hq' hi'
            rcases List.mem_cons.mp hq with rfl | hq
            · rw [h] at hq'; simp at hq'; subst hq'
              rw [hi] at hi'; simp at hi'; subst hi'
              have : i < j := e _ rfl
              omega
            · exact f q hq r'' i' hq' hi'
    · rw [h]
      simp only
      rcases ih best with ⟨a, b⟩ | ⟨pre, p', post, r', i, a, b, c, d, e, f, g⟩
      · left
        refine ⟨a, ?_⟩
        intro q hq r' i hq' hi'
        rcases List.mem_cons.mp hq with rfl | hq
        · rw [h] at hq'; simp at hq'
        · exact b q hq r' i hq' hi'
      · right
        refine ⟨p :: pre, p', post, r', i, by simp [a], b, c, d, e, ?_, g⟩
        intro q hq r'' i' hq' hi'
        rcases List.mem_cons.mp hq with rfl | hq
        · rw [h] at hq'; simp at hq'
        · exact f q hq r'' i' hq' hi'

theorem fromPatterns_cases (s : Str) (ps : List Pattern) (hp : ∀ p ∈ ps, WellFormed p) :
    ((∀ q ∈ ps, fromPattern q s = .err) ∧ fromPatterns ps s = .err) ∨
    (∃ pre p post r i, ps = pre ++ p :: post ∧ fromPattern p s = .ok r ∧ r.index = .ok i ∧
      fromPatterns ps s = .ok r ∧
      (∀ q ∈ pre, ∀ r' i', fromPattern q s = .ok r' → r'.index = .ok i' → i < i') ∧
      (∀ q ∈ post, ∀ r' i', fromPattern q s = .ok r' → r'.index = .ok i' → i ≤ i')) := by
  rcases fromPatternsLoop_spec s ps hp none with ⟨a, b⟩ | ⟨pre, p, post, r, i, a, b, c, d, e, f, g⟩
  · left
    refine ⟨?_, by simp [fromPatterns, a]⟩
    intro q hq
    rcases fromPattern_cases q (hp q hq) s with ⟨k, r, _, h, _, _, _, hi, _⟩ | ⟨_, h⟩
    · obtain ⟨b', hb', _⟩ := b q hq r k h hi
      simp at hb'
    · exact h
  · right
    exact ⟨pre, p, post, r, i, a, b, c, by simp [fromPatterns, d], f, g⟩

/-- What is found at index 0 is a non-empty prefix. -/
theorem fromPattern_zero {p : Pattern} (hp : WellFormed p) {s : Str} {r : Result} (h : fromPattern p s = .ok r)
    (hi : r.index = .ok 0) : r.content ≠ [] ∧ r.content <+: s ∧ r.input = s ∧
      SpecLeading p.choices s (r.discoveries.map Discovery.content) := by
  rcases fromPattern_cases p hp s with ⟨k, r', _, h', h1, h2, h3, hi', _⟩ | ⟨_, h'⟩
  · rw [h] at h'; simp at h'; subst h'
    rw [hi] at hi'; simp at hi'; subst hi'
    simp only [List.drop_zero] at h1 h3
    obtain ⟨k1, k2⟩ := SpecLeading_prefix h3
    refine ⟨?_, k1, h1, h3⟩
    cases hd : r.discoveries with
    | nil => exact absurd hd h2
    | cons d ds =>
      have := k2 d.content (by rw [hd]; simp)
      unfold Result.content
      rw [hd]; simp [this]
  · rw [h] at h'; simp at h'

theorem fromPatterns_at_zero {ps : List Pattern} (hp : ∀ p ∈ ps, WellFormed p) {s : Str} (hs : s ≠ []) :
    (∃ r p, p ∈ ps ∧ fromPatterns ps s = .ok r ∧ r.index = .ok 0 ∧ fromPattern p s = .ok r) ∨
    ((∀ p ∈ ps, SpecLeading p.choices s []) ∧
      (fromPatterns ps s = .err ∨ ∃ r i, fromPatterns ps s = .ok r ∧ r.index = .ok i ∧ 0 < i)) := by
  have hl : 0 < s.length := List.length_pos_iff.mpr hs
  rcases fromPatterns_cases s ps hp with ⟨a, b⟩ | ⟨pre, p, post, r, i, a, b, c, d, e, f⟩
  · right
    refine ⟨?_, .inl b⟩
    intro q hq
    rcases fromPattern_cases q (hp q hq) s with ⟨k, r, _, h, _⟩ | ⟨h, _⟩
    · rw [a q hq] at h; simp at h
    · simpa using h 0 hl
  · rcases Nat.eq_zero_or_pos i with rfl | hpos
    · left; exact ⟨r, p, by rw [a]; simp, d, c, b⟩
    · right
      refine ⟨?_, .inr ⟨r, i, d, c, hpos⟩⟩
      intro q hq
      rcases fromPattern_cases q (hp q hq) s with ⟨k, r', _, h, _, _, _, hi, hno⟩ | ⟨h, _⟩
      · rcases Nat.eq_zero_or_pos k with rfl | hk
        · exfalso
          rw [a] at hq
          rcases List.mem_append.mp hq with hq | hq
          · have := e q hq r' 0 h hi; omega
          · rcases List.mem_cons.mp hq with rfl | hq
            · rw [b] at h; simp at h; subst h
              rw [c] at hi; simp at hi; omega
            · have := f q hq r' 0 h hi; omega
        · simpa using hno 0 hk
      · simpa using h 0 hl

theorem maxReached_le {m : UInt64} {n : Nat} (h : maxReached (some m) n = false) : n < m.toNat := by
  simp only [maxReached, decide_eq_false_iff_not, not_le, ge_iff_le] at h
  have h2 : m.toInt64.toInt ≤ m.toNat := by
    have : m.toInt64.toInt = (m.toNat : Int).bmod (2 ^ 64) := by
      show m.toBitVec.toInt = _
      rw [BitVec.toInt_eq_toNat_bmod]; rfl
    rw [this]
    have := @Int.bmod_le (m.toNat : Int) (2 ^ 64) (by decide)
    rw [Int.bmod_def]
    split
    · omega
    · omega
  omega

theorem maxReached_huge {m : UInt64} {n : Nat} (h : 2 ^ 63 ≤ m.toNat) : maxReached (some m) n = true := by
  simp only [maxReached, decide_eq_true_eq, ge_iff_le]
  have h3 := m.toNat_lt
  have : m.toInt64.toInt = (m.toNat : Int).bmod (2 ^ 64) := by
    show m.toBitVec.toInt = _
    rw [BitVec.toInt_eq_toNat_bmod]; rfl
  rw [this, Int.bmod_def]
  split <;> omega

theorem maxReached_small {m : UInt64} {n : Nat} (h : m.toNat < 2 ^ 63) :
    maxReached (some m) n = true ↔ m.toNat ≤ n := by
  simp only [maxReached, decide_eq_true_eq, ge_iff_le]
  have : m.toInt64.toInt = (m.toNat : Int).bmod (2 ^ 64) := by
    show m.toBitVec.toInt = _
    rw [BitVec.toInt_eq_toNat_bmod]; rfl
  rw [this, Int.bmod_def]
  split <;> omega

theorem resultLoop_spec (ps : List Pattern) (hp : ∀ p ∈ ps, WellFormed p) (pMax : Option UInt64) (fuel : Nat)
    (acc : List Result) (rem : Str) (hf : rem.length ≤ fuel) :
    ∃ new rest, resultLoop ps pMax fuel acc rem = .ok (acc ++ new) ∧
      rem = (new.map Result.content).flatten ++ rest ∧
      (∀ r ∈ new, r.index = .ok 0 ∧ r.content ≠ [] ∧ ∃ p ∈ ps, ∃ s, s <:+ rem ∧ fromPattern p s = .ok r) ∧
      (new = [] ∨ ∀ m, pMax = some m → acc.length + new.length ≤ m.toNat) ∧
      (rest = [] ∨ maxReached pMax (acc.length + new.length) = true ∨ ∀ p ∈ ps, SpecLeading p.choices rest []) := by
  induction fuel generalizing acc rem with
  | zero =>
    have : rem = [] := List.length_eq_zero_iff.mp (by omega)
    subst this
    exact ⟨[], [], by simp [resultLoop], by simp, by simp, by simp, by simp⟩
  | succ fuel ih =>
    simp only [resultLoop]
    by_cases hr : rem = []
    · rw [if_pos hr]
      exact ⟨[], rem, by simp, by simp, by simp, by simp, .inl hr⟩
    rw [if_neg hr]
    by_cases hm : maxReached pMax acc.length = true
    · rw [if_pos hm]
      exact ⟨[], rem, by simp, by simp, by simp, by simp, .inr (.inl (by simpa using hm))⟩
    rw [if_neg hm]
    have stop : (∀ p ∈ ps, SpecLeading p.choices rem []) → ∃ new rest, Out.ok acc = Out.ok (acc ++ new) ∧
      rem = (new.map Result.content).flatten ++ rest ∧
      (∀ r ∈ new, r.index = .ok 0 ∧ r.content ≠ [] ∧ ∃ p ∈ ps, ∃ s, s <:+ rem ∧ fromPattern p s = .ok r) ∧
      (new = [] ∨ ∀ m, pMax = some m → acc.length + new.length ≤ m.toNat) ∧
      (rest = [] ∨ maxReached pMax (acc.length + new.length) = true ∨ ∀ p ∈ ps, SpecLeading p.choices rest []) :=
      fun h => ⟨[], rem, by simp, by simp, by simp, by simp, .inr (.inr h)⟩
    rcases fromPatterns_at_zero hp hr with ⟨r, p, hpp, h1, h2, h3⟩ | ⟨h1, h2 | ⟨r, i, h2, h3, h4⟩⟩
    · obtain ⟨k1, ⟨t, k2⟩, _, _⟩ := fromPattern_zero (hp p hpp) h3 h2
      rw [h1]
      simp only [h2, Out.bind_ok, gt_iff_lt, lt_irrefl, if_false]
      have hd : rem.drop r.amount = t := by rw [← k2]; simp [Result.amount]
      have hlen : t.length ≤ fuel := by
        have := congrArg List.length k2
        have := List.length_pos_iff.mpr k1
        simp at *; omega
      rw [hd]
      obtain ⟨new, rest, e1, e2, e3, e4, e5⟩ := ih (acc ++ [r]) t hlen
      refine ⟨r :: new, rest, by rw [e1]; simp, ?_, ?_, .inr ?_, ?_⟩
      · rw [← k2]; conv_lhs => rw [e2]
        simp
      · intro x hx
        rcases List.mem_cons.mp hx with rfl | hx
        · exact ⟨h2, k1, p, hpp, rem, List.suffix_rfl, h3⟩
        · obtain ⟨a, b, q, hq, s, hs, hfp⟩ := e3 x hx
          exact ⟨a, b, q, hq, s, hs.trans ⟨_, k2⟩, hfp⟩
      · intro m hmm
        subst hmm
        rcases e4 with rfl | e4
        · have := maxReached_le (by simpa using hm)
          simp; omega
        · have := e4 m rfl
          simp at this ⊢; omega
      · rcases e5 with e5 | e5 | e5
        · exact .inl e5
        · right; left
          have : acc.length + (r :: new).length = (acc ++ [r]).length + new.length := by simp; omega
          rw [this]; exact e5
        · exact .inr (.inr e5)
    · rw [h2]; exact stop h1
    · rw [h2]
      simp only [h3, Out.bind_ok, gt_iff_lt, h4, if_true, Out.pure_eq]
      exact stop h1

end Verif.Patterns
