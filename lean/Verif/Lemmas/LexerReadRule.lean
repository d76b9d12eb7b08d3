import Verif.Lemmas.LexerConst
import Verif.Spec.LexerRead

/-! How rules read. -/

namespace Verif.Lexer
open Verif.Patterns Verif.Cardinality

theorem maximum_eq (card : Card) : maximum card = card.delimiter.2.map UInt64.toNat := by
  rcases card with _ | _ | _ | _ | (k | ⟨min, _ | max⟩) <;> simp [maximum, Card.delimiter, Specific.delimiter]

theorem reachedMax_iff (card : Card) (n : Nat) (hn : n < 2 ^ 64) : reachedMax card n = true ↔ ∃ m, maximum card = some m ∧ m ≤ n := by
  rw [maximum_eq]
  unfold reachedMax
  cases card.delimiter.2 with
  | none => simp
  | some m =>
    simp [UInt64.le_iff_toNat_le]
    omega

theorem maxReached_iff (card : Card) (n : Nat) : maxReached card.delimiter.2 n = true ↔
    ∃ m, patternTries card = some m ∧ m ≤ n := by
  unfold patternTries
  rw [maximum_eq]
  cases hm : card.delimiter.2 with
  | none => simp [maxReached]
  | some m =>
    by_cases hb : m.toNat < 2 ^ 63
    · constructor
      · intro h
        by_contra hc
        have : n < m.toNat := by simpa [hb] using hc
        simp only [maxReached, decide_eq_true_eq, ge_iff_le] at h
        have h2 : m.toInt64.toInt = (m.toNat : Int) := by
          show m.toBitVec.toInt = _
          rw [BitVec.toInt_eq_toNat_of_lt]
          · rfl
          · show 2 * m.toNat < 2 ^ 64
            omega
        omega
      · rintro ⟨k, hk, hkn⟩
        simp [hb] at hk
        by_contra hc
        have := maxReached_le (m := m) (n := n) (by simpa using hc)
        omega
    · simp only [Option.map_some, Option.some.injEq, hb, if_false]
      refine ⟨fun _ => ⟨0, rfl, Nat.zero_le _⟩, fun _ => maxReached_huge (m := m) (by omega)⟩

theorem limit_succ (o : Option Nat) (n : Nat) : (o.map (· - n)).map (· - 1) = o.map (· - (n + 1)) := by
  cases o with
  | none => rfl
  | some m => simp; omega

theorem leading_empty {p : Pattern} (hp : WellFormed p) : SpecLeading p.choices [] [] := by
  obtain ⟨h1, h2⟩ := hp
  cases hc : p.choices with
  | nil => exact absurd hc h1
  | cons c cs =>
    refine .stop ?_
    intro ts r h
    have hg : c.serie.groups ≠ [] := h2 c (by simp [hc])
    unfold SpecChoice at h
    split at h
    · obtain ⟨t, _, g, gs, _, e, h', _⟩ := h
      simp at e
      exact h' e.1
    · obtain ⟨g, gs, hgs⟩ := List.exists_cons_of_ne_nil hg
      rw [hgs] at h
      generalize he : ([] : Str) = s at h
      cases h with
      | cons h _ =>
        simp at he
        exact h.2.1 he.1

theorem patternReads_none_empty {ps : List Pattern} (hp : ∀ p ∈ ps, WellFormed p) : PatternReads ps [] none :=
  fun p h => leading_empty (hp p h)

theorem fromPatterns_reads {ps : List Pattern} (hp : ∀ p ∈ ps, WellFormed p) {s : Str} (hs : s ≠ []) :
    (∃ r, fromPatterns ps s = .ok r ∧ r.index = .ok 0 ∧ PatternReads ps s (some r.content)) ∨
    (PatternReads ps s none ∧ (fromPatterns ps s = .err ∨ ∃ r i, fromPatterns ps s = .ok r ∧ r.index = .ok i ∧ 0 < i)) := by
  rcases fromPatterns_at_zero hp hs with ⟨r, p, hpp, h1, h2, h3⟩ | h
  · left
    refine ⟨r, h1, h2, ?_⟩
    rcases fromPatterns_cases s ps hp with ⟨a, b⟩ | ⟨pre, q, post, r', i, a, b, c, d, e, f⟩
    · rw [b] at h1; simp at h1
    · rw [h1] at d; simp at d; subst d
      rw [h2] at c; simp at c; subst c
      have hq : q ∈ ps := by rw [a]; simp
      obtain ⟨k1, _, _, k4⟩ := fromPattern_zero (hp q hq) b h2
      refine ⟨pre, q, post, _, a, ?_, k4, ?_, rfl⟩
      · intro x hx
        have hx' : x ∈ ps := by rw [a]; simp [hx]
        have hl : 0 < s.length := List.length_pos_iff.mpr hs
        rcases fromPattern_cases x (hp x hx') s with ⟨k, r', _, h, _, _, _, hi, hno⟩ | ⟨h, _⟩
        · have := e x hx r' k h hi
          simpa using hno 0 this
        · simpa using h 0 hl
      · intro e
        apply k1
        simp [Result.content, e]
  · exact .inr h

theorem resultLoop_reads (ps : List Pattern) (hp : ∀ p ∈ ps, WellFormed p) (card : Card) (fuel : Nat) : ∀ (acc : List Result) (rem : Str),
    rem.length ≤ fuel → ∃ new, resultLoop ps card.delimiter.2 fuel acc rem = .ok (acc ++ new) ∧
      Repeats (PatternReads ps) ((patternTries card).map (· - acc.length)) rem (new.map Result.content) ∧ ∀ r ∈ new, r.index = .ok 0 := by
  induction fuel with
  | zero =>
    intro acc rem h
    have : rem = [] := by simpa using h
    subst this
    exact ⟨[], by simp [resultLoop], .stop (patternReads_none_empty hp), by simp⟩
  | succ fuel ih =>
    intro acc rem h
    simp only [resultLoop]
    by_cases hr : rem = []
    · subst hr
      exact ⟨[], by simp, .stop (patternReads_none_empty hp), by simp⟩
    rw [if_neg hr]
    by_cases hm : maxReached card.delimiter.2 acc.length = true
    · rw [if_pos hm]
      obtain ⟨m, hm1, hm2⟩ := (maxReached_iff card _).mp hm
      refine ⟨[], by simp, ?_, by simp⟩
      have : (patternTries card).map (· - acc.length) = some 0 := by simp [hm1]; omega
      rw [this]
      exact .full
    rw [if_neg hm]
    rcases fromPatterns_reads hp hr with ⟨r, h1, h2, h3⟩ | ⟨h1, h2⟩
    · have hne : r.content ≠ [] := by
        obtain ⟨_, _, _, ts, _, _, h5, h6, h7⟩ := h3
        intro e
        rw [e] at h7
        have h8 := leading_nonempty h5
        cases ts with
        | nil => exact h6 rfl
        | cons t ts =>
          simp at h7
          exact h8 t (by simp) h7.1
      have hlen : (rem.drop r.amount).length ≤ fuel := by
        have : 0 < r.content.length := List.length_pos_iff.mpr hne
        simp [Result.amount]
        omega
      obtain ⟨new, k1, k2, k3⟩ := ih (acc ++ [r]) (rem.drop r.amount) hlen
      rw [h1]
      simp only [h2, Out.bind_ok, gt_iff_lt, lt_irrefl, if_false]
      refine ⟨r :: new, by rw [k1]; simp, ?_, by simpa [h2] using k3⟩
      refine .more ?_ h3 ?_
      · intro e
        apply hm
        rw [maxReached_iff]
        cases hpt : patternTries card with
        | none => rw [hpt] at e; simp at e
        | some m =>
          rw [hpt] at e
          simp at e
          exact ⟨m, rfl, by omega⟩
      · simp only [List.length_append, List.length_singleton] at k2
        rw [limit_succ]
        exact k2
    · refine ⟨[], ?_, .stop h1, by simp⟩
      rcases h2 with h2 | ⟨r, i, h2, h3, h4⟩
      · rw [h2]; simp
      · rw [h2]; simp [h3, h4]

/-- One result of a rule with patterns. -/
theorem toResult_reads {r : Rule} {ps : List Pattern} {card : Card} (hc : r.content = .pattern ps card) (hw : RuleWF r) (s : Str) :
    ∃ res, toResult r s = .ok res ∧ ((res.results = none ∧ RuleReads r s none) ∨
      ∃ m ms, res.results = some (m :: ms) ∧ m.index = .ok 0 ∧ RuleReads r s (some res.content)) := by
  unfold RuleWF at hw
  rw [hc] at hw
  obtain ⟨new, h1, h2, h3⟩ := resultLoop_reads ps hw card s.length [] s le_rfl
  unfold toResult
  rw [hc]
  simp only [List.nil_append, List.length_nil, Nat.sub_zero] at h1 h2
  simp only [h1, Out.bind_ok]
  have hlim : Option.map (fun x => x) (patternTries card) = patternTries card := by cases patternTries card <;> rfl
  rw [hlim] at h2
  cases new with
  | nil =>
    refine ⟨⟨r, none⟩, by simp, .inl ⟨rfl, ?_⟩⟩
    unfold RuleReads
    rw [hc]
    exact ⟨[], h2, by simp⟩
  | cons m ms =>
    refine ⟨⟨r, some (m :: ms)⟩, by simp, .inr ⟨m, ms, rfl, h3 m (by simp), ?_⟩⟩
    unfold RuleReads
    rw [hc]
    exact ⟨_, h2, by simp [RuleResult.content]⟩

end Verif.Lexer
