import Verif.Lemmas.LexerBest
import Verif.Lemmas.LexerLang

/-! Rules with constants. -/

namespace Verif.Lexer
open Verif.Patterns Verif.Cardinality

theorem toResult_front {r : Rule} {c : Str} (hc : r.content = .constant c) (h0 : c ≠ []) {s : Str} (h : c <+: s) :
    ∃ x, toResult r s = .ok ⟨r, some [x]⟩ ∧ x.content = c ∧ x.index = .ok 0 ∧ ∃ d ds, x.discoveries = d :: ds ∧ d.index = 0 := by
  rcases C37_constant_rule r c hc h0 s with ⟨h', _⟩ | ⟨pre, post, x, hs, hn, h1, h2, h3, _⟩
  · exact absurd h.isInfix h'
  · have hp : pre = [] := by
      by_contra hp
      apply hn
      have hlen : 0 < pre.length := List.length_pos_iff.mpr hp
      have hcl : 0 < c.length := List.length_pos_iff.mpr h0
      have : c <+: (pre ++ c.dropLast) := by
        apply List.prefix_of_prefix_length_le h (l₃ := s)
        · rw [hs]
          obtain ⟨z, hz⟩ : ∃ z, c = c.dropLast ++ z := ⟨_, (List.dropLast_append_getLast h0).symm⟩
          refine ⟨z ++ post, ?_⟩
          conv_rhs => rw [hz]
          simp
        · simp; omega
      exact this.isInfix
    subst hp
    refine ⟨x, h1, h2, by simpa using h3, ?_⟩
    unfold Result.index at h3
    cases hd : x.discoveries with
    | nil => rw [hd] at h3; simp at h3
    | cons d ds => rw [hd] at h3; simp at h3; exact ⟨d, ds, rfl, h3⟩

theorem toResult_behind {r : Rule} {c : Str} (hc : r.content = .constant c) (h0 : c ≠ []) {s : Str} (h : ¬ c <+: s)
    (hi : c <:+: s) : ∃ x i, toResult r s = .ok ⟨r, some [x]⟩ ∧ x.content = c ∧ x.index = .ok (i + 1) ∧
      (∃ d ds, x.discoveries = d :: ds ∧ d.index = i + 1) := by
  rcases C37_constant_rule r c hc h0 s with ⟨h', _⟩ | ⟨pre, post, x, hs, hn, h1, h2, h3, _⟩
  · exact absurd hi h'
  · cases pre with
    | nil => exact absurd ⟨post, by simpa using hs.symm⟩ h
    | cons p ps =>
      refine ⟨x, ps.length, h1, h2, by simpa using h3, ?_⟩
      unfold Result.index at h3
      cases hd : x.discoveries with
      | nil => rw [hd] at h3; simp at h3
      | cons d ds => rw [hd] at h3; simp at h3; exact ⟨d, ds, rfl, h3⟩

theorem toResult_absent {r : Rule} {c : Str} (hc : r.content = .constant c) (h0 : c ≠ []) {s : Str} (h : ¬ c <:+: s) :
    toResult r s = .ok ⟨r, none⟩ := by
  rcases C37_constant_rule r c hc h0 s with ⟨_, h'⟩ | ⟨pre, post, x, hs, _⟩
  · exact h'
  · exact absurd ⟨pre, post, hs.symm⟩ h

/-- What one attempt of a mandatory constant does. -/
theorem ruleToRuleMatch_mandatory {r : Rule} {c : Str} (hc : r.content = .constant c) (h0 : c ≠ []) (n : Nat) (s : Str)
    (nx : Bool) (st : St) : ∃ m cp, ruleToRuleMatch (n + 1) r .mandatory s nx st = some (.ok m, { st with canPrefix := cp }) ∧
      m.card = .mandatory ∧ (m.isValid = true ↔ c <+: s) ∧ (m.isValid = true → m.discoveries = c) := by
  by_cases h : c <+: s
  · obtain ⟨x, h1, h2, h3, d, ds, h4, h5⟩ := toResult_front hc h0 h
    have hm : RuleMatch.isValid ⟨r, .mandatory, [⟨r, some [x]⟩], st.canPrefix && nx⟩ = true := by
      simp [RuleMatch.isValid, RuleMatch.amount, RuleMatch.isExact, h4, h5, Card.isValid, isValidDelim, Card.delimiter]
    refine ⟨⟨r, .mandatory, [⟨r, some [x]⟩], st.canPrefix && nx⟩, st.canPrefix, ?_, rfl, ?_, ?_⟩
    · have hr : ∀ st' : St, ruleLoop r .mandatory (st.canPrefix && nx) s.length (n + 1) s [] st' =
          some (.ok [⟨r, some [x]⟩], st') := by
        intro st'
        have hle : ¬ s.length < c.length := not_lt.mpr h.length_le
        simp only [ruleLoop, h1, h3]
        rw [M.bind_some_ok (M.lift_run _ _), M.bind_some_ok (a := ()) (s1 := st') (by simp [notePrefix])]
        simp only [gt_iff_lt, lt_self_iff_false, decide_false, Bool.false_and]
        by_cases hl : s.length ≤ c.length
        · simp [RuleResult.content, h2, hl]
        · simp [RuleResult.content, h2, hl, hle, reachedMax, Card.delimiter]
      unfold ruleToRuleMatch
      rw [M.bind_some_ok (M.get_run _), M.bind_some_ok (hr _), M.bind_some_ok (M.get_run _)]
      rfl
    · simp [hm, h]
    · intro _; simp [RuleMatch.discoveries, RuleResult.content, h2]
  · by_cases hi : c <:+: s
    · obtain ⟨x, i, h1, h2, h3, d, ds, h4, h5⟩ := toResult_behind hc h0 h hi
      have hm : RuleMatch.isValid ⟨r, .mandatory, [⟨r, some [x]⟩], false⟩ = false := by
        simp [RuleMatch.isValid, RuleMatch.amount, RuleMatch.isExact, h4, h5]
      refine ⟨⟨r, .mandatory, [⟨r, some [x]⟩], false⟩, false, ?_, rfl, ?_, ?_⟩
      · have hr : ∀ st' : St, ruleLoop r .mandatory (st.canPrefix && nx) s.length (n + 1) s [] st' =
            some (.ok [⟨r, some [x]⟩], { st' with canPrefix := false }) := by
          intro st'
          have hle : ¬ s.length < c.length := not_lt.mpr hi.length_le
          simp only [ruleLoop, h1, h3]
          rw [M.bind_some_ok (M.lift_run _ _), M.bind_some_ok (a := ()) (s1 := { st' with canPrefix := false })
            (by simp [notePrefix])]
          split
          · rfl
          · split
            · rfl
            · split
              · rename_i hlt; simp [RuleResult.content, h2, hle] at hlt
              · simp [reachedMax, Card.delimiter]
        unfold ruleToRuleMatch
        rw [M.bind_some_ok (M.get_run _), M.bind_some_ok (hr _), M.bind_some_ok (M.get_run _)]
        simp
      · simp [hm, h]
      · simp [hm]
    · have h1 := toResult_absent hc h0 hi
      have hm : RuleMatch.isValid ⟨r, .mandatory, [], st.canPrefix && nx⟩ = false := by
        simp [RuleMatch.isValid, RuleMatch.amount, Card.isValid, isValidDelim, Card.delimiter]
      refine ⟨⟨r, .mandatory, [], st.canPrefix && nx⟩, st.canPrefix, ?_, rfl, ?_, ?_⟩
      · have hr : ∀ st' : St, ruleLoop r .mandatory (st.canPrefix && nx) s.length (n + 1) s [] st' =
            some (.ok [], st') := by
          intro st'
          simp [ruleLoop, h1]
        unfold ruleToRuleMatch
        rw [M.bind_some_ok (M.get_run _), M.bind_some_ok (hr _), M.bind_some_ok (M.get_run _)]
        rfl
      · simp [hm, h]
      · simp [hm]

/-- Without channels a container is matched directly. -/
theorem block_direct {env : Env} (hch : ∀ k, env.channels k = []) {n : Nat} {c : PContainer} {deps : List Element} {s : Str}
    (hs : s ≠ []) (ch nx : Bool) (st : St) : ∃ k, containerToBlockMatch env (n + 2) c deps s ch nx st =
      ((containerToMatch env (n + 1) c deps s nx) >>= fun m => match m with
        | none => pure none
        | some x => pure (some (.mk none (.container x)))) { st with ranges := k } := by
  simp only [containerToBlockMatch, hs, if_false]
  cases ch with
  | false =>
    refine ⟨st.ranges, ?_⟩
    simp only [Bool.false_eq_true, if_false]
    rw [M.bind_some_ok (M.pure_run _ _)]
    rfl
  | true =>
    refine ⟨st.ranges + 1, ?_⟩
    rw [M.bind_some_ok (a := none) (s1 := { st with ranges := st.ranges + 1 })]
    · rfl
    · simp only [if_true, findChannelBlockMatch]
      rw [M.bind_some_ok (M.get_run _), M.bind_some_ok (M.set_run _ _), hch]
      simp [channelLoop, M.bind_def]

/-- A mandatory constant in a line. -/
theorem block_mandatory {env : Env} (hch : ∀ k, env.channels k = []) {r : Rule} {c : Str} (hc : r.content = .constant c)
    (h0 : c ≠ []) (n : Nat) (deps : List Element) (s : Str) (ch nx : Bool) (st : St) :
    ∃ b st', containerToBlockMatch env (n + 3) (.rule r .mandatory) deps s ch nx st = some (.ok (some b), st') ∧
      st'.recursive = st.recursive ∧
      (b.isValid = true ↔ c <+: s) ∧ (b.isValid = true → b.discoveries = c) := by
  by_cases hs : s = []
  · subst hs
    refine ⟨.mk none (.next (.constant c)), st, ?_, rfl, ?_, ?_⟩
    · simp only [containerToBlockMatch, if_true, PContainer.cardinality]
      rw [M.bind_some_ok (M.lift_run _ _)]
      simp [Card.isValid, isValidDelim, Card.delimiter, buildNextElement, nextFromRule, hc, h0, M.bind_def]
    · simp [BlockMatch.isValid, BlockContent.isValid, h0]
    · simp [BlockMatch.isValid, BlockContent.isValid]
  · obtain ⟨k, hk⟩ := block_direct (n := n + 1) (c := .rule r .mandatory) (deps := deps) hch hs ch nx st
    obtain ⟨m, cp, h1, h2, h3, h4⟩ := ruleToRuleMatch_mandatory hc h0 n s nx { st with ranges := k }
    refine ⟨.mk none (.container (.rule m)), ⟨cp, st.recursive, k⟩, ?_, ?_, ?_, ?_⟩
    · rw [hk]
      simp only [containerToMatch]
      rw [M.bind_def, M.bind_some_ok h1]
      have : m.card.isValid 0 = false := by rw [h2]; decide
      simp only [wrapRule, this, Bool.false_and, Bool.false_eq_true, if_false, M.pure_run]
    · rfl
    · simpa [BlockMatch.isValid, BlockContent.isValid, Match.isValid] using h3
    · simpa [BlockMatch.isValid, BlockContent.isValid, Match.isValid, BlockMatch.discoveries, BlockContent.discoveries,
        Match.discoveries] using h4

/-- The line of mandatory rules. -/
def mandatoryLine (rs : List Rule) : Line := rs.map (fun r => .container (.rule r .mandatory))

theorem line_mandatory {env : Env} (hch : ∀ k, env.channels k = []) (n : Nat) (deps : List Element) (rs : List Rule) :
    ∀ cs : List Str, List.Forall₂ (fun r c => r.content = .constant c ∧ c ≠ []) rs cs → ∀ ch nx rem acc st,
    blocksValid acc = true → (rs = [] → acc ≠ []) →
    ∃ l st', lineLoop (fun c rem ch next => containerToBlockMatch env (n + 3) c deps rem ch next) (mandatoryLine rs) ch nx rem
        acc st = some (.ok (some l), st') ∧
      (blocksValid l = true ↔ cs.flatten <+: rem) ∧
      (blocksValid l = true → blocksDiscoveries l = blocksDiscoveries acc ++ cs.flatten) := by
  induction rs with
  | nil =>
    intro cs hcs ch nx rem acc st hv hne
    cases hcs
    refine ⟨acc, st, ?_, by simp [hv], by simp⟩
    simp [mandatoryLine, lineLoop, hne]
  | cons r rs ih =>
    intro cs hcs ch nx rem acc st hv _
    obtain ⟨c, cs, ⟨hc, h0⟩, hcs', rfl⟩ := List.forall₂_cons_left_iff.mp hcs
    obtain ⟨b, st', h1, _, h2, h3⟩ := block_mandatory hch hc h0 n deps rem ch nx st
    simp only [mandatoryLine, List.map_cons, lineLoop]
    rw [M.bind_some_ok h1]
    cases hb : b.isValid with
    | false =>
      refine ⟨[b], st', by simp [hb], ?_, ?_⟩
      · simp only [blocksValid, hb, Bool.false_and, Bool.false_eq_true, List.flatten_cons, false_iff]
        intro hp
        have := h2.mpr ((List.prefix_append _ _).trans hp)
        simp [hb] at this
      · simp [blocksValid, hb]
    | true =>
      have hp := h2.mp hb
      have hd := h3 hb
      obtain ⟨post, rfl⟩ := hp
      have hacc : blocksValid (acc ++ [b]) = true := by
        have : ∀ l, blocksValid (l ++ [b]) = (blocksValid l && b.isValid) := by
          intro l; induction l with
          | nil => simp [blocksValid]
          | cons x xs ih => simp [blocksValid, ih, Bool.and_assoc]
        simp [this, hv, hb]
      have hdis : blocksDiscoveries (acc ++ [b]) = blocksDiscoveries acc ++ c := by
        have : ∀ l, blocksDiscoveries (l ++ [b]) = blocksDiscoveries l ++ b.discoveries := by
          intro l; induction l with
          | nil => simp [blocksDiscoveries]
          | cons x xs ih => simp [blocksDiscoveries, ih]
        simp [this, hd]
      obtain ⟨l, st'', k1, k2, k3⟩ := ih cs hcs' (if nx then ch else false) nx post (acc ++ [b]) st' hacc (by simp)
      refine ⟨l, st'', ?_, ?_, ?_⟩
      · simp only [hb, hd, Bool.not_true, Bool.false_eq_true, if_false]
        rw [replaceFirst_prefix (List.prefix_append _ _), List.drop_left]
        have : c.isPrefixOf (c ++ post) = true := isPrefixOf_iff.mpr (List.prefix_append _ _)
        simp only [this, Bool.not_true, Bool.false_eq_true, if_false]
        exact k1
      · simpa [List.prefix_append_right_inj] using k2
      · intro hv'; rw [k3 hv', hdis]; simp

/-- A line of mandatory constants is good exactly when the script begins with their concatenation. -/
theorem lineToMatches_mandatory {env : Env} (hch : ∀ k, env.channels k = []) (n : Nat) (deps : List Element)
    (rs : List Rule) (hrs : rs ≠ []) (cs : List Str)
    (hcs : List.Forall₂ (fun r c => r.content = .constant c ∧ c ≠ []) rs cs) (ch : Bool) (s : Str) (st : St) :
    ∃ l st', lineToMatches env (n + 4) (mandatoryLine rs) deps s ch st = some (.ok (some l), st') ∧
      (blocksValid l = true ↔ cs.flatten <+: s) ∧ (blocksValid l = true → blocksDiscoveries l = cs.flatten) := by
  obtain ⟨l, st', h1, h2, h3⟩ := line_mandatory hch n deps rs cs hcs ch ch s [] st (by simp [blocksValid])
    (fun h => absurd h hrs)
  exact ⟨l, st', by simpa only [lineToMatches] using h1, h2, by simpa [blocksDiscoveries] using h3⟩

theorem LineRuns_unique {env fuel deps s ch ls st ms st' ms' st''} (h : LineRuns env fuel deps s ch ls st ms st')
    (h' : LineRuns env fuel deps s ch ls st ms' st'') : ms = ms' ∧ st' = st'' := by
  induction h generalizing ms' st'' with
  | nil => cases h'; exact ⟨rfl, rfl⟩
  | cons h1 _ ih =>
    cases h' with
    | cons h1' h2' =>
      rw [h1] at h1'
      simp at h1'
      obtain ⟨rfl, rfl⟩ := h1'
      obtain ⟨rfl, rfl⟩ := ih h2'
      exact ⟨rfl, rfl⟩

theorem bestLoop_complete {env fuel deps s ch ls st ms st'} (h : LineRuns env fuel deps s ch ls st ms st') :
    ∀ i b, ∃ b', bestLoop (fun l => lineToMatches env fuel l deps s ch) ls i b st = some (.ok b', st') := by
  induction h with
  | nil s => intro i b; exact ⟨b, rfl⟩
  | @cons l ls s s1 s2 m ms h1 _ ih =>
    intro i b
    cases m with
    | none =>
      obtain ⟨b', h⟩ := ih (i + 1) b
      exact ⟨b', by simp only [bestLoop]; rw [M.bind_some_ok h1]; exact h⟩
    | some m =>
      obtain ⟨b', h⟩ := ih (i + 1) (b.step i m)
      exact ⟨b', by simp only [bestLoop]; rw [M.bind_some_ok h1]; exact h⟩

/-- When the lines can be run, the best line is chosen among their results. -/
theorem bestLine_of_runs {env fuel deps s ch ls st ms st'} (h : LineRuns env fuel deps s ch ls st ms st') :
    ∃ r, bestLineToMatches env (fuel + 1) ls deps s ch st = some (.ok r, st') ∧ BestSpec ms r := by
  obtain ⟨b, hb⟩ := bestLoop_complete h 0 ⟨0, none, none⟩
  refine ⟨b.result, ?_, ?_⟩
  · simp only [bestLineToMatches]
    rw [M.bind_some_ok hb]; rfl
  · obtain ⟨ms', h1, h2⟩ := bestLoop_inv ls [] ⟨0, none, none⟩ st b st'
      ⟨by simp [GoodLine], by simp, by simp, by simp, by simp [BadLine]⟩ hb
    obtain ⟨rfl, _⟩ := LineRuns_unique h h1
    simpa using h2.result

/-- The result of an alternative of constants. -/
def AltResult (s : Str) (m : Option (List BlockMatch)) (cs : List Str) : Prop :=
  ∃ l, m = some l ∧ (blocksValid l = true ↔ cs.flatten <+: s) ∧ (blocksValid l = true → blocksDiscoveries l = cs.flatten)

theorem LineRuns_mandatory {env : Env} (hch : ∀ k, env.channels k = []) (n : Nat) (deps : List Element)
    (s : Str) (ch : Bool) (alts : List (List Rule)) : ∀ css : List (List Str),
    List.Forall₂ (fun rs cs => rs ≠ [] ∧ List.Forall₂ (fun r c => r.content = .constant c ∧ c ≠ []) rs cs) alts css →
    ∀ st, ∃ ms st', LineRuns env (n + 4) deps s ch (alts.map mandatoryLine) st ms st' ∧
      List.Forall₂ (AltResult s) ms css := by
  induction alts with
  | nil => intro css h st; cases h; exact ⟨[], st, .nil _, .nil⟩
  | cons rs alts ih =>
    intro css h st
    obtain ⟨cs, css, ⟨h0, hc⟩, h', rfl⟩ := List.forall₂_cons_left_iff.mp h
    obtain ⟨l, st1, h1, h2, h3⟩ := lineToMatches_mandatory hch n deps rs h0 cs hc ch s st
    obtain ⟨ms, st2, h4, h5⟩ := ih css h' st1
    exact ⟨some l :: ms, st2, .cons h1 h4, .cons ⟨l, rfl, h2, h3⟩ h5⟩

end Verif.Lexer
