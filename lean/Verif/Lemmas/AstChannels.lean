import Verif.Lemmas.LexerChannels
import Verif.Lemmas.AstMirror

namespace Verif.Lexer
open Verif.Patterns Verif.Cardinality

/-- A mandatory constant that is not in the script at all. -/
theorem block_absent {env : Env} {r : Rule} {c : Str} (hc : r.content = .constant c) (h0 : c ≠ []) (n : Nat) (deps : List Element)
    {s : Str} (hs : s ≠ []) (hi : ¬ c <:+: s) (nx : Bool) (st : St) :
    ∃ p, containerToBlockMatch env (n + 3) (.rule r .mandatory) deps s false nx st =
      some (.ok (some (.mk none (.container (.rule ⟨r, .mandatory, [], p⟩)))), st) := by
  have h1 := toResult_absent hc h0 hi
  refine ⟨st.canPrefix && nx, ?_⟩
  have hr : ∀ st' : St, ruleLoop r .mandatory (st.canPrefix && nx) s.length (n + 1) s [] st' = some (.ok [], st') := by
    intro st'
    simp [ruleLoop, h1]
  have hw : wrapRule ⟨r, .mandatory, [], st.canPrefix && nx⟩ = .rule ⟨r, .mandatory, [], st.canPrefix && nx⟩ := by
    simp [wrapRule, Card.isValid, isValidDelim, Card.delimiter]
  simp only [containerToBlockMatch, hs, if_false, Bool.false_eq_true]
  rw [M.bind_some_ok (M.pure_run _ _)]
  simp only [containerToMatch]
  rw [M.bind_some_ok (a := some (.rule ⟨r, .mandatory, [], st.canPrefix && nx⟩)) (s1 := st)]
  · rfl
  · rw [M.bind_some_ok (a := ⟨r, .mandatory, [], st.canPrefix && nx⟩) (s1 := st), hw]
    · rfl
    · unfold ruleToRuleMatch
      rw [M.bind_some_ok (M.get_run _), M.bind_some_ok (hr _), M.bind_some_ok (M.get_run _)]
      rfl

/-- Behind `k` copies of the channel text: the mistake is found behind them. -/
theorem block_channels_absent {env : Env} {zn : Str} (hzn : zn ≠ []) {rz : Rule} {z : Str} (hz : rz.content = .constant z)
    (hz0 : z ≠ []) {zd : List Element} (hch : ∀ k, env.channels k = [constChannel zn rz zd]) {r : Rule} {c : Str}
    (hc : r.content = .constant c) (h0 : c ≠ []) (deps : List Element) (u : Str) (hu0 : u ≠ []) (hu : ¬ z <+: u)
    (hi : ¬ c <:+: u) (cp : Bool) (nm : Str) :
    ∀ (k : Nat) (n : Nat) (st : St), 2 * k + 9 ≤ n →
    ∃ b st', containerToBlockMatch env n (.rule r .mandatory) deps (copies z k ++ u) true true st = some (.ok (some b), st') ∧
      b.isValid = false ∧
      ∀ cur, b.mistake cp [] nm cur = failWith (.rule r.name) [] (cur ++ copies z k) (.cardinalityIsInvalid .mandatory 0) := by
  intro k
  induction k with
  | zero =>
    intro n st hn
    obtain ⟨n, rfl⟩ : ∃ m, n = m + 9 := ⟨n - 9, by omega⟩
    obtain ⟨t, st1, k1, k2, _⟩ := channel_const (env := env) hzn hz hz0 n zd u { st with ranges := st.ranges + 1 }
    have hv : t.isValid = false := by
      cases hv : t.isValid with
      | false => rfl
      | true => exact absurd (k2.mp hv) hu
    have hf : findChannelBlockMatch env (n + 8) (.rule r .mandatory) deps u true st = some (.ok none, st1) := by
      simp only [findChannelBlockMatch]
      rw [M.bind_some_ok (M.get_run _), M.bind_some_ok (M.set_run _ _), hch]
      simp only [channelLoop, constChannel]
      rw [M.bind_some_ok (a := none) (s1 := st1)]
      · rfl
      · rw [M.bind_some_ok k1]
        simp [hv]
    obtain ⟨p, h1⟩ := block_absent (env := env) hc h0 (n + 6) deps hu0 hi true st1
    refine ⟨.mk none (.container (.rule ⟨r, .mandatory, [], p⟩)), st1, ?_, ?_, ?_⟩
    · have e : copies z 0 ++ u = u := by simp [copies]
      rw [e, ← h1]
      simp only [containerToBlockMatch, hu0, if_false, if_true, Bool.false_eq_true]
      rw [M.bind_some_ok hf, M.bind_some_ok (M.pure_run _ _)]
    · simp [BlockMatch.isValid, BlockContent.isValid, Match.isValid, RuleMatch.isValid, RuleMatch.amount, Card.isValid, isValidDelim,
        Card.delimiter]
    · intro cur
      simp [BlockMatch.mistake, BlockContent.mistake, Match.mistake, ruleMistake, RuleMatch.amount, Card.isValid, isValidDelim,
        Card.delimiter, copies]
  | succ k ih =>
    intro n st hn
    obtain ⟨n, rfl⟩ : ∃ m, n = m + 9 := ⟨n - 9, by omega⟩
    have hs : copies z (k + 1) ++ u ≠ [] := by rw [copies_succ]; simp [hz0]
    have hp : z <+: copies z (k + 1) ++ u := by rw [copies_succ]; simp
    obtain ⟨t, st1, k1, k2, k3⟩ := channel_const (env := env) hzn hz hz0 n zd (copies z (k + 1) ++ u)
      { st with ranges := st.ranges + 1 }
    have hv := k2.mpr hp
    obtain ⟨tc, hc1, hc2, hc3⟩ := k3 hv
    obtain ⟨b, st2, h1, h2, h3⟩ := ih (n + 7) st1 (by omega)
    have hdrop : replaceFirst (copies z (k + 1) ++ u) z = copies z k ++ u := by
      rw [replaceFirst_prefix hp, copies_succ, List.append_assoc, List.drop_left]
    have hf : findChannelBlockMatch env (n + 8) (.rule r .mandatory) deps (copies z (k + 1) ++ u) true st =
        some (.ok (some (.mk (some tc.must) (.block b))), st2) := by
      simp only [findChannelBlockMatch]
      rw [M.bind_some_ok (M.get_run _), M.bind_some_ok (M.set_run _ _), hch]
      simp only [channelLoop, constChannel]
      rw [M.bind_some_ok (a := some tc.must) (s1 := st1)]
      · have hpp : z.isPrefixOf (copies z (k + 1) ++ u) = true := isPrefixOf_iff.mpr hp
        simp only [hc2, hpp, Bool.not_true, Bool.false_eq_true, if_false, hdrop]
        rw [M.bind_some_ok h1]
        rfl
      · rw [M.bind_some_ok k1]
        simp [hv, hc1]
    refine ⟨.mk (some tc.must) (.block b), st2, ?_, ?_, ?_⟩
    · simp only [containerToBlockMatch, hs, if_false, if_true]
      rw [M.bind_some_ok hf]
      rfl
    · simp [BlockMatch.isValid, BlockContent.isValid, h2]
    · intro cur
      simp only [BlockMatch.mistake, BlockContent.mistake, hc2, h3]
      rw [copies_succ, List.append_assoc]

/-! ## Not parts -/

theorem bestLine_single {env : Env} {n : Nat} {line : Line} {deps : List Element} {s : Str} {ch : Bool} {st st' : St}
    {l : List BlockMatch} (h : lineToMatches env n line deps s ch st = some (.ok (some l), st'))
    (hne : blocksValid l = true → blocksDiscoveries l ≠ []) :
    bestLineToMatches env (n + 1) [line] deps s ch st = some (.ok (some (.mk 0 l)), st') := by
  obtain ⟨x, hx, hsp⟩ := bestLine_of_runs (LineRuns.cons h (.nil _))
  rw [best_single hsp hne] at hx
  exact hx

theorem token_not {env : Env} {n : Nat} {line nline : Line} {deps : List Element} {s : Str} {ch : Bool} {st st' st'' : St}
    {l nl : List BlockMatch} (h : lineToMatches env n line deps s ch st = some (.ok (some l), st'))
    (h' : lineToMatches env n nline deps s ch st' = some (.ok (some nl), st''))
    (hne : blocksValid l = true → blocksDiscoveries l ≠ []) (hne' : blocksValid nl = true → blocksDiscoveries nl ≠ [])
    {name : Str} (hname : name ≠ []) :
    elementToToken env (n + 3) (.mk name [line] [nline]) deps s ch st =
      some (.ok (.mk name (some (.mk (.mk 0 l) (some (.mk 0 nl))))), st'') := by
  simp only [elementToToken, elementToTokenContent, Element.must, Element.not, Element.name, hname, if_false]
  rw [M.bind_some_ok (a := some (.mk (.mk 0 l) (some (.mk 0 nl)))) (s1 := st'')]
  · rfl
  · rw [M.bind_some_ok (bestLine_single h hne)]
    show (bestLineToMatches env (n + 1) [nline] deps s ch >>= fun not => pure (some (TokenContent.mk (LineMatch.mk 0 l) not))) st' = _
    rw [M.bind_some_ok (bestLine_single h' hne')]
    rfl

theorem lineToMatches_one {env : Env} {n : Nat} {r : Rule} {deps : List Element} {s : Str} {ch : Bool} {st st' : St}
    {b : BlockMatch} (h : containerToBlockMatch env n (.rule r .mandatory) deps s ch ch st = some (.ok (some b), st'))
    (hb : b.isValid = true → b.discoveries <+: s) :
    lineToMatches env (n + 1) [.container (.rule r .mandatory)] deps s ch st = some (.ok (some [b]), st') := by
  simp only [lineToMatches, lineLoop]
  rw [M.bind_some_ok h]
  cases hv : b.isValid with
  | false => simp [hv]
  | true =>
    have : b.discoveries.isPrefixOf s = true := isPrefixOf_iff.mpr (hb hv)
    simp [hv, this]

/-- A mandatory constant at the front of the script, without channels. -/
theorem block_front {env : Env} (hch : ∀ k, env.channels k = []) {r : Rule} {c : Str} (hc : r.content = .constant c) (h0 : c ≠ [])
    (n : Nat) (deps : List Element) {s : Str} (h : c <+: s) (ch nx : Bool) (st : St) :
    ∃ x p st', containerToBlockMatch env (n + 3) (.rule r .mandatory) deps s ch nx st =
      some (.ok (some (.mk none (.container (.rule ⟨r, .mandatory, [⟨r, some [x]⟩], p⟩)))), st') ∧
      x.content = c ∧ x.index = .ok 0 ∧ RuleMatch.isValid ⟨r, .mandatory, [⟨r, some [x]⟩], p⟩ = true ∧
      RuleMatch.discoveries ⟨r, .mandatory, [⟨r, some [x]⟩], p⟩ = c := by
  have hs : s ≠ [] := by
    rintro rfl
    exact h0 (List.prefix_nil.mp h)
  obtain ⟨k, hk⟩ := block_direct hch (n := n + 1) (c := .rule r .mandatory) (deps := deps) hs ch nx st
  obtain ⟨x, h1, h2, h3, d, ds, h4, h5⟩ := toResult_front hc h0 h
  have hm : RuleMatch.isValid ⟨r, .mandatory, [⟨r, some [x]⟩], st.canPrefix && nx⟩ = true := by
    simp [RuleMatch.isValid, RuleMatch.amount, RuleMatch.isExact, h4, h5, Card.isValid, isValidDelim, Card.delimiter]
  have hr : ∀ st' : St, ruleLoop r .mandatory (st.canPrefix && nx) s.length (n + 1) s [] st' =
      some (.ok [⟨r, some [x]⟩], st') := by
    intro st'
    have hle : ¬ s.length < c.length := not_lt.mpr h.length_le
    simp only [ruleLoop, h1, h3]
    rw [M.bind_some_ok (M.lift_run _ _), M.bind_some_ok (a := ()) (s1 := st') (by simp [notePrefix])]
    simp only [gt_iff_lt, lt_self_iff_false, decide_false, Bool.false_and]
    by_cases hl : s.length ≤ c.length
    · simp [RuleResult.content, h2, hl]
    · simp [RuleResult.content, h2, hl, hle, reachedMax, Card.delimiter]
  have hw : wrapRule ⟨r, .mandatory, [⟨r, some [x]⟩], st.canPrefix && nx⟩ =
      .rule ⟨r, .mandatory, [⟨r, some [x]⟩], st.canPrefix && nx⟩ := by
    simp [wrapRule, Card.isValid, isValidDelim, Card.delimiter]
  refine ⟨x, st.canPrefix && nx, { st with ranges := k }, ?_, h2, h3, hm, by simp [RuleMatch.discoveries, RuleResult.content, h2]⟩
  rw [hk]
  simp only [containerToMatch]
  rw [M.bind_some_ok (a := some (.rule ⟨r, .mandatory, [⟨r, some [x]⟩], st.canPrefix && nx⟩)) (s1 := { st with ranges := k })]
  · rfl
  · rw [M.bind_some_ok (a := ⟨r, .mandatory, [⟨r, some [x]⟩], st.canPrefix && nx⟩) (s1 := { st with ranges := k }), hw]
    · rfl
    · unfold ruleToRuleMatch
      rw [M.bind_some_ok (M.get_run _), M.bind_some_ok (hr _), M.bind_some_ok (M.get_run _)]
      rfl

end Verif.Lexer
