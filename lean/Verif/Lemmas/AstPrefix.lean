import Verif.Lemmas.AstValid
import Verif.Lemmas.LexerConst
import Verif.Lemmas.Strings

namespace Verif.Lexer
open Verif.Patterns Verif.Cardinality

/-! ## Positions -/

theorem split_position (n : Nat) : ∀ s : Str, s.length ≤ n → (splitSep 10 [] s).length = s.count 10 + 1 ∧
    ∃ before lastLine, s = before ++ lastLine ∧ (splitSep 10 [] s).getLast? = some lastLine ∧ 10 ∉ lastLine ∧
      (before = [] ∨ before.getLast? = some 10) := by
  induction n with
  | zero =>
    intro s h
    have : s = [] := List.length_eq_zero_iff.mp (by omega)
    subst this
    rw [splitSep_none (by simp)]
    exact ⟨by simp, [], [], by simp⟩
  | succ n ih =>
    intro s h
    by_cases hm : (10 : UInt8) ∈ s
    · cases hs : splitSep 10 [] s with
      | nil => exact absurd hs splitSep_ne_nil
      | cons a r =>
        cases r with
        | nil =>
          obtain ⟨_, h'⟩ := splitSep_single.mp hs
          exact absurd (mem_of_infix_single.mpr hm) h'
        | cons a' r =>
          obtain ⟨b, h1, h2, h3⟩ := (splitSep_cons (by simp)).mp hs
          have ha : (10 : UInt8) ∉ a := by
            intro hm
            apply h2
            simpa using mem_of_infix_single.mpr hm
          have hl : b.length ≤ n := by
            have := congrArg List.length h1
            simp at this
            omega
          obtain ⟨k1, before, lastLine, k2, k3, k4, k5⟩ := ih b hl
          rw [h3] at k1 k3
          refine ⟨?_, a ++ [10] ++ before, lastLine, ?_, ?_, k4, .inr ?_⟩
          · rw [h1]
            simp [List.count_append, List.count_eq_zero.mpr ha] at k1 ⊢
            omega
          · rw [h1, k2]; simp
          · simpa using k3
          · rcases k5 with rfl | k5
            · simp
            · rw [List.getLast?_append, k5]; rfl
    · rw [splitSep_none (by rw [mem_of_infix_single]; exact hm)]
      exact ⟨by simp [List.count_eq_zero.mpr hm], [], s, by simp, by simp, hm, .inl rfl⟩

/-! ## A mandatory constant which is not at the front -/

theorem ruleToRuleMatch_behind {r : Rule} {c : Str} (hc : r.content = .constant c) (h0 : c ≠ []) (n : Nat) {s pre post : Str}
    (hs : s = pre ++ c ++ post) (hp : pre ≠ []) (hfirst : ¬ c <:+: pre ++ c.dropLast) (nx : Bool) (st : St) :
    ∃ x, ruleToRuleMatch (n + 1) r .mandatory s nx st =
        some (.ok ⟨r, .mandatory, [⟨r, some [x]⟩], false⟩, { st with canPrefix := false }) ∧
      x.content = c ∧ x.index = .ok pre.length ∧ x.input = s ∧ ∃ d ds, x.discoveries = d :: ds ∧ d.index = pre.length := by
  have hpl : 0 < pre.length := List.length_pos_iff.mpr hp
  obtain ⟨x, h1, h2, h3, h4⟩ : ∃ x, toResult r s = .ok ⟨r, some [x]⟩ ∧ x.content = c ∧ x.index = .ok pre.length ∧ x.input = s := by
    rcases C37_constant_rule r c hc h0 s with ⟨h', _⟩ | ⟨pre', post', x, hs', hn, h1, h2, h3, h4⟩
    · exact absurd ⟨pre, post, hs.symm⟩ h'
    · refine ⟨x, h1, h2, ?_, h4⟩
      rw [h3]
      congr 1
      have e1 := (first_occ (b := post) h0).mpr hfirst
      have e2 := (first_occ (b := post') h0).mpr hn
      rw [← hs] at e1
      rw [← hs'] at e2
      rcases lt_trichotomy pre'.length pre.length with h | h | h
      · refine absurd ?_ (e1 _ h)
        rw [hs', List.append_assoc, List.drop_left]
        simp
      · exact h
      · refine absurd ?_ (e2 _ h)
        rw [hs, List.append_assoc, List.drop_left]
        simp
  have hi : c <:+: s := ⟨pre, post, hs.symm⟩
  have hr : ∀ st' : St, ruleLoop r .mandatory (st.canPrefix && nx) s.length (n + 1) s [] st' =
      some (.ok [⟨r, some [x]⟩], { st' with canPrefix := false }) := by
    intro st'
    have hle : ¬ s.length < c.length := not_lt.mpr hi.length_le
    simp only [ruleLoop, h1, h3]
    rw [M.bind_some_ok (M.lift_run _ _), M.bind_some_ok (a := ()) (s1 := { st' with canPrefix := false })
      (by simp [notePrefix, hpl])]
    split
    · rfl
    · split
      · rfl
      · split
        · rename_i hlt; simp [RuleResult.content, h2, hle] at hlt
        · simp [reachedMax, Card.delimiter]
  refine ⟨x, ?_, h2, h3, h4, index_zero h3⟩
  unfold ruleToRuleMatch
  rw [M.bind_some_ok (M.get_run _), M.bind_some_ok (hr _), M.bind_some_ok (M.get_run _)]
  simp

/-- The token of a script in which the first mandatory constant of the only line is not at the front. -/
theorem toToken_behind {env : Env} (hch : ∀ k, env.channels k = []) {name : Str} (hname : name ≠ []) {r : Rule} {c : Str}
    (hc : r.content = .constant c) (h0 : c ≠ []) {is : Line}
    (hroot : env.root.element = .mk name [.container (.rule r .mandatory) :: is] []) {s pre post : Str}
    (hs : s = pre ++ c ++ post) (hp : pre ≠ []) (hfirst : ¬ c <:+: pre ++ c.dropLast) (st : St) :
    ∃ x st', toToken env 7 s st = some (.ok (.mk name (some (.mk (.mk 0
        [.mk none (.container (.rule ⟨r, .mandatory, [⟨r, some [x]⟩], false⟩))]) none))), st') ∧
      x.content = c ∧ x.index = .ok pre.length ∧ x.input = s ∧ ∃ d ds, x.discoveries = d :: ds ∧ d.index = pre.length := by
  have hs0 : s ≠ [] := by rw [hs]; simp [h0]
  have hpl : 0 < pre.length := List.length_pos_iff.mpr hp
  obtain ⟨k, hk⟩ := block_direct hch (n := 1) (c := .rule r .mandatory) (deps := env.root.deps) hs0 true true
    { st with recursive := fun _ => none }
  obtain ⟨x, h1, h2, h3, h4, d, ds, h5, h6⟩ := ruleToRuleMatch_behind hc h0 0 hs hp hfirst true
    { recursive := fun _ => none, ranges := k, canPrefix := st.canPrefix }
  have hm : RuleMatch.isValid ⟨r, .mandatory, [⟨r, some [x]⟩], false⟩ = false := by
    simp [RuleMatch.isValid, RuleMatch.amount, RuleMatch.isExact, h5, h6]
    intro _; exact hp
  have hw : wrapRule ⟨r, .mandatory, [⟨r, some [x]⟩], false⟩ = .rule ⟨r, .mandatory, [⟨r, some [x]⟩], false⟩ := by
    simp [wrapRule, Card.isValid, isValidDelim, Card.delimiter]
  have hblock : containerToBlockMatch env 3 (.rule r .mandatory) env.root.deps s true true
      { st with recursive := fun _ => none } = some (.ok (some (.mk none (.container
        (.rule ⟨r, .mandatory, [⟨r, some [x]⟩], false⟩)))), { recursive := fun _ => none, ranges := k, canPrefix := false }) := by
    rw [hk]
    simp only [containerToMatch]
    rw [M.bind_some_ok (a := some (.rule ⟨r, .mandatory, [⟨r, some [x]⟩], false⟩))
      (s1 := { recursive := fun _ => none, ranges := k, canPrefix := false })]
    · rfl
    · rw [M.bind_some_ok h1, hw]; rfl
  refine ⟨x, { recursive := fun _ => none, ranges := k, canPrefix := false }, ?_, h2, h3, h4, d, ds, h5, h6⟩
  unfold toToken
  rw [M.bind_some_ok (M.get_run _), M.bind_some_ok (M.set_run _ _), hroot]
  have hl : lineToMatches env 4 (.container (.rule r .mandatory) :: is) env.root.deps s true
      { st with recursive := fun _ => none } = some (.ok (some [.mk none (.container
        (.rule ⟨r, .mandatory, [⟨r, some [x]⟩], false⟩))]), { recursive := fun _ => none, ranges := k, canPrefix := false }) := by
    simp only [lineToMatches, lineLoop]
    rw [M.bind_some_ok hblock]
    simp [BlockMatch.isValid, BlockContent.isValid, Match.isValid, hm]
  simp only [elementToToken, elementToTokenContent, bestLineToMatches, bestLoop, Element.must, Element.not, Element.name, hname,
    if_false]
  rw [M.bind_some_ok (a := some (.mk (.mk 0 [.mk none (.container
        (.rule ⟨r, .mandatory, [⟨r, some [x]⟩], false⟩))]) none))
      (s1 := { recursive := fun _ => none, ranges := k, canPrefix := false })]
  · rfl
  · rw [M.bind_some_ok (a := some (.mk 0 [.mk none (.container
        (.rule ⟨r, .mandatory, [⟨r, some [x]⟩], false⟩))]))
      (s1 := { recursive := fun _ => none, ranges := k, canPrefix := false })]
    · rfl
    · rw [M.bind_some_ok (a := ⟨0, some (.mk 0 [.mk none (.container
        (.rule ⟨r, .mandatory, [⟨r, some [x]⟩], false⟩))]), none⟩)
        (s1 := { recursive := fun _ => none, ranges := k, canPrefix := false })]
      · rfl
      · rw [M.bind_some_ok hl]
        simp [Best.step, blocksValid, BlockMatch.isValid, BlockContent.isValid, Match.isValid, hm]

end Verif.Lexer
