import Verif.Lemmas.AstPrefix
import Verif.Lemmas.LexerDiverge

/-! A repeated constant behind one other byte, with and without prefixes. -/

namespace Verif.Lexer
open Verif.Patterns Verif.Cardinality

/-- The token when the first rule of the only line is invalid. -/
theorem toToken_rule_invalid {env : Env} (hch : ∀ k, env.channels k = []) {name : Str} (hname : name ≠ []) {r : Rule}
    {card : Card} (h0 : card.isValid 0 = false) {is : Line} {n : Nat}
    (hroot : env.root.element = .mk name [.container (.rule r card) :: is] []) {s : Str} (hs0 : s ≠ []) {st : St} {rm : RuleMatch}
    {cp : Bool} (hcard : rm.card = card) (hm : rm.isValid = false)
    (hr : ∀ k, ruleToRuleMatch (n + 1) r card s true { recursive := fun _ => none, ranges := k, canPrefix := st.canPrefix } =
      some (.ok rm, { recursive := fun _ => none, ranges := k, canPrefix := cp })) :
    ∃ st', toToken env (n + 7) s st = some (.ok (.mk name (some (.mk (.mk 0
        [.mk none (.container (.rule rm))]) none))), st') ∧ st'.canPrefix = cp := by
  obtain ⟨k, hk⟩ := block_direct hch (n := n + 1) (c := .rule r card) (deps := env.root.deps) hs0 true true
    { st with recursive := fun _ => none }
  have h1 := hr k
  have hw : wrapRule rm = .rule rm := by
    simp [wrapRule, hcard, h0]
  have hblock : containerToBlockMatch env (n + 3) (.rule r card) env.root.deps s true true
      { st with recursive := fun _ => none } = some (.ok (some (.mk none (.container (.rule rm)))),
        { recursive := fun _ => none, ranges := k, canPrefix := cp }) := by
    rw [hk]
    simp only [containerToMatch]
    rw [M.bind_some_ok (a := some (.rule rm)) (s1 := { recursive := fun _ => none, ranges := k, canPrefix := cp })]
    · rfl
    · rw [M.bind_some_ok h1, hw]; rfl
  refine ⟨{ recursive := fun _ => none, ranges := k, canPrefix := cp }, ?_, rfl⟩
  unfold toToken
  rw [M.bind_some_ok (M.get_run _), M.bind_some_ok (M.set_run _ _), hroot]
  have hl : lineToMatches env (n + 4) (.container (.rule r card) :: is) env.root.deps s true
      { st with recursive := fun _ => none } = some (.ok (some [.mk none (.container
        (.rule rm))]), { recursive := fun _ => none, ranges := k, canPrefix := cp }) := by
    simp only [lineToMatches, lineLoop]
    rw [M.bind_some_ok hblock]
    simp [BlockMatch.isValid, BlockContent.isValid, Match.isValid, hm]
  simp only [elementToToken, elementToTokenContent, bestLineToMatches, bestLoop, Element.must, Element.not, Element.name, hname,
    if_false]
  rw [M.bind_some_ok (a := some (.mk (.mk 0 [.mk none (.container (.rule rm))]) none))
      (s1 := { recursive := fun _ => none, ranges := k, canPrefix := cp })]
  · rfl
  · rw [M.bind_some_ok (a := some (.mk 0 [.mk none (.container (.rule rm))]))
      (s1 := { recursive := fun _ => none, ranges := k, canPrefix := cp })]
    · rfl
    · rw [M.bind_some_ok (a := ⟨0, some (.mk 0 [.mk none (.container (.rule rm))]), none⟩)
        (s1 := { recursive := fun _ => none, ranges := k, canPrefix := cp })]
      · rfl
      · rw [M.bind_some_ok hl]
        simp [Best.step, blocksValid, BlockMatch.isValid, BlockContent.isValid, Match.isValid, hm]

/-- The results of `k` copies of a byte at the end of the text. -/
theorem ruleLoop_bytes {r : Rule} {b : UInt8} (hc : r.content = .constant [b]) {card : Card} (hcard : card.delimiter.2 = none)
    (cp : Bool) (len : Nat) (hl : 1 < len) (k : Nat) : ∀ acc st, ∃ new,
    ruleLoop r card cp len (k + 1) (List.replicate k b) acc st = some (.ok (acc ++ new), st) ∧ new.length = k ∧
      (∀ x ∈ new, ∃ m, x.results = some [m] ∧ m.index = .ok 0 ∧ m.content = [b]) := by
  induction k with
  | zero =>
    intro acc st
    refine ⟨[], ?_, rfl, by simp⟩
    have := toResult_absent hc (by simp) (s := []) (by simp)
    simp [ruleLoop, this]
  | succ k ih =>
    intro acc st
    obtain ⟨x, h1, h2, h3, _⟩ := toResult_front hc (by simp) (s := List.replicate (k + 1) b) (by simp [List.replicate_succ])
    obtain ⟨new, hn, hn1, hn2⟩ := ih (acc ++ [⟨r, some [x]⟩]) st
    refine ⟨⟨r, some [x]⟩ :: new, ?_, by simp [hn1], ?_⟩
    · rw [ruleLoop]
      simp only [h1, h3]
      rw [M.bind_some_ok (M.lift_run _ _), M.bind_some_ok (a := ()) (s1 := st) (by simp [notePrefix])]
      have : RuleResult.content ⟨r, some [x]⟩ = [b] := by simp [RuleResult.content, h2]
      simp only [this, reachedMax, hcard]
      simp [show ¬ len ≤ 1 by omega]
      simpa [List.replicate_succ] using hn
    · intro y hy
      rcases List.mem_cons.mp hy with rfl | hy
      · exact ⟨x, rfl, h3, h2⟩
      · exact hn2 y hy

/-- One other byte in front of the copies. -/
theorem ruleLoop_prefixed {r : Rule} {b y : UInt8} (hc : r.content = .constant [b]) {card : Card}
    (hcard : card.delimiter.2 = none) (hy : y ≠ b) (k : Nat) (st : St) : ∃ x new,
    ruleToRuleMatch (k + 3) r card (y :: List.replicate (k + 1) b) true st =
      some (.ok ⟨r, card, ⟨r, some [x]⟩ :: new, false⟩, { st with canPrefix := false }) ∧
    (new.length = if st.canPrefix then k + 1 else 0) ∧ x.index = .ok 1 ∧ x.content = [b] ∧
      (∀ x ∈ new, ∃ m, x.results = some [m] ∧ m.index = .ok 0 ∧ m.content = [b]) ∧ x.input = y :: List.replicate (k + 1) b := by
  obtain ⟨x, h1, h2, h3, h4⟩ : ∃ x, toResult r (y :: List.replicate (k + 1) b) = .ok ⟨r, some [x]⟩ ∧ x.content = [b] ∧
      x.index = .ok 1 ∧ x.input = y :: List.replicate (k + 1) b := by
    rcases C37_constant_rule r [b] hc (by simp) (y :: List.replicate (k + 1) b) with ⟨h', _⟩ |
      ⟨pre', post', x, hs', hn, h1, h2, h3, h4⟩
    · exact absurd ⟨[y], List.replicate k b, by simp [List.replicate_succ]⟩ h'
    · refine ⟨x, h1, h2, ?_, h4⟩
      rw [h3]
      match pre', hs', hn with
      | [], hs', hn => simp [List.replicate_succ] at hs'; exact absurd hs'.1 hy
      | [z], hs', hn => simp
      | z :: w :: ws, hs', hn =>
        simp [List.replicate_succ] at hs'
        exfalso
        apply hn
        refine ⟨[z], ws, ?_⟩
        simp [hs'.2.1]
  have hlen : (y :: List.replicate (k + 1) b).length = k + 2 := by simp
  have hcont : RuleResult.content ⟨r, some [x]⟩ = [b] := by simp [RuleResult.content, h2]
  obtain ⟨new, hn, hn1, hn2⟩ := ruleLoop_bytes hc hcard true (k + 2) (by omega) (k + 1) [⟨r, some [x]⟩]
    { st with canPrefix := false }
  cases hst : st.canPrefix with
  | true =>
    refine ⟨x, new, ?_, by simp [hn1], h3, h2, hn2, h4⟩
    have hr : ruleLoop r card true (k + 2) (k + 3) (y :: List.replicate (k + 1) b) [] st =
        some (.ok (⟨r, some [x]⟩ :: new), { st with canPrefix := false }) := by
      rw [ruleLoop]
      simp only [h1, h3]
      rw [M.bind_some_ok (M.lift_run _ _), M.bind_some_ok (a := ()) (s1 := { st with canPrefix := false })
        (by simp [notePrefix])]
      simp only [hcont, reachedMax, hcard]
      simpa using hn
    unfold ruleToRuleMatch
    rw [M.bind_some_ok (M.get_run _), hlen, hst]
    simp only [Bool.and_self]
    rw [M.bind_some_ok hr, M.bind_some_ok (M.get_run _)]
    rfl
  | false =>
    refine ⟨x, [], ?_, by simp, h3, h2, by simp, h4⟩
    have hr : ruleLoop r card false (k + 2) (k + 3) (y :: List.replicate (k + 1) b) [] st =
        some (.ok [⟨r, some [x]⟩], { st with canPrefix := false }) := by
      rw [ruleLoop]
      simp only [h1, h3]
      rw [M.bind_some_ok (M.lift_run _ _), M.bind_some_ok (a := ()) (s1 := { st with canPrefix := false })
        (by simp [notePrefix])]
      simp
    unfold ruleToRuleMatch
    rw [M.bind_some_ok (M.get_run _), hlen, hst]
    simp only [Bool.false_and]
    rw [M.bind_some_ok hr, M.bind_some_ok (M.get_run _)]
    rfl

end Verif.Lexer
