import Verif.Lemmas.LexerConst

/-! Runs which do not end, and runs which lose a match. -/

namespace Verif.Lexer
open Verif.Patterns Verif.Cardinality

/-- A line which begins with a mandatory constant that is not at the front of the text is rejected. -/
theorem line_reject {env : Env} (hch : ∀ k, env.channels k = []) {r : Rule} {c : Str} (hc : r.content = .constant c)
    (h0 : c ≠ []) (n : Nat) (deps : List Element) (is : Line) (ch : Bool) (s : Str) (hs : ¬ c <+: s) (st : St) :
    ∃ b st', lineToMatches env (n + 4) (.container (.rule r .mandatory) :: is) deps s ch st = some (.ok (some [b]), st') ∧
      b.isValid = false := by
  obtain ⟨b, st', h1, _, h2, _⟩ := block_mandatory hch hc h0 n deps s ch ch st
  have hb : b.isValid = false := by
    cases h : b.isValid with
    | false => rfl
    | true => exact absurd (h2.mp h) hs
  refine ⟨b, st', ?_, hb⟩
  simp only [lineToMatches, lineLoop]
  rw [M.bind_some_ok h1]
  simp [hb]

theorem best_reject {env : Env} (hch : ∀ k, env.channels k = []) {r : Rule} {c : Str} (hc : r.content = .constant c)
    (h0 : c ≠ []) (n : Nat) (deps : List Element) (is : Line) (ch : Bool) (s : Str) (hs : ¬ c <+: s) (st : St) :
    ∃ l st', bestLineToMatches env (n + 5) [.container (.rule r .mandatory) :: is] deps s ch st = some (.ok (some l), st') ∧
      l.isValid = false ∧ l.discoveries = [] := by
  obtain ⟨b, st', h1, hb⟩ := line_reject hch hc h0 n deps is ch s hs st
  obtain ⟨x, hx, hsp⟩ := bestLine_of_runs (LineRuns.cons h1 (.nil _))
  have hv : blocksValid [b] = false := by simp [blocksValid, hb]
  have hspec : BestSpec [some [b]] (some (.mk 0 [b])) := by
    refine .bad ?_ ⟨rfl, hv⟩ ?_
    · rintro j l' ⟨h, h', _⟩
      match j with
      | 0 => simp at h; subst h; simp [hv] at h'
      | j + 1 => simp at h
    · rintro j l' ⟨h, _⟩
      match j with
      | 0 => rfl
      | j + 1 => simp at h
  rw [BestSpec_unique hsp hspec] at hx
  exact ⟨_, st', hx, by simp [LineMatch.isValid, hv], by simp [LineMatch.discoveries, hv]⟩

/-- The token with a must part and a not part which both do not match. -/
theorem elem_not {env : Env} (hch : ∀ k, env.channels k = []) {a b : Rule} {ca cb : Str} (ha : a.content = .constant ca)
    (ha0 : ca ≠ []) (hb : b.content = .constant cb) (hb0 : cb ≠ []) (n : Nat) (name : Str) (hn : name ≠ [])
    (deps : List Element) (is is' : Line) (ch : Bool) (s : Str) (has : ¬ ca <+: s) (hbs : ¬ cb <+: s) (st : St) :
    ∃ t c st', elementToToken env (n + 7) (.mk name [.container (.rule a .mandatory) :: is]
        [.container (.rule b .mandatory) :: is']) deps s ch st = some (.ok t, st') ∧ t.isValid = true ∧
      t.content = some c ∧ c.must.discoveries = [] := by
  obtain ⟨l, st1, h1, h2, h3⟩ := best_reject hch ha ha0 n deps is ch s has st
  obtain ⟨l', st2, h1', h2', h3'⟩ := best_reject hch hb hb0 n deps is' ch s hbs st1
  refine ⟨.mk name (some (.mk l (some l'))), .mk l (some l'), st2, ?_, ?_, rfl, h3⟩
  · simp only [elementToToken, elementToTokenContent, Element.must, Element.not, Element.name, List.isEmpty_cons,
      Bool.false_eq_true, if_false, hn]
    rw [M.bind_some_ok (a := some (.mk l (some l'))) (s1 := st2)]
    · rfl
    · rw [M.bind_some_ok h1]
      dsimp only
      rw [M.bind_some_ok h1']
      rfl
  · simp [Token.isValid, TokenContent.isValid, h2']

theorem tokenLoop_diverges {f : Str → M Token} {card : Card} (hcard : card.delimiter.2 = none) {s : Str}
    (hf : ∀ st, f s st = none ∨ ∃ t c st', f s st = some (.ok t, st') ∧ t.isValid = true ∧ t.content = some c ∧
      c.must.discoveries = []) (n : Nat) : ∀ acc st, tokenLoop f card n s acc st = none := by
  induction n with
  | zero => intro acc st; rfl
  | succ n ih =>
    intro acc st
    simp only [tokenLoop]
    rcases hf st with h | ⟨t, c, st', h, hv, hc, hd⟩
    · exact M.bind_none.mpr (.inl h)
    · rw [M.bind_some_ok h]
      have : replaceFirst s [] = s := by rw [replaceFirst_prefix List.nil_prefix]; rfl
      simp only [hv, hc, hd, Bool.not_true, Bool.false_eq_true, if_false, List.isPrefixOf_nil_left, reachedMax, hcard, this]
      exact ih _ _

/-- If the first part of the first line of an element does not end, the element does not end. -/
theorem diverge_lift {env : Env} (hch : ∀ k, env.channels k = []) {c : PContainer} {deps : List Element} {s : Str}
    (hs : s ≠ []) (h : ∀ n ch st, containerToMatch env n c deps s ch st = none) (name : Str) (is : Line) (ls not : List Line)
    (n : Nat) (ch : Bool) (st : St) : elementToToken env n (.mk name ((.container c :: is) :: ls) not) deps s ch st = none := by
  have hblock : ∀ n ch nx st, containerToBlockMatch env n c deps s ch nx st = none := by
    intro n ch nx st
    match n with
    | 0 => rfl
    | 1 =>
      simp only [containerToBlockMatch, hs, if_false]
      cases ch
      · simp only [Bool.false_eq_true, if_false]
        rw [M.bind_some_ok (M.pure_run _ _)]
        exact M.bind_none.mpr (.inl (h _ _ _))
      · exact M.bind_none.mpr (.inl rfl)
    | n + 2 =>
      obtain ⟨k, hk⟩ := block_direct (n := n) (c := c) (deps := deps) hch hs ch nx st
      rw [hk]
      exact M.bind_none.mpr (.inl (h _ _ _))
  match n with
  | 0 => rfl
  | 1 => rfl
  | 2 => rfl
  | 3 =>
    simp only [elementToToken, elementToTokenContent, bestLineToMatches, Element.must, bestLoop, lineToMatches]
    rfl
  | n + 4 =>
    simp only [elementToToken, elementToTokenContent, bestLineToMatches, Element.must, bestLoop, lineToMatches, lineLoop]
    refine M.bind_none.mpr (.inl (M.bind_none.mpr (.inl (M.bind_none.mpr (.inl (M.bind_none.mpr (.inl
      (M.bind_none.mpr (.inl (hblock _ _ _ _))))))))))

/-! ## Repeated constants -/

/-- `k` copies of `c`. -/
def copies (c : Str) (k : Nat) : Str := (List.replicate k c).flatten

theorem copies_succ (c : Str) (k : Nat) : copies c (k + 1) = c ++ copies c k := by simp [copies, List.replicate_succ]

theorem ruleLoop_copies {r : Rule} {c : Str} (hc : r.content = .constant c) (h0 : c ≠ []) {card : Card}
    (hcard : card.delimiter.2 = none) {rest : Str} (h1 : ¬ c <+: rest) (h2 : c <:+: rest) (len : Nat) (hl : c.length < len)
    (n k : Nat) : ∀ acc st, ∃ new, ruleLoop r card false len (n + k + 1) (copies c k ++ rest) acc st =
        some (.ok (acc ++ new), { st with canPrefix := false }) ∧ new.length = k + 1 ∧
        (new.map RuleResult.content).flatten = copies c (k + 1) ∧
        (0 < k → ∃ x d ds xs, new = ⟨r, some [x]⟩ :: xs ∧ x.discoveries = d :: ds ∧ d.index = 0) := by
  induction k with
  | zero =>
    intro acc st
    obtain ⟨x, i, k1, k2, k3, _⟩ := toResult_behind hc h0 h1 h2
    refine ⟨[⟨r, some [x]⟩], ?_, rfl, by simp [RuleResult.content, k2, copies], by simp⟩
    simp only [copies, List.replicate_zero, List.flatten_nil, List.nil_append, ruleLoop, k1, k3]
    rw [M.bind_some_ok (M.lift_run _ _), M.bind_some_ok (a := ()) (s1 := { st with canPrefix := false })
      (by simp [notePrefix])]
    simp
  | succ k ih =>
    intro acc st
    have e : copies c (k + 1) ++ rest = c ++ (copies c k ++ rest) := by rw [copies_succ]; simp
    obtain ⟨x, k1, k2, k3, d, ds, k4, k5⟩ := toResult_front hc h0 (List.prefix_append c (copies c k ++ rest))
    obtain ⟨new, j1, j2, j3, _⟩ := ih (acc ++ [⟨r, some [x]⟩]) st
    refine ⟨⟨r, some [x]⟩ :: new, ?_, by simp [j2], ?_, fun _ => ⟨x, d, ds, new, rfl, k4, k5⟩⟩
    · have hx : (RuleResult.content ⟨r, some [x]⟩) = c := by simp [RuleResult.content, k2]
      rw [e]
      rw [show n + (k + 1) + 1 = (n + k + 1) + 1 by omega]
      rw [ruleLoop]
      simp only [k1, k3]
      rw [M.bind_some_ok (M.lift_run _ _), M.bind_some_ok (a := ()) (s1 := st) (by simp [notePrefix])]
      have hlt : ¬ (c ++ (copies c k ++ rest)).length < c.length := by simp
      simp only [gt_iff_lt, lt_self_iff_false, decide_false, Bool.false_and, Bool.false_eq_true, if_false, hx,
        not_le.mpr hl, hlt, reachedMax, hcard, List.drop_left]
      rw [j1]; simp
    · simp [RuleResult.content, k2, j3, copies_succ]

/-- A line which begins with an unbounded constant finds nothing when the constant occurs again later, not adjacent to
the first copies. -/
theorem line_lost {env : Env} (hch : ∀ k, env.channels k = []) {r : Rule} {c : Str} (hc : r.content = .constant c)
    (h0 : c ≠ []) {card : Card} (hcard : card.delimiter.2 = none) {rest : Str} (h1 : ¬ c <+: rest) (h2 : c <:+: rest)
    (n k : Nat) (deps : List Element) (is : Line) (ch : Bool) (st : St) (hst : st.canPrefix = false) :
    ∃ m st', lineToMatches env (n + k + 5) (.container (.rule r card) :: is) deps (copies c (k + 1) ++ rest) ch st =
      some (.ok m, st') ∧ ∀ l, m = some l → blocksValid l = false := by
  have hrest : 0 < rest.length := by
    have := h2.length_le; have := List.length_pos_iff.mpr h0; omega
  have hs : copies c (k + 1) ++ rest ≠ [] := by
    intro h; simp at h; simp [h.2] at hrest
  have hlen : c.length < (copies c (k + 1) ++ rest).length := by simp [copies_succ]; omega
  obtain ⟨j, hj⟩ := block_direct (n := n + k + 2) (c := .rule r card) (deps := deps) hch hs ch ch st
  obtain ⟨new, k1, k2, k3, k4⟩ := ruleLoop_copies hc h0 hcard h1 h2 _ hlen n (k + 1) [] { st with ranges := j }
  obtain ⟨x, d, ds, xs, rfl, hx, hd⟩ := k4 (by omega)
  have hm : containerToMatch env (n + k + 3) (.rule r card) deps (copies c (k + 1) ++ rest) ch { st with ranges := j } =
      some (.ok (some (wrapRule ⟨r, card, ⟨r, some [x]⟩ :: xs, false⟩)), ⟨false, st.recursive, j⟩) := by
    simp only [containerToMatch]
    rw [M.bind_some_ok (a := ⟨r, card, ⟨r, some [x]⟩ :: xs, false⟩) (s1 := ⟨false, st.recursive, j⟩)]
    · rfl
    · unfold ruleToRuleMatch
      rw [M.bind_some_ok (M.get_run _)]
      simp only [hst, Bool.false_and]
      rw [show n + k + 2 = n + (k + 1) + 1 by omega, M.bind_some_ok (by simpa [hst] using k1), M.bind_some_ok (M.get_run _)]
      simp
  have hw : card.isValid 0 = true → RuleMatch.isValid ⟨r, card, ⟨r, some [x]⟩ :: xs, false⟩ = true := by
    intro hz
    have hmin : card.delimiter.1 = 0 := by
      simpa [Card.isValid, isValidDelim, hcard] using hz
    simp [RuleMatch.isValid, RuleMatch.isExact, hx, hd, Card.isValid, isValidDelim, hcard, hmin]
  have hwr : wrapRule ⟨r, card, ⟨r, some [x]⟩ :: xs, false⟩ = .rule ⟨r, card, ⟨r, some [x]⟩ :: xs, false⟩ := by
    unfold wrapRule
    split
    · rename_i hh
      simp only [Bool.and_eq_true, Bool.not_eq_true'] at hh
      rw [hw hh.1] at hh
      simp at hh
    · rfl
  rw [hwr] at hm
  have hb : containerToBlockMatch env (n + k + 4) (.rule r card) deps (copies c (k + 1) ++ rest) ch ch st =
      some (.ok (some (.mk none (.container (.rule ⟨r, card, ⟨r, some [x]⟩ :: xs, false⟩)))), ⟨false, st.recursive, j⟩) := by
    rw [show n + k + 4 = n + k + 2 + 2 by omega, hj, M.bind_some_ok hm]
    rfl
  simp only [lineToMatches, lineLoop]
  rw [M.bind_some_ok hb]
  dsimp only
  split
  · rename_i hv
    refine ⟨_, _, rfl, ?_⟩
    intro l hl
    simp at hl; subst hl
    simpa [blocksValid] using hv
  · have hp : (BlockMatch.discoveries (.mk none (.container (.rule ⟨r, card, ⟨r, some [x]⟩ :: xs, false⟩)))).isPrefixOf
        (copies c (k + 1) ++ rest) = false := by
      rw [Bool.eq_false_iff]
      intro hp
      rw [isPrefixOf_iff] at hp
      simp only [BlockMatch.discoveries, BlockContent.discoveries, Match.discoveries, RuleMatch.discoveries] at hp
      rw [k3] at hp
      have e : copies c (k + 1 + 1) = copies c (k + 1) ++ c := by simp [copies, List.replicate_succ' (n := k + 1)]
      rw [e, List.prefix_append_right_inj] at hp
      exact h1 hp
    simp only [hp, Bool.not_false, if_true]
    exact ⟨none, _, rfl, by simp⟩

end Verif.Lexer
