import Verif.Spec.LexerHist
import Verif.Lemmas.LexerSafe
import Verif.Lemmas.LexerHist
import Verif.Lemmas.LexerPrefix
import Verif.Props.Ast

/-!
# More properties of the token matcher: panics, histories, recursion
-/

namespace Verif.Lexer
open Verif.Patterns Verif.Cardinality

/-! ## Panics -/

/-- C59: `ToToken` does not panic for safe grammars (see `Safe`), on any script, in any state and for any channels. -/
theorem C59_no_panic (env : Env) (hg : GrammarSafe env) (fuel : Nat) (script : Str) (st st' : St) (r : Out Token)
    (h : toToken env fuel script st = some (r, st')) : r ≠ .panic :=
  ((safeInv env hg).toToken hg.root hg.deps fuel script st r st' trivial h).1 trivial

/-- A safe grammar with recursion, a pattern and a `not` part. -/
def exSafeRoot : Element := .mk (lit "root") [[.channelSwitch, .container (.rule (exC "A" "a") .mandatory),
    .container (.recursive (lit "root") [] .optional)]] [[.container (.rule (exC "B" "b") .mandatory)]]
def exSafe : Env := ⟨⟨exSafeRoot, [exSafeRoot]⟩, fun _ => []⟩

example : GrammarSafe exSafe ∧ ∃ t st', toToken exSafe 30 (lit "aac") exSt = some (.ok t, st') ∧ t.isValid = true := by
  have h : Safe exSafeRoot := by
    refine .mk ⟨_, _, _, rfl, by simp; exact .inl rfl⟩ ?_
    intro line hl c hc
    simp at hl
    rcases hl with rfl | rfl
    · simp at hc
      rcases hc with rfl | rfl
      · exact .rule trivial (by simp [exC])
      · exact .recursive
    · simp at hc
      subst hc
      exact .rule trivial (by simp [exC])
  exact ⟨⟨h, by simp [exSafe, h], by simp [exSafe]⟩, of_shows (by decide +kernel)⟩

/-- C59 (violation for other grammars): a line which has channel switches only makes the matcher panic: here a token of such a
line, mandatory behind a constant, when the script ends behind the constant. -/
theorem C59_switch_line_panics (env : Env) (hch : ∀ k, env.channels k = []) (name : Str) (hname : name ≠ []) (r : Rule) (c : Str)
    (hc : r.content = .constant c) (h0 : c ≠ []) (e : Element) (is : Line) (ls : List Line) (not : List Line)
    (n : Nat) (hfetch : fetch env.root.deps e.name = .ok e) (hm : e.must = List.replicate n .channelSwitch :: ls)
    (hroot : env.root.element = .mk name
      ((.container (.rule r .mandatory) :: .container (.token e [] .mandatory) :: is) :: not) [])
    (st : St) : ∃ st', toToken env 7 c st = some (.panic, st') := by
  obtain ⟨b, st1, h1, _, h3, h4⟩ := block_mandatory hch hc h0 0 env.root.deps c true true { st with recursive := fun _ => none }
  have hv := h3.mpr (List.prefix_refl c)
  have hd := h4 hv
  have hfirst : ∀ n, firstContainer (List.replicate n .channelSwitch) = none := by
    intro n
    induction n with
    | zero => rfl
    | succ n ih => simpa [List.replicate_succ, firstContainer] using ih
  have h2 : containerToBlockMatch env 3 (.token e [] .mandatory) env.root.deps [] true true st1 = some (.panic, st1) := by
    simp [containerToBlockMatch, PContainer.cardinality, Card.isValid, isValidDelim, Card.delimiter, buildNextElement,
      fetchFirstRule, hfetch, hm, hfirst, M.bind_def, M.lift]
  refine ⟨st1, ?_⟩
  unfold toToken
  rw [M.bind_some_ok (M.get_run _), M.bind_some_ok (M.set_run _ _), hroot]
  have hl : lineToMatches env 4 (.container (.rule r .mandatory) :: .container (.token e [] .mandatory) :: is) env.root.deps c
      true { st with recursive := fun _ => none } = some (.panic, st1) := by
    simp only [lineToMatches, lineLoop]
    rw [M.bind_some_ok h1]
    have hp : b.discoveries.isPrefixOf c = true := by rw [hd]; simp
    have hr : replaceFirst c b.discoveries = [] := by
      rw [hd]
      cases c with
      | nil => rfl
      | cons x xs => simp [replaceFirst, strIndex]
    simp only [hv, hp, hr]
    simp [M.bind_def, h2]
  simp only [elementToToken, elementToTokenContent, bestLineToMatches, bestLoop, Element.must]
  simp [M.bind_def, hl]

example : let e : Element := .mk (lit "e") [[.channelSwitch]] []
    let env : Env := ⟨⟨.mk (lit "root") [[.container (.rule (exC "A" "a") .mandatory), .container (.token e [] .mandatory)]] [],
      [e]⟩, fun _ => []⟩
    ∃ st', toToken env 7 (lit "a") exSt = some (.panic, st') :=
  C59_switch_line_panics _ (by simp) (lit "root") (by decide) (exC "A" "a") (lit "a") rfl (by decide)
    (.mk (lit "e") [[.channelSwitch]] []) [] [] [] 1 rfl rfl rfl _

/-! ## Histories -/

/-- C60: an adapter which was built without permission of prefixes gives the same outcome for a script whatever it was called
with before (if the order of the channels is always the same; an outcome includes errors, panics and non-termination). -/
theorem C60_history (env : Env) (chans : List Path) (hch : ∀ k, env.channels k = chans) (st fresh : St) (hu : Used env false st)
    (hf : fresh.canPrefix = false) (fuel : Nat) (script : Str) :
    (toToken env fuel script st).map Prod.fst = (toToken env fuel script fresh).map Prod.fst := by
  have hst : st.canPrefix = false := by
    induction hu with
    | fresh h => exact h
    | call _ h ih =>
      rcases toToken_same hch _ _ ih ih with ⟨h1, _⟩ | ⟨r, s1, s2, h1, _, h3⟩
      · rw [h] at h1; simp at h1
      · rw [h] at h1
        simp at h1
        obtain ⟨_, rfl⟩ := h1
        exact h3.1
  rcases toToken_same hch fuel script hst hf with ⟨h1, h2⟩ | ⟨r, s1, s2, h1, h2, _⟩
  · rw [h1, h2]
  · rw [h1, h2]; rfl

/-- The hypotheses are met by the small grammar after a call. -/
example : (∀ k, exEnv.channels k = [⟨exBlank, [exBlank]⟩]) ∧ ∃ t st', toToken exEnv 30 (lit "a b") exSt = some (.ok t, st') ∧
    Used exEnv false st' := by
  refine ⟨fun _ => rfl, ?_⟩
  obtain ⟨t, st', h, _⟩ := of_shows (f := fun t => t.isValid) (x := toToken exEnv 30 (lit "a b") exSt) (v := true)
    (by decide +kernel)
  exact ⟨t, st', h, .call (.fresh rfl) h⟩

/-- C60 (violation): an adapter with permission of prefixes gives different ASTs for the same script in two consecutive calls,
for every repeated byte `b` behind another byte. The first text is longer than all the `b` in the script. -/
theorem C60_prefix_history (env : Env) (hch : ∀ k, env.channels k = []) (name : Str) (hname : name ≠ []) (r : Rule) (b y : UInt8)
    (hc : r.content = .constant [b]) (hy : y ≠ b) (hrn : r.name ≠ []) (hcode : r.code ≠ []) (is : Line)
    (hroot : env.root.element = .mk name [.container (.rule r .nonZeroMultiple) :: is] []) (k : Nat) (hk : k + 2 < 2 ^ 64)
    (st : St) (hst : st.canPrefix = true) :
    ∃ a1 st1 a2 st2, toAST env true (k + 9) (y :: List.replicate (k + 1) b) st = some (.ok (.success a1), st1) ∧
      toAST env true (k + 9) (y :: List.replicate (k + 1) b) st1 = some (.ok (.success a2), st2) ∧
      a1.discovery = List.replicate (k + 2) b ∧ a2.discovery = [b] := by
  have key : ∀ st : St, ∃ a st', toAST env true (k + 9) (y :: List.replicate (k + 1) b) st = some (.ok (.success a), st') ∧
      st'.canPrefix = false ∧ a.discovery = List.replicate (if st.canPrefix then k + 2 else 1) b := by
    intro st
    have hr : ∃ x new, (∀ j, ruleToRuleMatch (k + 3) r .nonZeroMultiple (y :: List.replicate (k + 1) b) true
        { recursive := fun _ => none, ranges := j, canPrefix := st.canPrefix } =
        some (.ok ⟨r, .nonZeroMultiple, ⟨r, some [x]⟩ :: new, false⟩, { recursive := fun _ => none, ranges := j, canPrefix := false })) ∧
        (new.length = if st.canPrefix then k + 1 else 0) ∧ x.index = .ok 1 ∧ x.content = [b] ∧
        (∀ x ∈ new, ∃ m, x.results = some [m] ∧ m.index = .ok 0 ∧ m.content = [b]) := by
      obtain ⟨x, new, h1, h2, h3, h4, h5, _⟩ := ruleLoop_prefixed hc (card := .nonZeroMultiple) rfl hy k
        { recursive := fun _ => none, ranges := 0, canPrefix := st.canPrefix }
      refine ⟨x, new, ?_, h2, h3, h4, h5⟩
      intro j
      obtain ⟨x', new', h1', _⟩ := ruleLoop_prefixed hc (card := .nonZeroMultiple) rfl hy k
        { recursive := fun _ => none, ranges := j, canPrefix := st.canPrefix }
      have : ∀ (n : Nat) (s : St) (rem : Str) (acc : List RuleResult) (j : Nat) (cp : Bool) (len : Nat) o s',
          ruleLoop r .nonZeroMultiple cp len n rem acc s = some (o, s') →
          ruleLoop r .nonZeroMultiple cp len n rem acc { s with ranges := j } = some (o, { s' with ranges := j }) := by
        intro n
        induction n with
        | zero => intro s rem acc j cp len o s' h; simp [ruleLoop] at h
        | succ n ih =>
          intro s rem acc j cp len o s' h
          unfold ruleLoop at h ⊢
          cases hres : toResult r rem with
          | panic => simp [hres] at h ⊢; simp [← h.1, ← h.2]
          | err => simp [hres] at h ⊢; simp [← h.1, ← h.2]
          | ok res =>
            simp only [hres] at h ⊢
            cases hrr : res.results with
            | none => simp [hrr] at h ⊢; simp [← h.1, ← h.2]
            | some l =>
              cases l with
              | nil => simp [hrr] at h ⊢; simp [← h.1, ← h.2]
              | cons m ms =>
                simp only [hrr] at h ⊢
                cases hi : m.index with
                | err => simp [hi, M.bind_def] at h ⊢; simp [← h.1, ← h.2]
                | panic => simp [hi, M.bind_def] at h ⊢; simp [← h.1, ← h.2]
                | ok i =>
                  rw [hi, M.bind_some_ok (M.lift_run _ _), M.bind_some_ok (a := ()) (by unfold notePrefix; rfl)] at h
                  rw [M.bind_some_ok (M.lift_run _ _), M.bind_some_ok (a := ()) (by unfold notePrefix; rfl)]
                  have e : ∀ s : St, (if i > 0 then { ({ s with ranges := j } : St) with canPrefix := false } else { s with ranges := j }) =
                      { (if i > 0 then { s with canPrefix := false } else s) with ranges := j } := by
                    intro s; split <;> rfl
                  rw [e]
                  by_cases c1 : (decide (i > 0) && !cp) = true
                  · rw [if_pos c1] at h ⊢; simp at h ⊢; simp [← h.1, ← h.2]
                  · rw [if_neg c1] at h ⊢
                    by_cases c2 : len ≤ res.content.length
                    · rw [if_pos c2] at h ⊢; simp at h ⊢; simp [← h.1, ← h.2]
                    · rw [if_neg c2] at h ⊢
                      by_cases c3 : rem.length < res.content.length
                      · rw [if_pos c3] at h ⊢; simp at h ⊢; simp [← h.1, ← h.2]
                      · rw [if_neg c3] at h ⊢
                        by_cases c4 : reachedMax .nonZeroMultiple (acc.length + 1) = true
                        · rw [if_pos c4] at h ⊢; simp at h ⊢; simp [← h.1, ← h.2]
                        · rw [if_neg c4] at h ⊢
                          exact ih _ _ _ _ _ _ _ _ h
      unfold ruleToRuleMatch at h1 ⊢
      rw [M.bind_some_ok (M.get_run _)] at h1 ⊢
      obtain ⟨l, s1, h6, h7⟩ := M.bind_ok.mp h1
      have h8 := this _ _ _ _ j _ _ _ _ h6
      rw [M.bind_some_ok h8]
      rw [M.bind_some_ok (M.get_run _)] at h7 ⊢
      simp at h7 ⊢
      obtain ⟨⟨rfl, e1⟩, rfl⟩ := h7
      simp
    obtain ⟨x, new, h1, h2, h3, h4, h5⟩ := hr
    obtain ⟨d, ds, hd, hdi⟩ := index_zero h3
    have hinv : RuleMatch.isValid ⟨r, .nonZeroMultiple, ⟨r, some [x]⟩ :: new, false⟩ = false := by
      simp [RuleMatch.isValid, RuleMatch.isExact, hd, hdi]
    obtain ⟨st', ht, hcp⟩ := toToken_rule_invalid (n := k + 2) hch hname (r := r) (card := .nonZeroMultiple) (by decide) hroot
      (s := y :: List.replicate (k + 1) b) (by simp) (st := st) rfl hinv h1
    have hamount : Card.nonZeroMultiple.isValid (UInt64.ofNat (new.length + 1)) = true := by
      have : 0 < new.length + 1 ∧ new.length + 1 < 2 ^ 64 := by
        rw [h2]; split <;> omega
      simp [Card.isValid, isValidDelim, Card.delimiter, UInt64.le_iff_toNat_le]
      rw [Nat.mod_eq_of_lt (by simpa using this.2)]
      simp
    have hamount' := hamount
    simp at hamount'
    have htame : ∀ z ∈ (⟨r, some [x]⟩ :: new : List RuleResult), ∃ m, z.results = some [m] ∧ (∃ i, m.index = .ok i ∧ i ≤ 1) ∧
        m.content = [b] := by
      intro z hz
      rcases List.mem_cons.mp hz with rfl | hz
      · exact ⟨x, rfl, ⟨1, h3, le_rfl⟩, h4⟩
      · obtain ⟨m, e1, e2, e3⟩ := h5 z hz
        exact ⟨m, e1, ⟨0, e2, by omega⟩, e3⟩
    have hloop : ∀ (l : List RuleResult) acc i, (∀ z ∈ l, ∃ m, z.results = some [m] ∧ (∃ i, m.index = .ok i ∧ i ≤ 1) ∧
        m.content = [b]) → i ≤ 1 → ∃ ds j, resultsLoop l acc i = .ok (acc ++ ds, j) ∧ j ≤ 1 ∧
          (ds.map Discovery.content).flatten = List.replicate l.length b := by
      intro l
      induction l with
      | nil => intro acc i _ hi; exact ⟨[], i, by simp [resultsLoop], hi, by simp⟩
      | cons z zs ih =>
        intro acc i hz hi
        obtain ⟨m, e1, ⟨j, e2, e3⟩, e4⟩ := hz z (by simp)
        obtain ⟨ds, j', f1, f2, f3⟩ := ih (acc ++ m.discoveries) j (fun z hz' => hz z (by simp [hz'])) e3
        refine ⟨m.discoveries ++ ds, j', by simp [resultsLoop, e1, e2, f1], f2, ?_⟩
        have : (m.discoveries.map Discovery.content).flatten = [b] := e4
        simp [f3, this, List.replicate_succ]
    obtain ⟨ds', j, f1, f2, f3⟩ := hloop _ [] 0 htame (by omega)
    simp only [List.nil_append] at f1
    have hds : ds' ≠ [] := by
      intro h
      simp [h, List.replicate_succ] at f3
    have hcl : ¬ j > r.code.length := by
      have := List.length_pos_iff.mpr hcode
      omega
    refine ⟨.mk name 0 [.rule r.name ⟨r.code, ds', if j > 0 then r.code.take j else [], if j + (RuleMatch.discoveries
      ⟨r, .nonZeroMultiple, ⟨r, some [x]⟩ :: new, false⟩).length < r.code.length then r.code.take (j + (RuleMatch.discoveries
      ⟨r, .nonZeroMultiple, ⟨r, some [x]⟩ :: new, false⟩).length) else []⟩], st', ?_, hcp, ?_⟩
    · unfold toAST
      rw [M.bind_some_ok ht]
      rw [M.bind_some_ok (a := none) (s1 := st')]
      · dsimp only
        rw [M.bind_some_ok (s1 := st')]
        · rfl
        · have : aRuleResult ⟨r, .nonZeroMultiple, ⟨r, some [x]⟩ :: new, false⟩ = .ok (some ⟨r.code, ds', if j > 0 then r.code.take j else [],
              if j + (RuleMatch.discoveries ⟨r, .nonZeroMultiple, ⟨r, some [x]⟩ :: new, false⟩).length < r.code.length then
                r.code.take (j + (RuleMatch.discoveries
              ⟨r, .nonZeroMultiple, ⟨r, some [x]⟩ :: new, false⟩).length) else []⟩) := by
            simp only [aRuleResult, f1, Out.bind_ok, hds, if_false, hcl, hcode]
            rfl
          simp [M.lift, Token.toA, blocksToA, BlockMatch.toA, BlockContent.toA, Match.toA, aRuleMatch, this, hrn, hname]
      · simp [M.lift, toMistake, Token.mistake, TokenContent.mistake, LineMatch.mistake, blocksMistake, BlockMatch.mistake,
          BlockContent.mistake, Match.mistake, ruleMistake, RuleMatch.amount, hamount', patternsMistake, patternMistake, h3]
    · simp [AToken.discovery, matchesDiscovery, AMatch.discovery, AResult.content, f3, h2]
      split <;> rfl
  obtain ⟨a1, st1, e1, e2, e3⟩ := key st
  obtain ⟨a2, st2, f1, f2, f3⟩ := key st1
  rw [hst] at e3
  rw [e2] at f3
  exact ⟨a1, st1, a2, st2, e1, f1, by simpa using e3, by simpa using f3⟩

/-- Two calls with "xcc" give "ccc" and "c". -/
example : let env : Env := ⟨⟨.mk (lit "root") [[.container (.rule (exC "C" "c") .nonZeroMultiple)]] [], []⟩, fun _ => []⟩
    ∃ a1 st1 a2 st2, toAST env true 10 (lit "xcc") { exSt with canPrefix := true } = some (.ok (.success a1), st1) ∧
      toAST env true 10 (lit "xcc") st1 = some (.ok (.success a2), st2) ∧ a1.discovery = lit "ccc" ∧ a2.discovery = lit "c" :=
  C60_prefix_history _ (by simp) (lit "root") (by decide) (exC "C" "c") 99 120 rfl (by decide) (by decide) (by decide) [] rfl 1
    (by decide) _ rfl

end Verif.Lexer
