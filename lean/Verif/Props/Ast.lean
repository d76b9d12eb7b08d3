import Verif.Lemmas.AstPrefix
import Verif.Props.Lexer

/-!
# Properties of the abstract syntax trees and of the mistakes
-/

namespace Verif.Lexer
open Verif.Patterns Verif.Cardinality

theorem toAST_ok {env : Env} {cp : Bool} {fuel : Nat} {script : Str} {st st' : St} {ast : AST}
    (h : toAST env cp fuel script st = some (.ok ast, st')) :
    ∃ t o, toToken env fuel script st = some (.ok t, st') ∧ toMistake cp t = .ok o ∧
      ((∃ m, o = some m ∧ ast = .mistake m) ∨ (o = none ∧ ∃ a, t.toA = .ok a ∧ ast = .success a)) := by
  unfold toAST at h
  obtain ⟨t, s1, h1, h⟩ := M.bind_ok.mp h
  obtain ⟨o, s2, h2, h⟩ := M.bind_ok.mp h
  simp at h2
  obtain ⟨h2, rfl⟩ := h2
  cases o with
  | some m =>
    simp at h
    obtain ⟨rfl, rfl⟩ := h
    exact ⟨t, _, h1, h2, .inl ⟨m, rfl, rfl⟩⟩
  | none =>
    obtain ⟨a, s3, h3, h⟩ := M.bind_ok.mp h
    simp at h h3
    obtain ⟨rfl, rfl⟩ := h
    obtain ⟨h3, rfl⟩ := h3
    exact ⟨t, _, h1, h2, .inr ⟨rfl, a, h3, rfl⟩⟩

/-- C44: for an adapter which does not allow prefixes and a grammar without `not` parts and groups of lines, `ToAST` returns
a success exactly when the token of the matcher is valid and a mistake exactly when it is not. The success has the name of the
root token, and its text (the texts of its matches in order) is the text of the token, a prefix of the script. -/
theorem C44_ast (env : Env) (hg : GrammarShape False True (fun _ => True) env)
    (chans : List Path) (hch : ∀ k, ∀ p ∈ env.channels k, p ∈ chans) (fuel : Nat) (script : Str) (st st' : St)
    (hst : st.canPrefix = false) (ast : AST) (h : toAST env false fuel script st = some (.ok ast, st')) :
    ∃ t, toToken env fuel script st = some (.ok t, st') ∧
      match ast with
      | .mistake _ => t.isValid = false
      | .success a => t.isValid = true ∧ a.name = env.root.element.name ∧ a.discovery = t.discoveries ∧
          a.discovery <+: script := by
  obtain ⟨t, o, h1, h2, h3⟩ := toAST_ok h
  have hV := ((tameInv env False True (fun _ => True) hg (by simp) (by simp)).toToken hg.root hg.deps fuel script _ _ _ hst h1).2
    t rfl
  obtain ⟨_, ht, hn, _⟩ := hV
  unfold toMistake at h2
  simp only [Out.bind_eq_ok] at h2
  obtain ⟨⟨o', cur⟩, h2, h4⟩ := h2
  simp at h4
  subst h4
  have hiff := t.mistake_iff ht _ _ _ _ h2
  refine ⟨t, h1, ?_⟩
  rcases h3 with ⟨m, rfl, rfl⟩ | ⟨rfl, a, ha, rfl⟩
  · simpa using hiff
  · have hv := hiff.mp rfl
    obtain ⟨e1, e2⟩ := t.toA_text ht hv a ha
    refine ⟨hv, e2.trans hn, e1, ?_⟩
    obtain ⟨_, _, rest, hr⟩ := C39_prefix env chans hch fuel script st st' t h1
    rw [e1]; exact ⟨rest, hr.symm⟩

/-- The small grammar of `Verif/Props/Lexer.lean` meets the hypotheses; it gives successes and mistakes. -/
theorem exEnv_shape : GrammarShape False True (fun _ => True) exEnv := by
  have hb : Shape False True (fun _ => True) exBlank := by
    refine .mk (fun _ => rfl) ?_
    intro line hl c hc
    simp at hl; subst hl; simp at hc; subst hc
    exact .rule trivial
  have hi : Shape False True (fun _ => True) exItem := by
    refine .mk (fun _ => rfl) ?_
    intro line hl c hc
    simp at hl; subst hl; simp at hc
    rcases hc with rfl | rfl <;> exact .rule trivial
  have hl : Shape False True (fun _ => True) exList := by
    refine .mk (fun _ => rfl) ?_
    intro line hl c hc
    simp at hl; subst hl; simp at hc; subst hc
    exact .token hi (by simp)
  refine ⟨hl, ?_, ?_⟩
  · intro e he
    simp [exEnv] at he
    rcases he with rfl | rfl
    · exact hi
    · exact hl
  · intro k p hp
    simp [exEnv] at hp
    subst hp
    refine ⟨hb, ?_⟩
    intro e he
    simp at he
    subst he
    exact hb

def AST.view : AST → Bool × Str
  | .mistake _ => (false, [])
  | .success a => (true, a.discovery)

example : GrammarShape False True (fun _ => True) exEnv ∧ exSt.canPrefix = false ∧
    (∃ ast st', toAST exEnv false 30 (lit "abba bz") exSt = some (.ok ast, st') ∧ ast.view = (true, lit "abba b")) ∧
    (∃ ast st', toAST exEnv false 30 (lit "b") exSt = some (.ok ast, st') ∧ ast.view = (false, [])) :=
  ⟨exEnv_shape, rfl, of_shows (by decide +kernel), of_shows (by decide +kernel)⟩

/-- C44 (violation): when the adapter allows prefixes, a script in which the first mandatory constant `c` of the only line of
the root is behind some other text gives a success whose text is `c`, although the token is not valid: whatever the line
requires behind the constant is not looked at. -/
theorem C44_prefix_success (env : Env) (hch : ∀ k, env.channels k = []) (name : Str) (hname : name ≠ []) (r : Rule) (c : Str)
    (hc : r.content = .constant c) (h0 : c ≠ []) (hrn : r.name ≠ []) (is : Line)
    (hroot : env.root.element = .mk name [.container (.rule r .mandatory) :: is] []) (script pre post : Str)
    (hs : script = pre ++ c ++ post) (hp : pre ≠ []) (hfirst : ¬ c <:+: pre ++ c.dropLast)
    (hcode : pre.length ≤ r.code.length) (st : St) :
    ∃ t a st', toToken env 7 script st = some (.ok t, st') ∧ t.isValid = false ∧
      toAST env true 7 script st = some (.ok (.success a), st') ∧ a.name = name ∧ a.discovery = c := by
  obtain ⟨x, st', h1, h2, h3, h4, d, ds, h5, h6⟩ := toToken_behind hch hname hc h0 hroot hs hp hfirst st
  have hpl : 0 < pre.length := List.length_pos_iff.mpr hp
  have hcode0 : r.code ≠ [] := by
    intro h
    simp [h] at hcode
    exact hp hcode
  have hm : RuleMatch.isValid ⟨r, .mandatory, [⟨r, some [x]⟩], false⟩ = false := by
    simp [RuleMatch.isValid, RuleMatch.amount, RuleMatch.isExact, h5, h6]
    intro _; exact hp
  have hx : (x.discoveries.map Discovery.content).flatten = c := h2
  refine ⟨_, .mk name 0 [.rule r.name ⟨r.code, x.discoveries, r.code.take pre.length,
      if pre.length + c.length < r.code.length then r.code.take (pre.length + c.length) else []⟩], st', h1, ?_, ?_, ?_, ?_⟩
  · simp [Token.isValid, TokenContent.isValid, LineMatch.isValid, blocksValid, BlockMatch.isValid, BlockContent.isValid,
      Match.isValid, hm]
  · unfold toAST
    rw [M.bind_some_ok h1]
    rw [M.bind_some_ok (a := none) (s1 := st')]
    · dsimp only
      rw [M.bind_some_ok (s1 := st')]
      · rfl
      · simp [M.lift, Token.toA, blocksToA, BlockMatch.toA, BlockContent.toA, Match.toA, aRuleMatch, aRuleResult, resultsLoop,
          h3, h5, hrn, hcode0, hname, not_lt.mpr hcode, hpl, RuleMatch.discoveries, RuleResult.content, h2]
    · simp [M.lift, toMistake, Token.mistake, TokenContent.mistake, LineMatch.mistake, blocksMistake, BlockMatch.mistake,
        BlockContent.mistake, Match.mistake, ruleMistake, RuleMatch.amount, Card.isValid, isValidDelim, Card.delimiter,
        patternsMistake, patternMistake, h3]
  · rfl
  · simp [AToken.discovery, matchesDiscovery, AMatch.discovery, AResult.content, hx]


/-- C44 (violation): if the text in front of the constant is longer than the source text of the rule, `ToAST` panics. -/
theorem C44_prefix_panic (env : Env) (hch : ∀ k, env.channels k = []) (name : Str) (hname : name ≠ []) (r : Rule) (c : Str)
    (hc : r.content = .constant c) (h0 : c ≠ []) (is : Line)
    (hroot : env.root.element = .mk name [.container (.rule r .mandatory) :: is] []) (script pre post : Str)
    (hs : script = pre ++ c ++ post) (hfirst : ¬ c <:+: pre ++ c.dropLast) (hcode : r.code.length < pre.length) (st : St) :
    ∃ st', toAST env true 7 script st = some (.panic, st') := by
  have hp : pre ≠ [] := by
    intro h
    simp [h] at hcode
  obtain ⟨x, st', h1, h2, h3, h4, d, ds, h5, h6⟩ := toToken_behind hch hname hc h0 hroot hs hp hfirst st
  refine ⟨st', ?_⟩
  unfold toAST
  rw [M.bind_some_ok h1]
  rw [M.bind_some_ok (a := none) (s1 := st')]
  · simp [M.bind_def, M.lift, Token.toA, blocksToA, BlockMatch.toA, BlockContent.toA, Match.toA, aRuleMatch, aRuleResult,
      resultsLoop, h3, h5, hcode]
  · simp [M.lift, toMistake, Token.mistake, TokenContent.mistake, LineMatch.mistake, blocksMistake, BlockMatch.mistake,
      BlockContent.mistake, Match.mistake, ruleMistake, RuleMatch.amount, Card.isValid, isValidDelim, Card.delimiter,
      patternsMistake, patternMistake, h3]

/-- Both are met: the rule `a` (with the code "aa") in the line `a b`, the scripts "zza" and "zzza". -/
example : let r : Rule := ⟨lit "A", lit "aa", .constant (lit "a"), lit "a"⟩
    let env : Env := ⟨⟨.mk (lit "root") [[.container (.rule r .mandatory), .container (.rule (exC "B" "b") .mandatory)]] [], []⟩,
      fun _ => []⟩
    (∃ ast st', toAST env true 7 (lit "zza") exSt = some (.ok ast, st') ∧ ast.view = (true, lit "a")) ∧
    (∃ st', toAST env true 7 (lit "zzza") exSt = some (.panic, st')) :=
  ⟨of_shows (by decide +kernel), C44_prefix_panic _ (by simp) (lit "root") (by decide) ⟨lit "A", lit "aa", .constant (lit "a"), lit "a"⟩
    (lit "a") rfl (by decide) _ rfl (lit "zzza") (lit "zzz") [] (by decide) (by decide) (by decide) _⟩

/-! ## Positions of mistakes -/

/-- C43: the position which is reported for a recognised text `s` (see `PositionOf`): the number of its bytes, the number of its
new lines, and the column in its last line. -/
theorem C43_position (s : Str) : PositionOf s (currentPosition s) := by
  obtain ⟨h1, before, lastLine, h2, h3, h4, h5⟩ := split_position s.length s (le_refl _)
  unfold currentPosition
  simp only [h3]
  split
  · rename_i h
    exact ⟨rfl, by simp [h1], before, lastLine, h2, h4, h5, by simp [h]⟩
  · exact ⟨rfl, by simp [h1], before, lastLine, h2, h4, h5, rfl⟩

example : currentPosition (lit "ab\ncde") = (6, 1, 2) ∧ currentPosition (lit "ab\n") = (3, 1, 0) := by decide +kernel

/-- C43 (violation): the reported position is not that of the mistake. Without prefixes, channels, `not` parts, groups and
specifiers every mistake has the position (0, 0, 0) and no parents, however much of the script was recognised in front of it:
the mistake is always reported for the root token or a rule of the root token. The only exception is a constant which was
found behind other text; it has the position of the end of the constant itself. -/
theorem C43_position_lost (env : Env) (hg : GrammarShape False False (fun _ => True) env) (hch : ∀ k, env.channels k = [])
    (fuel : Nat) (script : Str) (st st' : St) (hst : st.canPrefix = false) (m : Mistake)
    (h : toAST env false fuel script st = some (.ok (.mistake m), st')) :
    m.parents = [] ∧ (m.container = .token env.root.element.name ∨ ∃ name, m.container = .rule name) ∧
    ((m.index, m.line, m.column) = (0, 0, 0) ∨ ∃ p, m.content = .containsPrefix p) := by
  obtain ⟨t, o, h1, h2, h3⟩ := toAST_ok h
  have hV := ((tameInv env False False (fun _ => True) hg (by simp) (by simp)).toToken hg.root hg.deps fuel script _ _ _ hst h1).2
    t rfl
  obtain ⟨_, ht, hn, hd⟩ := hV
  rcases h3 with ⟨m', rfl, hm⟩ | ⟨_, a, _, ha⟩
  swap
  · simp at ha
  simp at hm
  subst hm
  unfold toMistake at h2
  simp only [Out.bind_eq_ok] at h2
  obtain ⟨⟨o', cur⟩, h2, h4⟩ := h2
  simp at h4
  subst h4
  have hpos : currentPosition [] = (0, 0, 0) := by
    have := C43_position []
    obtain ⟨p1, p2, b, l, p3, _, _, p4⟩ := this
    simp at p3
    obtain ⟨rfl, rfl⟩ := p3
    simp at p1 p2 p4
    exact Prod.ext p1 (Prod.ext p2 p4)
  have hiff := t.mistake_iff ht _ _ _ _ h2
  simp at hiff
  match t, ht, hd, hn, h2, hiff with
  | .mk nm none, ht, hd, hn, h2, hiff =>
    simp only [Token.mistake, Out.bind_eq_ok] at h2
    obtain ⟨m', hm', h2⟩ := h2
    simp at h2
    obtain ⟨rfl, _⟩ := h2
    have : failWith (.token nm) [] [] .tokenHasNoMatch = .ok (some m', []) := by simp [failWith, hm']
    obtain ⟨m2, e1, e2, e3, e4, e5⟩ := failWith_some this
    simp at e1
    subst e1
    simp [Token.name] at hn
    exact ⟨e3, .inl (by rw [e2, hn]), .inl (by rw [e5, hpos])⟩
  | .mk nm (some (.mk (.mk i l) n)), ht, hd, hn, h2, hiff =>
    obtain ⟨rfl, hl, hl0, hl1⟩ := ht
    simp [Token.name] at hn
    simp only [Token.isValid, TokenContent.isValid, LineMatch.isValid] at hiff
    obtain ⟨b, rfl⟩ := hl1 hiff
    have hb := hd nm i [b] none rfl b (by simp)
    obtain ⟨c, rfl, hc⟩ := hb.1 hch
    have hsp := hb.2 (fun h => h)
    simp only [Token.mistake, TokenContent.mistake, LineMatch.mistake, blocksMistake, BlockMatch.mistake, Out.bind_eq_ok] at h2
    obtain ⟨⟨y1, y2⟩, hy, h2⟩ := h2
    have hy1 : y1 = some m := by
      cases y1 with
      | none => simp at h2
      | some y => simp at h2; rw [h2.1]
    subst hy1
    have done : ∀ x c, failWith c [] [] x = .ok (some m, y2) → m.parents = [] ∧ m.container = c ∧
        (m.index, m.line, m.column) = (0, 0, 0) := by
      intro x c h
      obtain ⟨m2, e1, e2, e3, e4, e5⟩ := failWith_some h
      simp at e1
      subst e1
      exact ⟨e3, e2, by rw [e5, hpos]⟩
    cases c with
    | block b => exact absurd rfl (hc b)
    | next x =>
      obtain ⟨e1, e2, e3⟩ := done _ _ hy
      exact ⟨e1, .inl (by rw [e2, hn]), .inl e3⟩
    | container x =>
      simp only [BlockContent.mistake] at hy
      cases x with
      | skipToken => simp [Match.mistake] at hy
      | skipRule => simp [Match.mistake] at hy
      | line l => simp [BlocksTame, BlockMatch.Tame, BlockContent.Tame, Match.Tame] at hl
      | token tm =>
        match tm, hl, hsp, hy with
        | .mk tn r sp, hl, hsp, hy =>
          have := hsp _ _ _ _ rfl
          subst this
          match r, hl, hy with
          | .mk inp k [], hl, hy =>
            simp only [Match.mistake, TokenMatch.mistake, TokenResult.mistake, Out.bind_eq_ok] at hy
            obtain ⟨⟨z1, z2⟩, hz, hy⟩ := hy
            split at hz
            · simp at hz
              rw [← hz.1] at hy
              simp [specifiersMistake] at hy
            · obtain ⟨m2, e1, _⟩ := failWith_some hz
              subst e1
              simp at hy
              obtain ⟨rfl, rfl⟩ := hy
              obtain ⟨e1, e2, e3⟩ := done _ _ hz
              exact ⟨e1, .inl (by rw [e2, hn]), .inl e3⟩
          | .mk inp k (t :: ts), hl, hy =>
            simp only [Match.mistake, TokenMatch.mistake, TokenResult.mistake, Out.bind_eq_ok] at hy
            obtain ⟨⟨z1, z2⟩, hz, hy⟩ := hy
            split at hz
            · obtain ⟨m2, e1, _⟩ := failWith_some hz
              subst e1
              simp at hy
              obtain ⟨rfl, rfl⟩ := hy
              obtain ⟨e1, e2, e3⟩ := done _ _ hz
              exact ⟨e1, .inl (by rw [e2, hn]), .inl e3⟩
            · have htt : TokensTame (t :: ts) := hl.1
              have := tokens_mistake_none (t :: ts) htt _ _ _ _ hz
              subst this
              simp [specifiersMistake] at hy
      | rule r =>
        simp only [Match.mistake, ruleMistake] at hy
        split at hy
        · obtain ⟨e1, e2, e3⟩ := done _ _ hy
          exact ⟨e1, .inr ⟨_, e2⟩, .inl e3⟩
        · have key : ∀ (l : List Result) cur, patternsMistake [] r.rule.name false l cur = .ok (some m, y2) →
              m.parents = [] ∧ m.container = .rule r.rule.name ∧ ∃ p, m.content = .containsPrefix p := by
            intro l
            induction l with
            | nil => intro cur h; simp [patternsMistake] at h
            | cons x xs ih =>
              intro cur h
              simp only [patternsMistake, patternMistake, Out.bind_eq_ok] at h
              obtain ⟨⟨z1, z2⟩, ⟨i, hi, hz⟩, h⟩ := h
              split at hz
              · split at hz
                · simp at hz
                · split at hz
                  · simp at hz
                  · obtain ⟨m2, e1, e2, e3, e4, e5⟩ := failWith_some hz
                    subst e1
                    simp at h
                    obtain ⟨rfl, rfl⟩ := h
                    exact ⟨e3, e2, _, e4⟩
              · simp at hz
                rw [← hz.1] at h
                exact ih _ h
          split at hy
          · simp at hy
          · split at hy
            · simp at hy
            · obtain ⟨e1, e2, e3⟩ := key _ _ hy
              exact ⟨e1, .inr ⟨_, e2⟩, .inr e3⟩

/-- The rules `a`, `b` and `c` in a line, each on a line of the script, and the last one is missing. -/
def exLines : Env := ⟨⟨.mk (lit "root") [[.container (.rule (exC "A" "a\n") .mandatory), .container (.rule (exC "B" "b\n") .mandatory),
    .container (.rule (exC "C" "c\n") .mandatory)]] [], []⟩, fun _ => []⟩

/-- The hypotheses are met: the mistake in line 2 is reported at (0, 0, 0). -/
example : GrammarShape False False (fun _ => True) exLines ∧ (∀ k, exLines.channels k = []) ∧
    (∃ ast st', toAST exLines false 7 (lit "a\nb\nd\n") exSt = some (.ok ast, st') ∧
      (match ast with | .mistake m => some m | _ => none) =
        some ⟨0, 0, 0, .rule (lit "C"), [], .cardinalityIsInvalid .mandatory 0⟩) := by
  refine ⟨⟨.mk (fun _ => rfl) ?_, by simp [exLines], by simp [exLines]⟩, by simp [exLines], of_shows (by decide +kernel)⟩
  intro line hl c hc
  simp at hl; subst hl; simp at hc
  rcases hc with rfl | rfl | rfl <;> exact .rule trivial

end Verif.Lexer
