import Verif.Lemmas.AstChannels
import Verif.Props.Ast

/-!
# More about the abstract syntax trees and the mistakes
-/

namespace Verif.Lexer
open Verif.Patterns Verif.Cardinality

/-! ## C44: the AST -/

/-- C44: a successful AST is the mirror of the token of the matcher (see `Mirror`): the same names and line numbers, the same
matches in the same order, everything of the channels included; only missing optional matches are left out. -/
theorem C44_mirror (env : Env) (cp : Bool) (fuel : Nat) (script : Str) (st st' : St) (a : AToken)
    (h : toAST env cp fuel script st = some (.ok (.success a), st')) :
    ∃ t, toToken env fuel script st = some (.ok t, st') ∧ Mirror t a := by
  obtain ⟨t, o, h1, _, h3⟩ := toAST_ok h
  rcases h3 with ⟨m, _, h3⟩ | ⟨_, a', h3, h4⟩
  · simp at h3
  · simp at h4
    subst h4
    exact ⟨t, h1, t.toA_mirror _ h3⟩

/-- A grammar with a channel, a repeated token and an optional rule, where the second line of the token matches. -/
def exMirror : Env := ⟨⟨.mk (lit "root") [[.container (.token (.mk (lit "item") [[.container (.rule (exC "A" "a") .mandatory)],
      [.container (.rule (exC "B" "b") .mandatory), .container (.rule (exC "C" "c") .optional)]] []) [] .nonZeroMultiple)]] [],
      []⟩,
  fun _ => [⟨.mk (lit "ws") [[.container (.rule (exC "W" "_") .mandatory)]] [], []⟩]⟩

/-- The name and line of a token, and those of its matches. -/
def AToken.label : AToken → Str × Nat
  | .mk n i _ => (n, i)
def AToken.outline : AST → List (List (Str × Nat))
  | .success (.mk n i l) => [(n, i)] :: l.map (fun m => match m with
    | .token _ ts => ts.map AToken.label
    | .rule n _ => [(n, 0)])
  | _ => []

example : ∃ ast st', toAST exMirror false 40 (lit "_a_bc") exSt = some (.ok ast, st') ∧
    AToken.outline ast = [[(lit "root", 0)], [(lit "W", 0)], [(lit "item", 0), (lit "item", 1)]] :=
  of_shows (by decide +kernel)

/-- C44 (violation): with a `not` part the AST is a mistake although the token is valid: a token whose lines do not match, and
whose `not` line does not match either, is valid for the matcher. -/
theorem C44_not_violation (env : Env) (hch : ∀ k, env.channels k = []) (name : Str) (hname : name ≠ []) (ra rb : Rule) (a b : Str)
    (ha : ra.content = .constant a) (hb : rb.content = .constant b) (ha0 : a ≠ []) (hb0 : b ≠ []) (hra : ra.name ≠ [])
    (hrb : rb.name ≠ []) (hroot : env.root.element = .mk name [[.container (.rule ra .mandatory)]] [[.container (.rule rb .mandatory)]])
    (script : Str) (hs : script ≠ []) (hia : ¬ a <:+: script) (hib : ¬ b <:+: script) (st : St) :
    ∃ t st' m, toToken env 7 script st = some (.ok t, st') ∧ t.isValid = true ∧
      toAST env false 7 script st = some (.ok (.mistake m), st') ∧ m.container = .rule ra.name ∧
      m.content = .cardinalityIsInvalid .mandatory 0 := by
  have absent : ∀ (r : Rule) (c : Str), r.content = .constant c → c ≠ [] → ¬ c <:+: script → ∀ st : St, ∃ p k,
      lineToMatches env 4 [.container (.rule r .mandatory)] env.root.deps script true st =
        some (.ok (some [.mk none (.container (.rule ⟨r, .mandatory, [], p⟩))]), { st with ranges := k }) := by
    intro r c hc h0 hi st
    obtain ⟨k, hk⟩ := block_direct hch (n := 1) (c := .rule r .mandatory) (deps := env.root.deps) hs true true st
    obtain ⟨k', hk'⟩ := block_direct hch (n := 1) (c := .rule r .mandatory) (deps := env.root.deps) hs false true { st with ranges := k }
    obtain ⟨p, h1⟩ := block_absent (env := env) hc h0 0 env.root.deps hs hi true { st with ranges := k }
    refine ⟨p, k, lineToMatches_one ?_ ?_⟩
    · rw [hk, ← h1]
      simp only [containerToBlockMatch, hs, if_false, Bool.false_eq_true]
      rw [M.bind_some_ok (M.pure_run _ _)]
      rfl
    · intro hv
      simp [BlockMatch.isValid, BlockContent.isValid, Match.isValid, RuleMatch.isValid, RuleMatch.amount, Card.isValid, isValidDelim,
        Card.delimiter] at hv
  obtain ⟨p, k, h1⟩ := absent ra a ha ha0 hia { st with recursive := fun _ => none }
  obtain ⟨p', k', h2⟩ := absent rb b hb hb0 hib { recursive := fun _ => none, canPrefix := st.canPrefix, ranges := k }
  have nv : ∀ (r : Rule) p, blocksValid [.mk none (.container (.rule ⟨r, .mandatory, [], p⟩))] = false := by
    intro r p
    simp [blocksValid, BlockMatch.isValid, BlockContent.isValid, Match.isValid, RuleMatch.isValid, RuleMatch.amount, Card.isValid,
      isValidDelim, Card.delimiter]
  have ht := token_not h1 h2 (by simp [nv]) (by simp [nv]) hname
  have htt : toToken env 7 script st = some (.ok (.mk name (some (.mk (.mk 0 [.mk none (.container (.rule ⟨ra, .mandatory, [], p⟩))])
      (some (.mk 0 [.mk none (.container (.rule ⟨rb, .mandatory, [], p'⟩))]))))),
      { recursive := fun _ => none, canPrefix := st.canPrefix, ranges := k' }) := by
    unfold toToken
    rw [M.bind_some_ok (M.get_run _), M.bind_some_ok (M.set_run _ _), hroot]
    exact ht
  have hpa : pathNow (.rule ra.name) = .ok (.rule ra.name) := by
    unfold pathNow
    split <;> simp_all
  have hpb : pathNow (.rule rb.name) = .ok (.rule rb.name) := by
    unfold pathNow
    split <;> simp_all
  refine ⟨_, _, ⟨(currentPosition []).1, (currentPosition []).2.1, (currentPosition []).2.2, .rule ra.name, [],
    .cardinalityIsInvalid .mandatory 0⟩, htt, ?_, ?_, rfl, rfl⟩
  · simp [Token.isValid, TokenContent.isValid, LineMatch.isValid, nv]
  · unfold toAST
    rw [M.bind_some_ok htt]
    simp [M.bind_def, M.lift, toMistake, Token.mistake, TokenContent.mistake, LineMatch.mistake, blocksMistake, BlockMatch.mistake,
      BlockContent.mistake, Match.mistake, ruleMistake, RuleMatch.amount, Card.isValid, isValidDelim, Card.delimiter, failWith,
      buildMistake, hpa, hpb]

/-- Met by `a`, not `b` and the script "x". -/
example : let env : Env := ⟨⟨.mk (lit "root") [[.container (.rule (exC "A" "a") .mandatory)]]
      [[.container (.rule (exC "B" "b") .mandatory)]], []⟩, fun _ => []⟩
    ∃ t st' m, toToken env 7 (lit "x") exSt = some (.ok t, st') ∧ t.isValid = true ∧
      toAST env false 7 (lit "x") exSt = some (.ok (.mistake m), st') ∧ m.container = .rule (lit "A") ∧
      m.content = .cardinalityIsInvalid .mandatory 0 :=
  C44_not_violation _ (by simp) (lit "root") (by decide) (exC "A" "a") (exC "B" "b") (lit "a") (lit "b") rfl rfl (by decide) (by decide)
    (by decide) (by decide) rfl _ (by decide) (by decide) (by decide) _

/-! ## C43: the mistakes -/

/-- C43: every mistake concerns a token (or a rule directly in it) which is reached from the root through the tokens whose names
are the parents of the mistake, from the outside to the inside. -/
theorem C43_path (t : Token) (cp : Bool) (m : Mistake) (h : toMistake cp t = .ok (some m)) :
    ∃ u, Under t m.parents u ∧ Concerns u m.container := by
  unfold toMistake at h
  simp only [Out.bind_eq_ok] at h
  obtain ⟨⟨o, cur⟩, h, h'⟩ := h
  simp at h'
  subst h'
  obtain ⟨names, v, e1, e2, e3⟩ := t.mistake_path _ _ _ _ _ h
  simp at e1
  exact ⟨v, e1 ▸ e2, e3⟩

/-- The mistake is two tokens deep. -/
def exDeepInner : Element := .mk (lit "inner") [[.container (.rule (exC "A" "a") .mandatory)]]
  [[.container (.rule (exC "B" "b") .mandatory)]]
def exDeepMid : Element :=
  .mk (lit "mid") [[.container (.rule (exC "M" "m") .mandatory), .container (.token exDeepInner [] .mandatory)]] []
def exDeep : Env := ⟨⟨.mk (lit "root") [[.container (.token exDeepMid [] .mandatory)]] [], []⟩, fun _ => []⟩

example : ∃ ast st', toAST exDeep false 40 (lit "mx") exSt = some (.ok ast, st') ∧
      (match ast with | .mistake m => some (m.parents, m.container) | _ => none) = some ([lit "root", lit "mid"], .rule (lit "A")) :=
  of_shows (by decide +kernel)

/-- C43: if the `not` line of a token is without mistakes, that is the mistake of the token, with the number of the line. If it has
a mistake, the mistakes are those of the token without the `not` part. -/
theorem C43_not (name : Str) (hname : name ≠ []) (must nt : LineMatch) (cp : Bool) :
    (toMistake cp (.mk name (some (.mk nt none))) = .ok none →
      ∃ m, toMistake cp (.mk name (some (.mk must (some nt)))) = .ok (some m) ∧ m.content = .containsValidNotMatch nt.index ∧
        m.container = .token name ∧ m.parents = []) ∧
    (∀ m, toMistake cp (.mk name (some (.mk nt none))) = .ok (some m) →
      toMistake cp (.mk name (some (.mk must (some nt)))) = toMistake cp (.mk name (some (.mk must none)))) := by
  have hp : pathNow (.token name) = .ok (.token name) := by
    unfold pathNow
    split <;> simp_all
  constructor
  · intro h
    simp only [toMistake, Token.mistake, TokenContent.mistake, Out.bind_eq_ok] at h
    obtain ⟨⟨o, cur⟩, h1, h2⟩ := h
    simp at h2
    subst h2
    simp only [toMistake, Token.mistake, TokenContent.mistake, h1, Out.bind_ok, failWith, buildMistake, hp]
    exact ⟨_, rfl, rfl, rfl, rfl⟩
  · intro m h
    simp only [toMistake, Token.mistake, TokenContent.mistake, Out.bind_eq_ok] at h
    obtain ⟨⟨o, cur⟩, h1, h2⟩ := h
    simp at h2
    subst h2
    simp only [toMistake, Token.mistake, TokenContent.mistake, h1, Out.bind_ok]

/-- C43: the position of the mistake of a matching `not` line, for constants: the end of the text of the `not` line. -/
theorem C43_not_position (env : Env) (hch : ∀ k, env.channels k = []) (name : Str) (hname : name ≠ []) (ra rb : Rule) (a b : Str)
    (ha : ra.content = .constant a) (hb : rb.content = .constant b) (ha0 : a ≠ []) (hb0 : b ≠ [])
    (hroot : env.root.element = .mk name [[.container (.rule ra .mandatory)]] [[.container (.rule rb .mandatory)]])
    (script : Str) (hsa : a <+: script) (hsb : b <+: script) (cp : Bool) (st : St) :
    ∃ m st', toAST env cp 7 script st = some (.ok (.mistake m), st') ∧ m.container = .token name ∧
      m.content = .containsValidNotMatch 0 ∧ PositionOf b (m.index, m.line, m.column) := by
  obtain ⟨x, p, st1, h1, h2, h3, h4, h5⟩ := block_front hch ha ha0 0 env.root.deps hsa true true { st with recursive := fun _ => none }
  obtain ⟨y, q, st2, k1, k2, k3, k4, k5⟩ := block_front hch hb hb0 0 env.root.deps hsb true true st1
  have e1 := lineToMatches_one h1 (by
    intro _
    simpa [BlockMatch.discoveries, BlockContent.discoveries, Match.discoveries, h5] using hsa)
  have e2 := lineToMatches_one k1 (by
    intro _
    simpa [BlockMatch.discoveries, BlockContent.discoveries, Match.discoveries, k5] using hsb)
  have ht := token_not e1 e2 (by simp [blocksDiscoveries, BlockMatch.discoveries, BlockContent.discoveries, Match.discoveries, h5, ha0])
    (by simp [blocksDiscoveries, BlockMatch.discoveries, BlockContent.discoveries, Match.discoveries, k5, hb0]) hname
  have htt : toToken env 7 script st = some (.ok (.mk name (some (.mk (.mk 0 [.mk none (.container
      (.rule ⟨ra, .mandatory, [⟨ra, some [x]⟩], p⟩))]) (some (.mk 0 [.mk none (.container
        (.rule ⟨rb, .mandatory, [⟨rb, some [y]⟩], q⟩))]))))), st2) := by
    unfold toToken
    rw [M.bind_some_ok (M.get_run _), M.bind_some_ok (M.set_run _ _), hroot]
    exact ht
  have hp : pathNow (.token name) = .ok (.token name) := by
    unfold pathNow
    split <;> simp_all
  refine ⟨⟨(currentPosition b).1, (currentPosition b).2.1, (currentPosition b).2.2, .token name, [], .containsValidNotMatch 0⟩, st2,
    ?_, rfl, rfl, C43_position b⟩
  unfold toAST
  rw [M.bind_some_ok htt]
  simp [M.bind_def, M.lift, toMistake, Token.mistake, TokenContent.mistake, LineMatch.mistake, blocksMistake, BlockMatch.mistake,
    BlockContent.mistake, Match.mistake, ruleMistake, RuleMatch.amount, Card.isValid, isValidDelim, Card.delimiter, failWith,
    buildMistake, hp, patternsMistake, patternMistake, k2, k3, LineMatch.index]

example : let env : Env := ⟨⟨.mk (lit "root") [[.container (.rule (exC "A" "a\nbc") .mandatory)]]
      [[.container (.rule (exC "B" "a\nb") .mandatory)]], []⟩, fun _ => []⟩
    ∃ m st', toAST env false 7 (lit "a\nbcd") exSt = some (.ok (.mistake m), st') ∧ m.container = .token (lit "root") ∧
      m.content = .containsValidNotMatch 0 ∧ PositionOf (lit "a\nb") (m.index, m.line, m.column) :=
  C43_not_position _ (by simp) (lit "root") (by decide) (exC "A" "a\nbc") (exC "B" "a\nb") (lit "a\nbc") (lit "a\nb") rfl rfl
    (by decide) (by decide) rfl _ (by decide) (by decide) _ _

/-- C43: a missing constant behind `k` copies of the text `z` of the channel is reported behind them. -/
theorem C43_channel_position (env : Env) (z : Str) (hchan : ConstChannel env z) (name : Str) (hname : name ≠ []) (r : Rule) (c : Str)
    (hc : r.content = .constant c) (h0 : c ≠ []) (hrn : r.name ≠ [])
    (hroot : env.root.element = .mk name [[.container (.rule r .mandatory)]] []) (k : Nat) (u : Str) (hu : ¬ z <+: u) (hu0 : u ≠ [])
    (hi : ¬ c <:+: u) (cp : Bool) (st : St) (fuel : Nat) (hf : 2 * k + 13 ≤ fuel) :
    ∃ m st', toAST env cp fuel ((List.replicate k z).flatten ++ u) st = some (.ok (.mistake m), st') ∧ m.container = .rule r.name ∧
      m.content = .cardinalityIsInvalid .mandatory 0 ∧ PositionOf (List.replicate k z).flatten (m.index, m.line, m.column) := by
  obtain ⟨hz0, zn, rz, zd, hzn, hz, hch⟩ := hchan
  obtain ⟨n, rfl⟩ : ∃ n, fuel = n + 4 := ⟨fuel - 4, by omega⟩
  obtain ⟨b, st', h1, h2, h3⟩ := block_channels_absent hzn hz hz0 (zd := zd) hch hc h0 env.root.deps u hu0 hu hi cp name k n
    { st with recursive := fun _ => none } (by omega)
  have e1 := lineToMatches_one h1 (by simp [h2])
  have ht := token_single e1 (by simp [blocksValid, h2]) hname
  have htt : toToken env (n + 4) ((List.replicate k z).flatten ++ u) st =
      some (.ok (.mk name (some (.mk (.mk 0 [b]) none))), st') := by
    unfold toToken
    rw [M.bind_some_ok (M.get_run _), M.bind_some_ok (M.set_run _ _), hroot]
    exact ht
  have hp : pathNow (.rule r.name) = .ok (.rule r.name) := by
    unfold pathNow
    split <;> simp_all
  refine ⟨⟨(currentPosition (copies z k)).1, (currentPosition (copies z k)).2.1, (currentPosition (copies z k)).2.2, .rule r.name, [],
    .cardinalityIsInvalid .mandatory 0⟩, st', ?_, rfl, rfl, C43_position _⟩
  unfold toAST
  rw [M.bind_some_ok htt]
  simp [M.bind_def, M.lift, toMistake, Token.mistake, TokenContent.mistake, LineMatch.mistake, blocksMistake, h3, failWith,
    buildMistake, hp]

example : let env : Env := ⟨⟨.mk (lit "root") [[.container (.rule (exC "A" "a") .mandatory)]] [], []⟩,
      fun _ => [⟨.mk (lit "ws") [[.container (.rule (exC "W" "_\n") .mandatory)]] [], []⟩]⟩
    ∃ m st', toAST env false 17 (lit "_\n_\nx") exSt = some (.ok (.mistake m), st') ∧ m.container = .rule (lit "A") ∧
      m.content = .cardinalityIsInvalid .mandatory 0 ∧ PositionOf (lit "_\n_\n") (m.index, m.line, m.column) :=
  C43_channel_position _ (lit "_\n") ⟨by decide, _, _, _, by decide, rfl, fun _ => rfl⟩ (lit "root") (by decide) (exC "A" "a") (lit "a") rfl
    (by decide) (by decide) rfl 2 (lit "x") (by decide) (by decide) (by decide) _ _ 17 (by omega)

/-- C43 (violation): the mistake of a rule without name cannot be built: an error instead of a mistake. -/
theorem C43_nameless (name : Str) (r : Rule) (card : Card) (i : Nat) (p cp : Bool) (h : card.isValid 0 = false) :
    toMistake cp (.mk name (some (.mk (.mk i [.mk none (.container (.rule ⟨r, card, [], p⟩))]) none))) = .err ↔ r.name = [] := by
  have h' : card.isValid (UInt64.ofNat 0) = false := h
  simp only [toMistake, Token.mistake, TokenContent.mistake, LineMatch.mistake, blocksMistake, BlockMatch.mistake,
    BlockContent.mistake, Match.mistake, ruleMistake, RuleMatch.amount, List.length_nil, h', Bool.not_false, if_true, failWith,
    buildMistake]
  cases hr : r.name with
  | nil => simp [pathNow]
  | cons c cs => simp [pathNow]

example : (Card.mandatory).isValid 0 = false := by decide

end Verif.Lexer
