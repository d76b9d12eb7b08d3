import Verif.Lemmas.Observers
import Verif.Props.Lexer

/-!
# Property C133: `IsExact` and `Input`
-/

namespace Verif.Lexer
open Verif

/-- C133: a valid token, made without alternatives which must not match, is exact exactly if every token of which its text consists was found at least once. -/
theorem C133_exact (t : Token) (hv : t.isValid = true) (hp : t.AllPlain) : t.isExact = true ↔ ∀ m ∈ t.parts, m.result.list ≠ [] :=
  t.exact_iff hv hp.1 hp.2

/-- C133: a token in whose line a part is missing, because the text ended too early, is not exact. -/
theorem C133_missing (t : Token) (c : TokenContent) (hc : t.content = some c) (p : Option LineMatch) (x : NextElement)
    (h : BlockMatch.mk p (.next x) ∈ c.must.list) : t.isExact = false := by
  have hb : ∀ l : List BlockMatch, BlockMatch.mk p (.next x) ∈ l → blocksExact l = false := by
    intro l hl
    induction l with
    | nil => simp at hl
    | cons b l ih =>
      rcases List.mem_cons.mp hl with rfl | hl
      · simp [blocksExact, BlockMatch.isExact, BlockContent.isExact]
      · simp [blocksExact, ih hl]
  obtain ⟨n, o⟩ := t
  simp only [Token.content] at hc
  subst hc
  obtain ⟨⟨i, l⟩, q⟩ := c
  have := hb l h
  cases q <;> simp [Token.isExact, TokenContent.isExact, LineMatch.isExact, this]

/-- C133: with a line of the alternatives which must not match, a token is exact exactly if it is valid and what must match is exact. -/
theorem C133_not (name : Str) (must not : LineMatch) :
    Token.isExact (.mk name (some (.mk must (some not)))) = true ↔
      Token.isValid (.mk name (some (.mk must (some not)))) = true ∧ Token.isExact (.mk name (some (.mk must none))) = true := by
  cases h : not.isValid <;> simp [Token.isExact, TokenContent.isExact, Token.isValid, TokenContent.isValid, h]

/-- C133: what `Input` of a match gives, for every run: for a token the text which was left when it was tried, for a rule its definition in the grammar, and for
alternatives in parentheses it panics (`inputOf`). -/
theorem C133_input (env : Env) (n : Nat) (c : PContainer) (deps : List Element) (script : Str) (chans : Bool) (s s' : St) (m : Match)
    (h : containerToMatch env n c deps script chans s = some (.ok (some m), s')) :
    m.input = inputOf c script := by
  have htok : ∀ {n e specs card s s' t}, tokenToTokenMatch env n e specs card deps script chans s = some (.ok t, s') → t.result.input = script := by
    intro n e specs card s s' t h
    cases n with
    | zero => simp [tokenToTokenMatch, M.outOfFuel] at h
    | succ n =>
      simp only [tokenToTokenMatch] at h
      obtain ⟨l, s1, -, h⟩ := M.bind_ok.mp h
      simp only [M.lift, tokenMatchNow] at h
      split at h
      · simp at h
      · split at h
        · simp at h
        · simp at h
          rw [← h.1]
          rfl
  have hwrap : ∀ t : TokenMatch, (wrapToken t).input = .ok t.result.input := by
    intro t; unfold wrapToken; split <;> rfl
  cases n with
  | zero => simp [containerToMatch, M.outOfFuel] at h
  | succ n =>
    cases c with
    | lines ls =>
      simp only [containerToMatch] at h
      obtain ⟨l, s1, -, h⟩ := M.bind_ok.mp h
      cases l with
      | none => simp [pure] at h
      | some l => simp [pure] at h; rw [← h.1]; rfl
    | token e specs card =>
      simp only [containerToMatch] at h
      obtain ⟨t, s1, ht, h⟩ := M.bind_ok.mp h
      simp [pure] at h
      rw [← h.1, hwrap, htok ht]; rfl
    | rule r card =>
      simp only [containerToMatch] at h
      obtain ⟨x, s1, hx, h⟩ := M.bind_ok.mp h
      simp [pure] at h
      have : x.rule = r := by
        simp only [ruleToRuleMatch] at hx
        obtain ⟨_, _, -, hx⟩ := M.bind_ok.mp hx
        obtain ⟨_, _, -, hx⟩ := M.bind_ok.mp hx
        obtain ⟨_, _, -, hx⟩ := M.bind_ok.mp hx
        simp [pure] at hx
        rw [← hx.1]
      rw [← h.1]
      unfold wrapRule
      split <;> simp [Match.input, inputOf, this]
    | recursive name specs card =>
      simp only [containerToMatch] at h
      obtain ⟨s0, s1, -, h⟩ := M.bind_ok.mp h
      split at h
      · obtain ⟨_, _, -, h⟩ := M.bind_ok.mp h
        simp [pure] at h
      · obtain ⟨_, _, -, h⟩ := M.bind_ok.mp h
        obtain ⟨e, _, -, h⟩ := M.bind_ok.mp h
        obtain ⟨t, s1, ht, h⟩ := M.bind_ok.mp h
        simp [pure] at h
        rw [← h.1, hwrap, htok ht]; rfl

/-- C133, violation: so, outside channels, `Input` of a rule does not depend on the text at all, and where the text ended too early `Input` panics, for every part of
the grammar. -/
theorem C133_input_violation (env : Env) (n : Nat) (c : PContainer) (deps : List Element) (script : Str) (next : Bool) (s s' : St) (b : BlockMatch)
    (h : containerToBlockMatch env n c deps script false next s = some (.ok (some b), s')) :
    (script = [] → b.input = .panic) ∧ (script ≠ [] → ∀ r card, c = .rule r card → b.input = .ok r.code) := by
  cases n with
  | zero => simp [containerToBlockMatch, M.outOfFuel] at h
  | succ n =>
    simp only [containerToBlockMatch] at h
    refine ⟨fun hs => ?_, fun hs r card hc => ?_⟩
    · rw [if_pos hs] at h
      obtain ⟨card, s1, -, h⟩ := M.bind_ok.mp h
      split at h
      · simp [pure] at h
      · obtain ⟨x, s1, -, h⟩ := M.bind_ok.mp h
        simp [pure] at h
        rw [← h.1]
        rfl
    · rw [if_neg hs] at h
      obtain ⟨ch, s1, h1, h⟩ := M.bind_ok.mp h
      simp [pure] at h1
      obtain ⟨rfl, -⟩ := h1
      obtain ⟨m, s2, hm, h⟩ := M.bind_ok.mp h
      cases m with
      | none => simp [pure] at h
      | some m =>
        simp [pure] at h
        rw [← h.1]
        subst hc
        exact C133_input env n _ deps script _ _ _ m hm

/-- An item: the rule `B`. -/
def exOneB : Element := .mk (lit "item") [[.container (.rule (exC "B" "b") .mandatory)]] []

/-- The rule `A`, then any number of items. -/
def exMany : Env := ⟨⟨.mk (lit "root") [[.container (.rule (exC "A" "a") .mandatory), .container (.token exOneB [] .zeroMultiple)]] [], [exOneB]⟩, fun _ => []⟩

/-- The rule `A`, then exactly two items. -/
def exTwo : Env :=
  ⟨⟨.mk (lit "root") [[.container (.rule (exC "A" "a") .mandatory), .container (.token exOneB [] (.specific (.amount 2)))]] [], [exOneB]⟩, fun _ => []⟩

/-- C133, violation: a valid token is not always exact: with the same grammar the same recognised text is exact or not, depending on the rest of the text. -/
theorem C133_valid_not_exact_violation : ∃ t st u st', toToken exMany 30 (lit "ac") exSt = some (.ok t, st) ∧ toToken exMany 30 (lit "a") exSt = some (.ok u, st') ∧
    t.isValid = true ∧ u.isValid = true ∧ t.discoveries = lit "a" ∧ u.discoveries = lit "a" ∧ t.isExact = false ∧ u.isExact = true := by
  obtain ⟨t, st, h1, h2⟩ := of_shows (f := fun t => (t.isValid, t.discoveries, t.isExact)) (x := toToken exMany 30 (lit "ac") exSt) (v := (true, lit "a", false))
    (by decide +kernel)
  obtain ⟨u, st', h3, h4⟩ := of_shows (f := fun t => (t.isValid, t.discoveries, t.isExact)) (x := toToken exMany 30 (lit "a") exSt) (v := (true, lit "a", true))
    (by decide +kernel)
  simp at h2 h4
  exact ⟨t, st, u, st', h1, h3, h2.1, h4.1, h2.2.1, h4.2.1, h2.2.2, h4.2.2⟩

/-- C133, violation: an exact token is not always valid, because the numbers of repetitions are not looked at. -/
theorem C133_exact_not_valid_violation : ∃ t st, toToken exTwo 30 (lit "ab") exSt = some (.ok t, st) ∧ t.isExact = true ∧ t.isValid = false := by
  obtain ⟨t, st, h1, h2⟩ := of_shows (f := fun t => (t.isExact, t.isValid)) (x := toToken exTwo 30 (lit "ab") exSt) (v := (true, false)) (by decide +kernel)
  simp at h2
  exact ⟨t, st, h1, h2⟩

/-- C133, violation: `Input` of what was found in two different texts is the same, and not a part of them; and it panics where an item is missing at the end. -/
theorem C133_input_runs_violation : ∃ t st u st' v st'', toToken exMany 30 (lit "abc") exSt = some (.ok t, st) ∧ toToken exMany 30 (lit "a") exSt = some (.ok u, st') ∧
    toToken exTwo 30 (lit "a") exSt = some (.ok v, st'') ∧ (t.content.map fun c => c.must.input) = some (.ok (lit "Abc")) ∧
    (u.content.map fun c => c.must.input) = some (.ok (lit "A")) ∧ (v.content.map fun c => c.must.input) = some .panic := by
  obtain ⟨t, st, h1, h2⟩ := of_shows (f := fun t => t.content.map fun c => c.must.input) (x := toToken exMany 30 (lit "abc") exSt) (v := some (.ok (lit "Abc")))
    (by decide +kernel)
  obtain ⟨u, st', h3, h4⟩ := of_shows (f := fun t => t.content.map fun c => c.must.input) (x := toToken exMany 30 (lit "a") exSt) (v := some (.ok (lit "A")))
    (by decide +kernel)
  obtain ⟨v, st'', h5, h6⟩ := of_shows (f := fun t => t.content.map fun c => c.must.input) (x := toToken exTwo 30 (lit "a") exSt) (v := some .panic)
    (by decide +kernel)
  exact ⟨t, st, u, st', v, st'', h1, h3, h5, h2, h4, h6⟩

/-- What is missing in a block match of a line. -/
def exMissing : BlockMatch → Option NextElement
  | .mk none (.next x) => some x
  | _ => none

/-- The hypotheses of `C133_missing` are met by a run: the items are missing. -/
example : ∃ t st, toToken exTwo 30 (lit "a") exSt = some (.ok t, st) ∧ (t.content.map fun c => c.must.list.filterMap exMissing) = some [.constant (lit "b")] :=
  of_shows (f := fun t => t.content.map fun c => c.must.list.filterMap exMissing) (x := toToken exTwo 30 (lit "a") exSt) (v := some [.constant (lit "b")])
    (by decide +kernel)

/-- The hypotheses of `C133_exact` are met by a token with parts. -/
example : ∃ t st, toToken exEnv 30 (lit "abba bz") exSt = some (.ok t, st) ∧ t.isValid = true ∧ t.AllPlain ∧ t.parts ≠ [] ∧ t.isExact = true := by
  obtain ⟨t, st, h1, h2⟩ := of_shows (f := fun t => (t.isValid, t.isExact, t.parts.isEmpty, (t.content.map fun c => c.not.isSome),
      t.parts.all (fun m => m.result.list.all fun u => (u.content.map fun c => c.not.isSome) == some false)))
    (x := toToken exEnv 30 (lit "abba bz") exSt) (v := (true, true, false, some false, true)) (by decide +kernel)
  refine ⟨t, st, h1, ?_⟩
  clear h1
  simp only [Prod.mk.injEq] at h2
  simp at h2
  obtain ⟨h2, h3, h4, ⟨c, h5, h6⟩, h7⟩ := h2
  refine ⟨h2, ⟨?_, ?_⟩, by simpa using h4, h3⟩
  · intro c' hc'
    rw [h5] at hc'
    rw [← Option.some.inj hc']
    exact h6
  · intro m hm u hu c' hc'
    obtain ⟨c, h8, h9⟩ := h7 m hm u hu
    rw [h8] at hc'
    rw [← Option.some.inj hc']
    exact h9

end Verif.Lexer
