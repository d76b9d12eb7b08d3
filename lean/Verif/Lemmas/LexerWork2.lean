import Verif.Lemmas.LexerWork
import Verif.Lemmas.LexerConst

/-!
# The work of the matcher: one block
-/

namespace Verif.Lexer
open Verif.Patterns Verif.Cardinality

/-- No channel finds anything at the text. -/
def Quiet (env : Env) (s : Str) : Prop := ∀ n k st r st', st.canPrefix = false →
  channelLoop (fun p => elementToToken env n p.element p.deps s false) (env.channels k) st = some (r, st') → r = .ok none ∧ st' = st

theorem quiet_of {ps : List Path} (hps : ∀ p ∈ ps, ∃ name r, name ≠ [] ∧ RuleWF r ∧ p.element = ruleElement name r)
    {env : Env} (h : ∀ k, (env.channels k).Perm ps) {s : Str} (hs : s ≠ [])
    (hq : ∀ p ∈ ps, ∀ n r, p.element = ruleElement n r → ∀ w, RuleText r w → ¬ w <+: s) : Quiet env s := by
  intro n k st r st' hst hr
  have key : ∀ l : List Path, (∀ p ∈ l, p ∈ ps) → channelLoop (fun p => elementToToken env n p.element p.deps s false) l st = some (r, st') →
      r = .ok none ∧ st' = st := by
    intro l
    induction l with
    | nil => intro _ e; simp [channelLoop] at e; exact ⟨e.1.symm, e.2.symm⟩
    | cons p l ih =>
      intro hl e
      obtain ⟨name, r', h1, h2, h3⟩ := hps p (hl p (by simp))
      obtain ⟨t, t1, t2, t3⟩ := channel_token h1 h2 hs
      simp only [channelLoop] at e
      by_cases hn : n < 7
      · rw [M.bind_def, h3, t3 env _ n st hn] at e
        cases e
      · obtain ⟨m, rfl⟩ : ∃ m, n = m + 7 := ⟨n - 7, by omega⟩
        rw [h3, M.bind_some_ok (t2 env _ m st hst)] at e
        have hv : t.isValid = false := by
          by_contra hv
          obtain ⟨w, w1, w2⟩ := t1 (by simpa using hv)
          exact hq p (hl p (by simp)) _ _ h3 w w1 w2
        simp only [hv] at e
        exact ih (fun q hq => hl q (by simp [hq])) e
  exact key _ (fun p hp => (h k).mem_iff.mp hp) hr

/-- A block where the channels find nothing is the match behind one round of the channels. -/
theorem block_quiet {env : Env} {n : Nat} {c : PContainer} {deps : List Element} {s : Str} (hs : s ≠ []) (hq : Quiet env s) {st st' : St}
    {r : Option BlockMatch} (hst : st.canPrefix = false) (h : containerToBlockMatch env n c deps s true true st = some (.ok r, st')) :
    ∃ m a, n = m + 1 ∧ containerToMatch env m c deps s true { st with ranges := st.ranges + 1 } = some (.ok a, st') ∧
      r = a.map fun x => .mk none (.container x) := by
  cases n with
  | zero => simp [containerToBlockMatch] at h
  | succ n =>
    simp only [containerToBlockMatch, if_neg hs, if_true] at h
    obtain ⟨b, s1, h1, h2⟩ := M.bind_ok.mp h
    have hb : b = none ∧ s1 = { st with ranges := st.ranges + 1 } := by
      cases n with
      | zero => simp [findChannelBlockMatch] at h1
      | succ n =>
        unfold findChannelBlockMatch at h1
        rw [M.bind_some_ok (M.get_run _), M.bind_some_ok (M.set_run _ _)] at h1
        obtain ⟨p, s2, h3, h4⟩ := M.bind_ok.mp h1
        obtain ⟨e1, rfl⟩ := hq _ _ _ _ _ (by exact hst) h3
        cases e1
        simp at h4
        exact ⟨h4.1.symm, h4.2.symm⟩
    obtain ⟨rfl, rfl⟩ := hb
    dsimp only at h2
    obtain ⟨a, s2, h3, h4⟩ := M.bind_ok.mp h2
    refine ⟨n, a, rfl, ?_, ?_⟩
    · cases a <;> simp at h4 <;> rw [h3] <;> rw [h4.2]
    · cases a <;> simp at h4 <;> rw [← h4.1] <;> rfl

theorem block_quiet_pays {env : Env} {W : Nat} {X tgt : Str} {v n : Nat} {c : PContainer} {deps : List Element} {s : Str} (hs : s ≠ []) (hq : Quiet env s)
    (h : ∀ m, M.Pays W X tgt v (containerToMatch env m c deps s true)) : M.Pays W X tgt v (containerToBlockMatch env n c deps s true true) := by
  intro st a st' hst e
  obtain ⟨m, x, _, h1, _⟩ := block_quiet hs hq hst e
  obtain ⟨k1, k2, k3⟩ := h m _ _ _ (by exact hst) h1
  have hm : marked X tgt { st with ranges := st.ranges + 1 } = marked X tgt st := rfl
  rw [hm] at k3
  dsimp only at k2 k3
  exact ⟨k1, by omega, by omega⟩

/-- A mandatory constant at the front of the text is read. -/
theorem block_constant {env : Env} {n : Nat} {r : Rule} {c : Str} (hc : r.content = .constant c) (h0 : c ≠ []) {deps : List Element} {s : Str} (hs : s ≠ [])
    (hq : Quiet env s) {st st' : St} {x : Option BlockMatch} (hst : st.canPrefix = false)
    (h : containerToBlockMatch env n (.rule r .mandatory) deps s true true st = some (.ok x, st')) :
    (c <+: s → ∃ b, x = some b ∧ b.isValid = true ∧ b.discoveries = c) ∧ (¬ c <+: s → ∃ b, x = some b ∧ b.isValid = false) := by
  obtain ⟨m, a, rfl, h1, rfl⟩ := block_quiet hs hq hst h
  cases m with
  | zero => simp [containerToMatch] at h1
  | succ m =>
    simp only [containerToMatch] at h1
    obtain ⟨y, s1, h2, h3⟩ := M.bind_ok.mp h1
    simp at h3
    obtain ⟨rfl, rfl⟩ := h3
    cases m with
    | zero =>
      unfold ruleToRuleMatch at h2
      rw [M.bind_some_ok (M.get_run _)] at h2
      simp [ruleLoop, M.bind_def] at h2
    | succ m =>
      obtain ⟨y', cp, g1, g2, g3, g4⟩ := ruleToRuleMatch_mandatory hc h0 m s true { st with ranges := st.ranges + 1 }
      rw [h2] at g1
      simp at g1
      obtain ⟨rfl, _⟩ := g1
      have hw : wrapRule y = .rule y := by simp [wrapRule, g2, Card.isValid, isValidDelim, Card.delimiter]
      rw [hw]
      constructor
      · intro hp
        have hv := g3.mpr hp
        exact ⟨_, rfl, by simpa [BlockMatch.isValid, BlockContent.isValid, Match.isValid] using hv, by
          simp [BlockMatch.discoveries, BlockContent.discoveries, Match.discoveries, g4 hv]⟩
      · intro hp
        have hv : y.isValid = false := by
          by_contra hv
          exact hp (g3.mp (by simpa using hv))
        exact ⟨_, rfl, by simpa [BlockMatch.isValid, BlockContent.isValid, Match.isValid] using hv⟩

/-- The element finds no token at the text. -/
def Dead (env : Env) (deps : List Element) (s : Str) (e : Element) : Prop := ∀ n st t st', st.canPrefix = false →
  elementToToken env n e deps s true st = some (.ok t, st') → t.isValid = false

theorem dead_token {env : Env} {deps : List Element} {s : Str} {e : Element} (hd : Dead env deps s e) {n : Nat} {sp : List Spec} {k : Card} {st st' : St}
    {r : TokenMatch} (hst : st.canPrefix = false) (h : tokenToTokenMatch env n e sp k deps s true st = some (.ok r, st')) :
    r = .mk e.name (.mk s k []) sp := by
  cases n with
  | zero => simp [tokenToTokenMatch] at h
  | succ n =>
    simp only [tokenToTokenMatch] at h
    obtain ⟨l, s1, h1, h2⟩ := M.bind_ok.mp h
    cases n with
    | zero => simp [tokenLoop] at h1
    | succ n =>
      simp only [tokenLoop] at h1
      obtain ⟨t, s2, h3, h4⟩ := M.bind_ok.mp h1
      have := hd _ _ _ _ hst h3
      rw [this] at h4
      simp at h4
      obtain ⟨rfl, rfl⟩ := h4
      unfold tokenMatchNow at h2
      split at h2
      · simp at h2
      · split at h2
        · simp at h2
        · simp at h2
          exact h2.1.symm

/-- A dead token which must be there. -/
theorem dead_block {env : Env} {deps : List Element} {s : Str} {e : Element} (hd : Dead env deps s e) {n : Nat} {sp : List Spec} {k : Card} (hk : k.isValid 0 = false)
    (hs : s ≠ []) (hq : Quiet env s) {st st' : St} {x : Option BlockMatch} (hst : st.canPrefix = false)
    (h : containerToBlockMatch env n (.token e sp k) deps s true true st = some (.ok x, st')) : ∃ b, x = some b ∧ b.isValid = false := by
  obtain ⟨m, a, rfl, h1, rfl⟩ := block_quiet hs hq hst h
  cases m with
  | zero => simp [containerToMatch] at h1
  | succ m =>
    simp only [containerToMatch] at h1
    obtain ⟨y, s1, h2, h3⟩ := M.bind_ok.mp h1
    simp at h3
    obtain ⟨rfl, rfl⟩ := h3
    have := dead_token hd (by exact hst) h2
    subst this
    refine ⟨_, rfl, ?_⟩
    simp [BlockMatch.isValid, BlockContent.isValid, wrapToken, TokenMatch.result, TokenResult.card, hk, Match.isValid, TokenMatch.isValid, TokenResult.isValid]

/-- A dead token which may be missing. -/
theorem dead_block_opt {env : Env} {deps : List Element} {s : Str} {e : Element} (hd : Dead env deps s e) {n : Nat} {k : Card} (hk : k.isValid 0 = true)
    (hs : s ≠ []) (hq : Quiet env s) {st st' : St} {x : Option BlockMatch} (hst : st.canPrefix = false)
    (h : containerToBlockMatch env n (.token e [] k) deps s true true st = some (.ok x, st')) : ∃ b, x = some b ∧ b.isValid = true ∧ b.discoveries = [] := by
  obtain ⟨m, a, rfl, h1, rfl⟩ := block_quiet hs hq hst h
  cases m with
  | zero => simp [containerToMatch] at h1
  | succ m =>
    simp only [containerToMatch] at h1
    obtain ⟨y, s1, h2, h3⟩ := M.bind_ok.mp h1
    simp at h3
    obtain ⟨rfl, rfl⟩ := h3
    have := dead_token hd (by exact hst) h2
    subst this
    refine ⟨_, rfl, ?_, ?_⟩
    · simp [BlockMatch.isValid, BlockContent.isValid, wrapToken, TokenMatch.result, TokenResult.card, hk, Match.isValid, TokenMatch.isValid, TokenResult.isValid,
        specsValid, tokensValid]
    · simp [wrapToken, TokenMatch.result, TokenResult.card, hk, TokenMatch.isValid, TokenResult.isValid,
        specsValid, tokensValid, BlockMatch.discoveries, BlockContent.discoveries, Match.discoveries, TokenMatch.discoveries, TokenResult.discoveries, tokensDiscoveries]

/-- Lines which begin with a part which is not found. -/
theorem dead_elem {env : Env} {deps : List Element} {s : Str} {e : Element} (hn : e.not = [])
    (hcp : ∀ n l st r st', l ∈ e.must → st.canPrefix = false → lineToMatches env n l deps s true st = some (.ok r, st') → st'.canPrefix = false)
    (h : ∀ l ∈ e.must, ∃ c is, l = .container c :: is ∧ ∀ n st x st', st.canPrefix = false → containerToBlockMatch env n c deps s true true st = some (.ok x, st') →
      ∀ b, x = some b → b.isValid = false) : Dead env deps s e := by
  intro n st t st' hst hr
  cases n with
  | zero => simp [elementToToken] at hr
  | succ n =>
    simp only [elementToToken] at hr
    obtain ⟨c, s1, h1, h2⟩ := M.bind_ok.mp hr
    have ht : t = .mk e.name c := by
      split at h2
      · simp at h2
      · simp at h2; exact h2.1.symm
    subst ht
    cases n with
    | zero => simp [elementToTokenContent] at h1
    | succ n =>
      simp only [elementToTokenContent, hn, List.isEmpty_nil, if_true] at h1
      obtain ⟨m, s2, h3, h4⟩ := M.bind_ok.mp h1
      cases n with
      | zero => simp [bestLineToMatches] at h3
      | succ n =>
        simp only [bestLineToMatches] at h3
        obtain ⟨b, s3, h5, h6⟩ := M.bind_ok.mp h3
        simp at h6
        have key : ∀ (ls : List Line), (∀ l ∈ ls, l ∈ e.must) → ∀ i (b0 b : Best) st st', st.canPrefix = false →
            (b0.valid = none ∧ ∀ l, b0.invalid = some l → l.isValid = false) →
            bestLoop (fun l => lineToMatches env n l deps s true) ls i b0 st = some (.ok b, st') → b.valid = none ∧ ∀ l, b.invalid = some l → l.isValid = false := by
          intro ls
          induction ls with
          | nil => intro _ i b0 b st st' _ hb e; simp [bestLoop] at e; rw [← e.1]; exact hb
          | cons l ls ih =>
            intro hl i b0 b st st' hst hb e
            simp only [bestLoop] at e
            obtain ⟨r, s1, e1, e2⟩ := M.bind_ok.mp e
            have hs1 := hcp _ _ _ _ _ (hl l (by simp)) hst e1
            have ih := ih fun l' hl' => hl l' (by simp [hl'])
            cases r with
            | none => exact ih _ _ _ _ _ hs1 hb e2
            | some ms =>
              refine ih _ _ _ _ _ hs1 ?_ e2
              have hms : blocksValid ms = false := by
                obtain ⟨c, is, rfl, hc⟩ := h l (hl l (by simp))
                cases n with
                | zero => simp [lineToMatches] at e1
                | succ n =>
                  simp only [lineToMatches, lineLoop] at e1
                  obtain ⟨x, s4, g1, g2⟩ := M.bind_ok.mp e1
                  cases x with
                  | none => simp at g2
                  | some x =>
                    have := hc _ _ _ _ hst g1 x rfl
                    simp [this] at g2
                    rw [← g2.1]
                    simp [blocksValid, this]
              simp only [Best.step, hms, Bool.not_false, if_true]
              split
              · refine ⟨hb.1, ?_⟩
                intro l hl
                simp at hl
                rw [← hl]
                simpa [LineMatch.isValid] using hms
              · exact hb
        have := key e.must (fun _ h => h) _ _ _ _ _ hst ⟨rfl, by simp⟩ h5
        rw [← h6.1] at h4
        simp only [Best.result, this.1] at h4
        cases hi : b.invalid with
        | none => rw [hi] at h4; simp at h4; rw [← h4.1]; simp [Token.isValid]
        | some l => rw [hi] at h4; simp at h4; rw [← h4.1]; simp [Token.isValid, TokenContent.isValid, this.2 l hi]

end Verif.Lexer
