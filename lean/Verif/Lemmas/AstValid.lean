import Verif.Lemmas.Ast

/-! A tame token is valid exactly when no mistake is found; its text is the text of its AST. -/

namespace Verif.Lexer
open Verif.Patterns Verif.Cardinality

theorem failWith_some {c ps cur x o cur'} (h : failWith c ps cur x = .ok (o, cur')) :
    ∃ m, o = some m ∧ m.container = c ∧ m.parents = ps ∧ m.content = x ∧ (m.index, m.line, m.column) = currentPosition cur := by
  unfold failWith buildMistake at h
  simp only [Out.bind_eq_ok] at h
  obtain ⟨m, ⟨c', hc, h1⟩, h⟩ := h
  simp at h1 h
  subst h1
  refine ⟨_, h.1.symm, ?_, rfl, rfl, rfl⟩
  unfold pathNow at hc
  split at hc <;> simp at hc
  exact hc.symm

theorem patternsMistake_zero {ps nm} : ∀ (l : List Result) (cur : Str) (o : Option Mistake) (cur' : Str),
    (∀ x ∈ l, x.index = .ok 0) → patternsMistake ps nm false l cur = .ok (o, cur') → o = none := by
  intro l
  induction l with
  | nil => intro cur o cur' _ h; simp [patternsMistake] at h; exact h.1.symm
  | cons x xs ih =>
    intro cur o cur' hx h
    simp only [patternsMistake, patternMistake, hx x (by simp), Out.bind_eq_ok] at h
    simp at h
    exact ih _ _ _ (fun y hy => hx y (by simp [hy])) h

theorem index_zero {m : Result} {i : Nat} (h : m.index = .ok i) :
    ∃ d ds, m.discoveries = d :: ds ∧ d.index = i := by
  unfold Result.index at h
  split at h
  · simp at h
  · rename_i d ds hd
    simp at h
    exact ⟨d, ds, hd, h⟩

theorem RuleTame.mistake {r : RuleMatch} (hr : RuleTame r) {ps cur o cur'} (h : ruleMistake ps false r cur = .ok (o, cur')) :
    (o = none ↔ r.isValid = true) := by
  unfold ruleMistake at h
  obtain ⟨hcp, hr⟩ := hr
  split at h
  · rename_i hc
    obtain ⟨m, rfl, _⟩ := failWith_some h
    simp at hc
    simp [RuleMatch.isValid, hc]
  · rename_i hc
    simp at hc
    cases hres : r.results with
    | nil =>
      simp [hres] at h
      simp [RuleMatch.isValid, RuleMatch.isExact, hres, h.1.symm, hc]
      have : r.amount = 0 := by simp [RuleMatch.amount, hres]
      rw [this] at hc
      exact hc
    | cons x xs =>
      obtain ⟨m, ms, i, h1, h2, h3, h4⟩ := hr x (by simp [hres])
      obtain ⟨d, ds, hd, hi⟩ := index_zero h2
      simp only [hres, h1] at h
      simp [RuleMatch.isValid, RuleMatch.isExact, hres, hc, h1, hd, hcp]
      simp only [patternsMistake, patternMistake, h2, Out.bind_eq_ok] at h
      obtain ⟨y, ⟨j, hj, hy⟩, h⟩ := h
      simp at hj
      subst hj
      by_cases h0 : i = 0
      · subst h0
        simp at hy
        subst hy
        simp at h
        rw [hi]
        simp [patternsMistake_zero _ _ _ _ h4 h]
      · have : (!false && decide (i > 0)) = true := by simp; omega
        rw [if_pos this] at hy
        split at hy
        · simp at hy
        · split at hy
          · simp at hy
          · obtain ⟨m', h', _⟩ := failWith_some (o := y.1) (cur' := y.2) (by simpa using hy)
            simp [h'] at h
            simp [← h.1]
            omega

theorem specifiersMistake_iff {ps nm list} : ∀ (specs : List Spec) (cur : Str) (o : Option Mistake) (cur' : Str),
    specifiersMistake ps nm list specs cur = .ok (o, cur') →
    (o = none ↔ specs.all (fun s => s.card.isValid (UInt64.ofNat (tokensCount s.containerName list))) = true) := by
  intro specs
  induction specs with
  | nil => intro cur o cur' h; simp [specifiersMistake] at h; simp [h.1.symm]
  | cons s ss ih =>
    intro cur o cur' h
    simp only [specifiersMistake] at h
    split at h
    · rename_i hv
      rw [ih _ _ _ h]
      simp [hv]
    · rename_i hv
      split at h
      · simp at h
      · obtain ⟨m, rfl, _⟩ := failWith_some h
        simp [hv]

mutual
theorem Token.mistake_iff : (t : Token) → t.Tame → ∀ ps cur o cur', t.mistake false ps cur = .ok (o, cur') →
    (o = none ↔ t.isValid = true)
  | .mk name none, _, ps, cur, o, cur', h => by
    simp only [Token.mistake, Out.bind_eq_ok] at h
    obtain ⟨m, _, h⟩ := h
    simp at h
    simp [Token.isValid, ← h.1]
  | .mk name (some (.mk (.mk i l) n)), ht, ps, cur, o, cur', h => by
    obtain ⟨rfl, hl, _⟩ := ht
    simp only [Token.mistake, TokenContent.mistake, LineMatch.mistake] at h
    simpa [Token.isValid, TokenContent.isValid, LineMatch.isValid] using blocks_mistake_iff l hl _ _ _ _ _ h
theorem blocks_mistake_iff : (l : List BlockMatch) → BlocksTame l → ∀ ps nm cur o cur',
    blocksMistake false ps nm l cur = .ok (o, cur') → (o = none ↔ blocksValid l = true)
  | [], _, ps, nm, cur, o, cur', h => by
    simp [blocksMistake] at h
    simp [blocksValid, h.1.symm]
  | b :: bs, hl, ps, nm, cur, o, cur', h => by
    simp only [blocksMistake, Out.bind_eq_ok] at h
    obtain ⟨⟨x1, x2⟩, hx, h⟩ := h
    have h1 := BlockMatch.mistake_iff b hl.1 _ _ _ _ _ hx
    cases x1 with
    | none =>
      have h2 := blocks_mistake_iff bs hl.2 _ _ _ _ _ h
      simp [blocksValid, h1.mp rfl, h2]
    | some m =>
      simp at h
      simp at h1
      simp [blocksValid, h1, ← h.1]
theorem BlockMatch.mistake_iff : (b : BlockMatch) → b.Tame → ∀ ps nm cur o cur',
    b.mistake false ps nm cur = .ok (o, cur') → (o = none ↔ b.isValid = true)
  | .mk none c, hb, ps, nm, cur, o, cur', h => c.mistake_iff hb _ _ _ _ _ h
  | .mk (some (.mk i p)) c, hb, ps, nm, cur, o, cur', h => c.mistake_iff hb.2.2 _ _ _ _ _ h
theorem BlockContent.mistake_iff : (b : BlockContent) → b.Tame → ∀ ps nm cur o cur',
    b.mistake false ps nm cur = .ok (o, cur') → (o = none ↔ b.isValid = true)
  | .container m, hb, ps, nm, cur, o, cur', h => m.mistake_iff hb _ _ _ _ _ h
  | .block m, hb, ps, nm, cur, o, cur', h => m.mistake_iff hb _ _ _ _ _ h
  | .next x, hb, ps, nm, cur, o, cur', h => by
    obtain ⟨m, rfl, _⟩ := failWith_some h
    simp [BlockContent.isValid]
theorem Match.mistake_iff : (b : Match) → b.Tame → ∀ ps nm cur o cur',
    b.mistake false ps nm cur = .ok (o, cur') → (o = none ↔ b.isValid = true)
  | .token t, hb, ps, nm, cur, o, cur', h => t.mistake_iff hb _ _ _ _ _ h
  | .rule r, hb, ps, nm, cur, o, cur', h => RuleTame.mistake hb h
  | .skipToken r, hb, ps, nm, cur, o, cur', h => by simp [Match.mistake] at h; simp [Match.isValid, h.1.symm]
  | .skipRule r, hb, ps, nm, cur, o, cur', h => by simp [Match.mistake] at h; simp [Match.isValid, h.1.symm]
theorem TokenMatch.mistake_iff : (b : TokenMatch) → b.Tame → ∀ ps nm cur o cur',
    b.mistake false ps nm cur = .ok (o, cur') → (o = none ↔ b.isValid = true)
  | .mk name (.mk inp card []) specs, hb, ps, nm, cur, o, cur', h => by
    simp only [TokenMatch.mistake, TokenResult.mistake, Out.bind_eq_ok] at h
    obtain ⟨⟨x1, x2⟩, hx, h⟩ := h
    split at hx
    · rename_i hc
      simp at hx
      rw [← hx.1] at h
      rw [specifiersMistake_iff _ _ _ _ h]
      simp [TokenMatch.isValid, specsValid, TokenResult.isValid, tokensValid, hc, TokenResult.list]
    · rename_i hc
      obtain ⟨m, h1, _⟩ := failWith_some hx
      simp [h1] at h
      simp [← h.1, TokenMatch.isValid, TokenResult.isValid, hc]
  | .mk name (.mk inp card (t :: ts)) specs, hb, ps, nm, cur, o, cur', h => by
    simp only [TokenMatch.mistake, TokenResult.mistake, Out.bind_eq_ok] at h
    obtain ⟨⟨x1, x2⟩, hx, h⟩ := h
    split at hx
    · rename_i hc
      obtain ⟨m, h1, _⟩ := failWith_some hx
      simp [h1] at h
      simp at hc
      simp [← h.1, TokenMatch.isValid, TokenResult.isValid, hc]
    · rename_i hc
      have h1 := tokens_mistake_none (t :: ts) hb _ _ _ _ hx
      subst h1
      rw [specifiersMistake_iff _ _ _ _ h]
      have h2 : tokensValid (t :: ts) = true := by
        have hb : TokensTame (t :: ts) := hb
        rw [TokensTame_iff] at hb
        have : ∀ l : List Token, (∀ t ∈ l, t.isValid = true) → tokensValid l = true := by
          intro l
          induction l with
          | nil => simp [tokensValid]
          | cons x xs ih => intro h; simp [tokensValid, h x (by simp), ih (fun t ht => h t (by simp [ht]))]
        exact this _ (fun t ht => (hb t ht).2)
      simp at hc
      simp [TokenMatch.isValid, specsValid, TokenResult.isValid, h2, hc, TokenResult.list]
theorem tokens_mistake_none : (l : List Token) → TokensTame l → ∀ ps cur o cur',
    tokensMistake false ps l cur = .ok (o, cur') → o = none
  | [], _, ps, cur, o, cur', h => by
    simp [tokensMistake] at h
    exact h.1.symm
  | t :: ts, hl, ps, cur, o, cur', h => by
    simp only [tokensMistake, Out.bind_eq_ok] at h
    obtain ⟨⟨x1, x2⟩, hx, h⟩ := h
    have h1 := (Token.mistake_iff t hl.1 _ _ _ _ hx).mpr hl.2.1
    subst h1
    exact tokens_mistake_none ts hl.2.2 _ _ _ _ h
end

/-! ## The text -/

theorem resultsLoop_content : ∀ (l : List RuleResult) (acc : List Discovery) (i : Nat) (x : List Discovery × Nat),
    (∀ x ∈ l, ∃ m ms i, x.results = some (m :: ms) ∧ m.index = .ok i ∧ i ≤ m.input.length ∧ ∀ y ∈ ms, y.index = .ok 0) →
    resultsLoop l acc i = .ok x → (x.1.map Discovery.content).flatten =
      (acc.map Discovery.content).flatten ++ (l.map RuleResult.content).flatten := by
  intro l
  induction l with
  | nil => intro acc i x _ h; simp [resultsLoop] at h; subst h; simp
  | cons r rs ih =>
    intro acc i x hl h
    obtain ⟨m, ms, j, h1, h2, _⟩ := hl r (by simp)
    simp only [resultsLoop, h1, h2, Out.bind_eq_ok] at h
    obtain ⟨_, _, h⟩ := h
    rw [ih _ _ _ (fun y hy => hl y (by simp [hy])) h]
    simp [RuleResult.content, h1, Result.content, List.map_flatten, List.flatten_flatten, Function.comp_def]
    rfl

theorem RuleTame.text {r : RuleMatch} (hr : RuleTame r) {o : Option AMatch} (h : aRuleMatch r = .ok o) :
    matchesDiscovery o.toList = r.discoveries := by
  unfold aRuleMatch aRuleResult at h
  simp only [Out.bind_eq_ok] at h
  obtain ⟨x, hx, h⟩ := h
  cases hres : r.results with
  | nil =>
    simp [hres] at hx
    subst hx
    simp at h
    subst h
    simp [matchesDiscovery, RuleMatch.discoveries, hres]
  | cons a as =>
    simp only [hres, Out.bind_eq_ok] at hx
    obtain ⟨y, hy, hx⟩ := hx
    have key := resultsLoop_content _ _ _ _ (by rw [← hres]; exact hr.2) hy
    rw [← hres] at key
    simp only [List.map_nil, List.flatten_nil, List.nil_append] at key
    split at hx
    · rename_i h0
      simp at hx
      subst hx
      simp at h
      subst h
      rw [h0] at key
      simp only [List.map_nil, List.flatten_nil] at key
      simp [matchesDiscovery, RuleMatch.discoveries, ← key]
    · split at hx
      · simp at hx
      · split at hx
        · simp at hx
        · simp only [Out.pure_eq, Out.ok.injEq] at hx
          subst hx
          dsimp only at h
          split at h
          · simp at h
          · simp at h
            subst h
            simp [matchesDiscovery, AMatch.discovery, AResult.content, key, RuleMatch.discoveries]

theorem matchesDiscovery_append (a b : List AMatch) : matchesDiscovery (a ++ b) = matchesDiscovery a ++ matchesDiscovery b := by
  induction a with
  | nil => simp [matchesDiscovery]
  | cons x xs ih => simp [matchesDiscovery, ih]

mutual
theorem Token.toA_text : (t : Token) → t.Tame → t.isValid = true → ∀ a, t.toA = .ok a →
    a.discovery = t.discoveries ∧ a.name = t.name
  | .mk name none, _, hv, a, h => by simp [Token.isValid] at hv
  | .mk name (some (.mk (.mk i l) n)), ht, hv, a, h => by
    obtain ⟨rfl, hl, _⟩ := ht
    simp only [Token.isValid, TokenContent.isValid, LineMatch.isValid] at hv
    simp only [Token.toA, Out.bind_eq_ok] at h
    obtain ⟨ms, h1, h⟩ := h
    split at h
    · simp at h
    · simp at h
      subst h
      simp [AToken.discovery, AToken.name, Token.name, Token.discoveries, TokenContent.discoveries, LineMatch.discoveries, hv,
        blocksToA_text l hl _ h1]
theorem blocksToA_text : (l : List BlockMatch) → BlocksTame l → ∀ a, blocksToA l = .ok a →
    matchesDiscovery a = blocksDiscoveries l
  | [], _, a, h => by simp [blocksToA] at h; subst h; simp [matchesDiscovery, blocksDiscoveries]
  | b :: bs, hl, a, h => by
    simp only [blocksToA, Out.bind_eq_ok] at h
    obtain ⟨x, hx, xs, hxs, h⟩ := h
    simp at h
    subst h
    rw [matchesDiscovery_append, blocksDiscoveries, BlockMatch.toA_text b hl.1 _ hx, blocksToA_text bs hl.2 _ hxs]
theorem BlockMatch.toA_text : (b : BlockMatch) → b.Tame → ∀ a, b.toA = .ok a → matchesDiscovery a = b.discoveries
  | .mk none c, hb, a, h => c.toA_text hb _ h
  | .mk (some (.mk i p)) c, hb, a, h => by
    simp only [BlockMatch.toA, Out.bind_eq_ok] at h
    obtain ⟨x, hx, y, hy, h⟩ := h
    simp at h
    subst h
    rw [matchesDiscovery_append, BlockMatch.discoveries, blocksToA_text p hb.1 _ hx, c.toA_text hb.2.2 _ hy]
    simp [LineMatch.discoveries, hb.2.1]
theorem BlockContent.toA_text : (b : BlockContent) → b.Tame → ∀ a, b.toA = .ok a → matchesDiscovery a = b.discoveries
  | .container m, hb, a, h => by
    simp only [BlockContent.toA, Out.bind_eq_ok] at h
    obtain ⟨x, hx, h⟩ := h
    simp at h
    subst h
    exact m.toA_text hb _ hx
  | .block m, hb, a, h => m.toA_text hb _ h
  | .next x, hb, a, h => by simp [BlockContent.toA] at h
theorem Match.toA_text : (b : Match) → b.Tame → ∀ a, b.toA = .ok a → matchesDiscovery a.toList = b.discoveries
  | .token t, hb, a, h => t.toA_text hb _ h
  | .rule r, hb, a, h => RuleTame.text hb h
  | .skipToken r, hb, a, h => by simp [Match.toA] at h; subst h; simp [matchesDiscovery, Match.discoveries]
  | .skipRule r, hb, a, h => by simp [Match.toA] at h; subst h; simp [matchesDiscovery, Match.discoveries]
theorem TokenMatch.toA_text : (b : TokenMatch) → b.Tame → ∀ a, b.toA = .ok a → matchesDiscovery a.toList = b.discoveries
  | .mk name (.mk inp card []) specs, hb, a, h => by
    simp [TokenMatch.toA] at h
    subst h
    simp [matchesDiscovery, TokenMatch.discoveries, TokenResult.discoveries, tokensDiscoveries]
  | .mk name (.mk inp card (t :: ts)) specs, hb, a, h => by
    simp only [TokenMatch.toA, Out.bind_eq_ok] at h
    obtain ⟨x, hx, xs, hxs, h⟩ := h
    split at h
    · simp at h
    · simp at h
      subst h
      have hb : t.Tame ∧ t.isValid = true ∧ TokensTame ts := hb
      simp [matchesDiscovery, AMatch.discovery, aTokensDiscovery, TokenMatch.discoveries, TokenResult.discoveries,
        tokensDiscoveries, (Token.toA_text t hb.1 hb.2.1 _ hx).1, tokensToA_text ts hb.2.2 _ hxs]
theorem tokensToA_text : (l : List Token) → TokensTame l → ∀ a, tokensToA l = .ok a → aTokensDiscovery a = tokensDiscoveries l
  | [], _, a, h => by simp [tokensToA] at h; subst h; simp [aTokensDiscovery, tokensDiscoveries]
  | t :: ts, hl, a, h => by
    simp only [tokensToA, Out.bind_eq_ok] at h
    obtain ⟨x, hx, xs, hxs, h⟩ := h
    simp at h
    subst h
    rw [aTokensDiscovery, tokensDiscoveries, (Token.toA_text t hl.1 hl.2.1 _ hx).1, tokensToA_text ts hl.2.2 _ hxs]
end

end Verif.Lexer
