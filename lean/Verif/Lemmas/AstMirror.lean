import Verif.Spec.AstMirror
import Verif.Lemmas.AstValid

namespace Verif.Lexer
open Verif.Patterns Verif.Cardinality

theorem MirrorMatches.append {a b : List Match} {x y : List AMatch} (h1 : MirrorMatches a x) (h2 : MirrorMatches b y) :
    MirrorMatches (a ++ b) (x ++ y) := by
  match h1 with
  | .nil => exact h2
  | .skipToken h => exact .skipToken (h.append h2)
  | .skipRule h => exact .skipRule (h.append h2)
  | .noToken h => exact .noToken (h.append h2)
  | .noRule h0 h => exact .noRule h0 (h.append h2)
  | .token h0 h' h => exact .token h0 h' (h.append h2)
  | .rule h0 h0' h' h => exact .rule h0 h0' h' (h.append h2)

theorem resultsLoop_discoveries : ∀ (l : List RuleResult) (acc : List Discovery) (i : Nat) (x : List Discovery × Nat),
    resultsLoop l acc i = .ok x → x.1 = acc ++ ruleDiscoveries l := by
  intro l
  induction l with
  | nil => intro acc i x h; simp [resultsLoop] at h; subst h; simp [ruleDiscoveries]
  | cons r rs ih =>
    intro acc i x h
    rw [resultsLoop] at h
    rw [ruleDiscoveries]
    cases hr : r.results with
    | none => simp [hr] at h; subst h; simp
    | some l =>
      cases l with
      | nil => simp only [hr] at h; simpa using ih _ _ _ h
      | cons m ms =>
        simp only [hr, Out.bind_eq_ok] at h
        obtain ⟨j, _, h⟩ := h
        rw [ih _ _ _ h]
        simp [List.flatMap]

theorem aRuleMatch_mirror {r : RuleMatch} {o : Option AMatch} (h : aRuleMatch r = .ok o) :
    MirrorMatches [.rule r] o.toList := by
  unfold aRuleMatch aRuleResult at h
  simp only [Out.bind_eq_ok] at h
  obtain ⟨x, hx, h⟩ := h
  cases hres : r.results with
  | nil =>
    simp [hres] at hx
    subst hx
    simp at h
    subst h
    exact .noRule (by simp [hres, ruleDiscoveries]) .nil
  | cons a as =>
    simp only [hres, Out.bind_eq_ok] at hx
    obtain ⟨y, hy, hx⟩ := hx
    have key := resultsLoop_discoveries _ _ _ _ hy
    rw [← hres] at key
    simp only [List.nil_append] at key
    split at hx
    · rename_i h0
      simp at hx
      subst hx
      simp at h
      subst h
      exact .noRule (by rw [← key, h0]) .nil
    · rename_i h0
      split at hx
      · simp at hx
      · split at hx
        · simp at hx
        · simp only [Out.pure_eq, Out.ok.injEq] at hx
          subst hx
          dsimp only at h
          split at h
          · simp at h
          · simp at h
            subst h
            exact .rule key h0 rfl .nil

mutual
theorem Token.toA_mirror : (t : Token) → ∀ a, t.toA = .ok a → Mirror t a
  | .mk name none, a, h => by simp [Token.toA] at h
  | .mk name (some (.mk (.mk i l) n)), a, h => by
    simp only [Token.toA, Out.bind_eq_ok] at h
    obtain ⟨ms, h1, h⟩ := h
    split at h
    · simp at h
    · simp at h
      subst h
      exact .mk (blocksToA_mirror l _ h1)
theorem blocksToA_mirror : (l : List BlockMatch) → ∀ a, blocksToA l = .ok a → MirrorMatches (blocksLeaves l) a
  | [], a, h => by simp [blocksToA] at h; subst h; exact .nil
  | b :: bs, a, h => by
    simp only [blocksToA, Out.bind_eq_ok] at h
    obtain ⟨x, hx, xs, hxs, h⟩ := h
    simp at h
    subst h
    exact (b.toA_mirror _ hx).append (blocksToA_mirror bs _ hxs)
theorem BlockMatch.toA_mirror : (b : BlockMatch) → ∀ a, b.toA = .ok a → MirrorMatches b.leaves a
  | .mk none c, a, h => c.toA_mirror _ h
  | .mk (some (.mk i p)) c, a, h => by
    simp only [BlockMatch.toA, Out.bind_eq_ok] at h
    obtain ⟨x, hx, y, hy, h⟩ := h
    simp at h
    subst h
    exact (blocksToA_mirror p _ hx).append (c.toA_mirror _ hy)
theorem BlockContent.toA_mirror : (b : BlockContent) → ∀ a, b.toA = .ok a → MirrorMatches b.leaves a
  | .container m, a, h => by
    simp only [BlockContent.toA, Out.bind_eq_ok] at h
    obtain ⟨x, hx, h⟩ := h
    simp at h
    subst h
    exact m.toA_mirror _ hx
  | .block m, a, h => m.toA_mirror _ h
  | .next x, a, h => by simp [BlockContent.toA] at h
theorem Match.toA_mirror : (b : Match) → ∀ a, b.toA = .ok a → MirrorMatches b.leaves a.toList
  | .token t, a, h => t.toA_mirror _ h
  | .rule r, a, h => aRuleMatch_mirror h
  | .skipToken r, a, h => by simp [Match.toA] at h; subst h; exact .skipToken .nil
  | .skipRule r, a, h => by simp [Match.toA] at h; subst h; exact .skipRule .nil
  | .line r, a, h => by simp [Match.toA] at h
theorem TokenMatch.toA_mirror : (b : TokenMatch) → ∀ a, b.toA = .ok a → MirrorMatches [.token b] a.toList
  | .mk name (.mk inp card []) specs, a, h => by
    simp [TokenMatch.toA] at h
    subst h
    exact .noToken .nil
  | .mk name (.mk inp card (t :: ts)) specs, a, h => by
    simp only [TokenMatch.toA, Out.bind_eq_ok] at h
    obtain ⟨x, hx, xs, hxs, h⟩ := h
    split at h
    · simp at h
    · simp at h
      subst h
      exact .token (by simp) (.cons (t.toA_mirror _ hx) (tokensToA_mirror ts _ hxs)) .nil
theorem tokensToA_mirror : (l : List Token) → ∀ a, tokensToA l = .ok a → MirrorTokens l a
  | [], a, h => by simp [tokensToA] at h; subst h; exact .nil
  | t :: ts, a, h => by
    simp only [tokensToA, Out.bind_eq_ok] at h
    obtain ⟨x, hx, xs, hxs, h⟩ := h
    simp at h
    subst h
    exact .cons (t.toA_mirror _ hx) (tokensToA_mirror ts _ hxs)
end

/-! ## The path of a mistake -/

/-- The mistake `m`, found with the parents `ps`, is at a token which is reached from the leaves `l` of the token `t`. -/
def Found' (t : Token) (ps : List Str) (m : Mistake) : Prop :=
  ∃ names v, m.parents = ps ++ names ∧ Under t names v ∧ Concerns v m.container

theorem patternsMistake_path {ps nm cp} : ∀ (l : List Result) (cur : Str) (m : Mistake) (cur' : Str),
    patternsMistake ps nm cp l cur = .ok (some m, cur') → m.parents = ps ∧ m.container = .rule nm := by
  intro l
  induction l with
  | nil => intro cur m cur' h; simp [patternsMistake] at h
  | cons r rs ih =>
    intro cur m cur' h
    simp only [patternsMistake, patternMistake, Out.bind_eq_ok] at h
    obtain ⟨⟨z1, z2⟩, ⟨i, hi, hz⟩, h⟩ := h
    split at hz
    · split at hz
      · simp at hz
      · split at hz
        · simp at hz
        · obtain ⟨m2, e1, e2, e3, e4, e5⟩ := failWith_some hz
          subst e1
          simp at h
          obtain ⟨rfl, rfl⟩ := h
          exact ⟨e3, e2⟩
    · simp at hz
      rw [← hz.1] at h
      exact ih _ _ _ h

theorem ruleMistake_path {ps cp r cur m cur'} (h : ruleMistake ps cp r cur = .ok (some m, cur')) :
    m.parents = ps ∧ m.container = .rule r.rule.name := by
  unfold ruleMistake at h
  split at h
  · obtain ⟨m2, e1, e2, e3, _⟩ := failWith_some h
    simp at e1; subst e1
    exact ⟨e3, e2⟩
  · split at h
    · simp at h
    · split at h
      · simp at h
      · exact patternsMistake_path _ _ _ _ h

theorem specifiersMistake_path {ps nm list} : ∀ (specs : List Spec) (cur : Str) (m : Mistake) (cur' : Str),
    specifiersMistake ps nm list specs cur = .ok (some m, cur') → m.parents = ps ∧ m.container = .token nm := by
  intro specs
  induction specs with
  | nil => intro cur m cur' h; simp [specifiersMistake] at h
  | cons s ss ih =>
    intro cur m cur' h
    unfold specifiersMistake at h
    split at h
    · exact ih _ _ _ h
    · split at h
      · simp at h
      · obtain ⟨m2, e1, e2, e3, _⟩ := failWith_some h
        simp at e1; subst e1
        exact ⟨e3, e2⟩

theorem Found'.self {t : Token} {ps : List Str} {m : Mistake} (h1 : m.parents = ps) (h2 : m.container = .token t.name) :
    Found' t ps m := ⟨[], t, by simp [h1], .self t, h2 ▸ .token⟩

mutual
theorem Token.mistake_path : (t : Token) → ∀ cp ps cur m cur', t.mistake cp ps cur = .ok (some m, cur') → Found' t ps m
  | .mk name none, cp, ps, cur, m, cur', h => by
    simp only [Token.mistake, Out.bind_eq_ok] at h
    obtain ⟨m', hm', h⟩ := h
    simp at h
    obtain ⟨rfl, _⟩ := h
    have : failWith (.token name) ps [] .tokenHasNoMatch = .ok (some m', []) := by simp [failWith, hm']
    obtain ⟨m2, e1, e2, e3, _⟩ := failWith_some this
    simp at e1
    subst e1
    exact .self e3 e2
  | .mk name (some (.mk (.mk i l) none)), cp, ps, cur, m, cur', h => by
    exact blocks_mistake_path l _ rfl (fun x hx => by simpa [Token.leaves, TokenContent.must, LineMatch.list] using hx) cp ps [] m cur' h
  | .mk name (some (.mk (.mk i l) (some nt))), cp, ps, cur, m, cur', h => by
    simp only [Token.mistake, TokenContent.mistake, Out.bind_eq_ok] at h
    obtain ⟨⟨x, c⟩, _, h⟩ := h
    cases x with
    | none =>
      obtain ⟨m2, e1, e2, e3, _⟩ := failWith_some h
      simp at e1; subst e1
      exact .self e3 e2
    | some x =>
      exact blocks_mistake_path l _ rfl (fun x hx => by simpa [Token.leaves, TokenContent.must, LineMatch.list] using hx) cp ps [] m cur' h
theorem blocks_mistake_path : (l : List BlockMatch) → ∀ {t : Token} nm, nm = t.name → (∀ x ∈ blocksLeaves l, x ∈ t.leaves) →
    ∀ cp ps cur m cur', blocksMistake cp ps nm l cur = .ok (some m, cur') → Found' t ps m
  | [], t, nm, hn, hl, cp, ps, cur, m, cur', h => by simp [blocksMistake] at h
  | b :: bs, t, nm, hn, hl, cp, ps, cur, m, cur', h => by
    simp only [blocksMistake, Out.bind_eq_ok] at h
    obtain ⟨⟨x, c⟩, hx, h⟩ := h
    cases x with
    | none => exact blocks_mistake_path bs nm hn (fun x hx => hl x (by simp [blocksLeaves, hx])) _ _ _ _ _ h
    | some x =>
      simp at h
      obtain ⟨rfl, rfl⟩ := h
      exact b.mistake_path nm hn (fun x hx => hl x (by simp [blocksLeaves, hx])) _ _ _ _ _ hx
theorem BlockMatch.mistake_path : (b : BlockMatch) → ∀ {t : Token} nm, nm = t.name → (∀ x ∈ b.leaves, x ∈ t.leaves) →
    ∀ cp ps cur m cur', b.mistake cp ps nm cur = .ok (some m, cur') → Found' t ps m
  | .mk none c, t, nm, hn, hl, cp, ps, cur, m, cur', h => c.mistake_path nm hn hl _ _ _ _ _ h
  | .mk (some (.mk i p)) c, t, nm, hn, hl, cp, ps, cur, m, cur', h =>
    c.mistake_path nm hn (fun x hx => hl x (by simp [BlockMatch.leaves, hx])) _ _ _ _ _ h
theorem BlockContent.mistake_path : (b : BlockContent) → ∀ {t : Token} nm, nm = t.name → (∀ x ∈ b.leaves, x ∈ t.leaves) →
    ∀ cp ps cur m cur', b.mistake cp ps nm cur = .ok (some m, cur') → Found' t ps m
  | .container c, t, nm, hn, hl, cp, ps, cur, m, cur', h => c.mistake_path nm hn hl _ _ _ _ _ h
  | .block c, t, nm, hn, hl, cp, ps, cur, m, cur', h => c.mistake_path nm hn hl _ _ _ _ _ h
  | .next x, t, nm, hn, hl, cp, ps, cur, m, cur', h => by
    obtain ⟨m2, e1, e2, e3, _⟩ := failWith_some h
    simp at e1; subst e1
    exact .self e3 (hn ▸ e2)
theorem Match.mistake_path : (b : Match) → ∀ {t : Token} nm, nm = t.name → (∀ x ∈ b.leaves, x ∈ t.leaves) →
    ∀ cp ps cur m cur', b.mistake cp ps nm cur = .ok (some m, cur') → Found' t ps m
  | .token b, t, nm, hn, hl, cp, ps, cur, m, cur', h => by
    match b, h, hl with
    | .mk tn (.mk inp card []) specs, h, hl =>
      simp only [Match.mistake, TokenMatch.mistake, TokenResult.mistake, Out.bind_eq_ok] at h
      obtain ⟨⟨x, c⟩, hx, h⟩ := h
      split at hx
      · simp at hx
        obtain ⟨rfl, rfl⟩ := hx
        obtain ⟨e1, e2⟩ := specifiersMistake_path _ _ _ _ h
        exact .self e1 (hn ▸ e2)
      · obtain ⟨m2, e1, e2, e3, _⟩ := failWith_some hx
        subst e1
        simp at h
        obtain ⟨rfl, _⟩ := h
        exact .self e3 (hn ▸ e2)
    | .mk tn (.mk inp card (u :: us)) specs, h, hl =>
      simp only [Match.mistake, TokenMatch.mistake, TokenResult.mistake, Out.bind_eq_ok] at h
      obtain ⟨⟨x, c⟩, hx, h⟩ := h
      split at hx
      · obtain ⟨m2, e1, e2, e3, _⟩ := failWith_some hx
        subst e1
        simp at h
        obtain ⟨rfl, _⟩ := h
        exact .self e3 (hn ▸ e2)
      · cases x with
        | none =>
          obtain ⟨e1, e2⟩ := specifiersMistake_path _ _ _ _ h
          exact .self e1 (hn ▸ e2)
        | some x =>
          simp at h
          obtain ⟨rfl, _⟩ := h
          obtain ⟨w, hw, names, v, e1, e2, e3⟩ := tokens_mistake_path (u :: us) _ _ _ _ _ hx
          refine ⟨t.name :: names, v, by rw [e1, hn]; simp, .sub (name := tn) (inp := inp) (card := card) (specs := specs) (hl _ (by simp [Match.leaves])) hw e2, e3⟩
  | .rule r, t, nm, hn, hl, cp, ps, cur, m, cur', h => by
    obtain ⟨e1, e2⟩ := ruleMistake_path h
    exact ⟨[], t, by simp [e1], .self t, e2 ▸ .rule (hl _ (by simp [Match.leaves]))⟩
  | .skipToken r, t, nm, hn, hl, cp, ps, cur, m, cur', h => by simp [Match.mistake] at h
  | .skipRule r, t, nm, hn, hl, cp, ps, cur, m, cur', h => by simp [Match.mistake] at h
  | .line (.mk i l), t, nm, hn, hl, cp, ps, cur, m, cur', h => blocks_mistake_path l nm hn hl _ _ _ _ _ h
theorem tokens_mistake_path : (l : List Token) → ∀ cp ps cur m cur', tokensMistake cp ps l cur = .ok (some m, cur') →
    ∃ t ∈ l, Found' t ps m
  | [], cp, ps, cur, m, cur', h => by simp [tokensMistake] at h
  | t :: ts, cp, ps, cur, m, cur', h => by
    simp only [tokensMistake, Out.bind_eq_ok] at h
    obtain ⟨⟨x, c⟩, hx, h⟩ := h
    cases x with
    | none =>
      obtain ⟨u, hu, e⟩ := tokens_mistake_path ts _ _ _ _ _ h
      exact ⟨u, by simp [hu], e⟩
    | some x =>
      simp at h
      obtain ⟨rfl, _⟩ := h
      exact ⟨t, by simp, t.mistake_path _ _ _ _ _ hx⟩
end

end Verif.Lexer
