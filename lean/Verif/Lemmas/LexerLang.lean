import Verif.Lemmas.LexerSound
import Verif.Props.Cardinality

/-! A valid parse tree of a plain grammar is about a word of the language. -/

namespace Verif.Lexer
open Verif.Patterns Verif.Cardinality

theorem allows_zero {k : Card} (h : k.isValid 0 = true) : SpecAllows k 0 := by
  simpa using (C30_isValid_iff k 0).mp h

theorem allows_of_valid {k : Card} {n : Nat} (h : k.isValid (UInt64.ofNat n) = true) (hn : n < 2 ^ 64) : SpecAllows k n := by
  have := (C30_isValid_iff _ _).mp h
  rwa [UInt64.toNat_ofNat_of_lt' (by simpa [UInt64.size] using hn)] at this

theorem serie_nonempty {gs : List Group} {s r : Str} {ts : List Str} (h : SpecSerie gs s ts r) : ∀ t ∈ ts, t ≠ [] := by
  induction h with
  | nil => simp
  | cons h1 _ ih =>
    intro t ht
    rcases List.mem_cons.mp ht with rfl | ht
    · exact h1.2.1
    · exact ih t ht

theorem leading_nonempty {cs : List Choice} {s : Str} {ts : List Str} (h : SpecLeading cs s ts) : ∀ t ∈ ts, t ≠ [] := by
  induction h with
  | nil => simp
  | stop _ => simp
  | @cons c cs s r ts us hc _ ih =>
    intro t ht
    rcases List.mem_append.mp ht with ht | ht
    · unfold SpecChoice at hc
      split at hc
      · obtain ⟨x, rfl, _, _, _, _, hx, _⟩ := hc
        simp at ht; subst ht; exact hx
      · exact serie_nonempty hc t ht
    · exact ih t ht

theorem flatten_ne {l : List Str} (h0 : l ≠ []) (h : ∀ t ∈ l, t ≠ []) : l.flatten ≠ [] := by
  cases l with
  | nil => exact absurd rfl h0
  | cons x xs =>
    intro hf
    simp at hf
    exact h x (by simp) hf.1

theorem RuleText_nonempty {r : Rule} {u : Str} (h : RuleText r u) : u ≠ [] := by
  unfold RuleText at h
  cases hc : r.content with
  | constant c => rw [hc] at h; rw [h.1]; exact h.2
  | pattern ps k =>
    rw [hc] at h
    obtain ⟨us, h0, rfl, h⟩ := h
    apply flatten_ne h0
    intro x hx
    obtain ⟨p, _, s, ts, h1, h2, rfl⟩ := h x hx
    exact flatten_ne h2 (leading_nonempty h1)

theorem length_le_flatten (l : List Str) (h : ∀ t ∈ l, t ≠ []) : l.length ≤ l.flatten.length := by
  induction l with
  | nil => simp
  | cons x xs ih =>
    have := ih (fun t ht => h t (by simp [ht]))
    have := List.length_pos_iff.mpr (h x (by simp))
    simp at *; omega

theorem InContainer_empty {chans deps} {c : PContainer} {k : Card} (hp : PlainC c) (hc : c.cardinality = .ok k)
    (hk : k.isValid 0 = true) : InContainer chans deps c [] := by
  cases hp with
  | token h =>
    simp [PContainer.cardinality] at hc; subst hc
    simpa using InContainer.token (chans := chans) (deps := deps) (ws := []) (by simp) (allows_zero hk)
  | rule h =>
    simp [PContainer.cardinality] at hc; subst hc
    simpa using InContainer.rule (chans := chans) (deps := deps) (ws := []) (by simp) (allows_zero hk)

theorem InLine_empty {chans deps} (is : Line) (hp : ∀ c, Instruction.container c ∈ is → PlainC c)
    (h : ∀ d, Instruction.container d ∈ is → ∃ k, d.cardinality = .ok k ∧ k.isValid 0 = true) :
    InLine chans deps is [] := by
  induction is with
  | nil => exact .nil
  | cons i is ih =>
    have ih := ih (fun c hc => hp c (by simp [hc])) (fun c hc => h c (by simp [hc]))
    cases i with
    | channelSwitch => exact .switch ih
    | container c =>
      obtain ⟨k, h1, h2⟩ := h c (by simp)
      simpa using InLine.cons .nil (InContainer_empty (hp c (by simp)) h1 h2) ih

theorem InLine_stop {chans deps} {s : Str} (line : Line) (hp : ∀ c, Instruction.container c ∈ line → PlainC c)
    (ho : OptionalTail line) (h : ∀ c rest, nextContainer line = some (c, rest) → MayStop c s) :
    InLine chans deps line [] := by
  induction line with
  | nil => exact .nil
  | cons i is ih =>
    cases i with
    | channelSwitch =>
      exact .switch (ih (fun c hc => hp c (by simp [hc])) ho (by simpa [nextContainer] using h))
    | container c =>
      have hs := h c is rfl
      obtain ⟨k, hk1, hk2⟩ : ∃ k, c.cardinality = .ok k ∧ k.isValid 0 = true := by
        cases hp c (by simp) with
        | token _ => exact ⟨_, rfl, hs.2⟩
        | rule _ => exact ⟨_, rfl, hs.2⟩
      apply InLine_empty _ hp
      intro d hd
      rcases List.mem_cons.mp hd with hd | hd
      · simp at hd; subst hd; exact ⟨k, hk1, hk2⟩
      · exact ho.1 k hk1 hk2 d hd

theorem nextContainer_spec (line : Line) {c : PContainer} {rest : Line} (h : nextContainer line = some (c, rest)) :
    Instruction.container c ∈ line ∧ (∀ d, Instruction.container d ∈ rest → Instruction.container d ∈ line) ∧
    (OptionalTail line → OptionalTail rest) ∧
    ∀ {chans deps g u v}, InChannels chans g → InContainer chans deps c u → InLine chans deps rest v →
      InLine chans deps line (g ++ u ++ v) := by
  induction line with
  | nil => simp [nextContainer] at h
  | cons i is ih =>
    cases i with
    | channelSwitch =>
      obtain ⟨h1, h2, h3, h4⟩ := ih h
      exact ⟨by simp [h1], fun d hd => by simp [h2 d hd], h3, fun hg hu hv => .switch (h4 hg hu hv)⟩
    | container c' =>
      simp [nextContainer] at h
      obtain ⟨rfl, rfl⟩ := h
      exact ⟨by simp, fun d hd => by simp [hd], fun ho => ho.2, fun hg hu hv => .cons hg hu hv⟩

theorem tokens_flatten (l : List Token) : tokensDiscoveries l = (l.map Token.discoveries).flatten := by
  induction l with
  | nil => rfl
  | cons t ts ih => simp [tokensDiscoveries, ih]

theorem Plain.not_nil {e : Element} (h : Plain e) : e.not = [] := by cases h; rfl

theorem token_nonempty {chans deps e s} {t : Token} (h : t.Conforms chans deps e s) (hv : t.isValid = true)
    (hn : e.not = []) : t.discoveries ≠ [] := by
  match t, h with
  | .mk _ none, _ => simp [Token.isValid] at hv
  | .mk _ (some (.mk (.mk i l) none)), ⟨_, line, _, _, h⟩ =>
    simp only [Token.isValid, TokenContent.isValid, LineMatch.isValid] at hv
    simpa [Token.discoveries, TokenContent.discoveries, LineMatch.discoveries, hv] using (h hv).1
  | .mk _ (some (.mk m (some (.mk i l)))), ⟨_, _, line, hl, _⟩ => simp [hn] at hl

theorem tokens_nonempty {chans deps e} (hn : e.not = []) (l : List Token) : ∀ {s}, TokensConform chans deps e s l →
    ∀ t ∈ l, t.discoveries ≠ [] := by
  induction l with
  | nil => simp
  | cons x xs ih =>
    intro s h t ht
    obtain ⟨h1, h2, _, h3⟩ := h
    rcases List.mem_cons.mp ht with rfl | ht
    · exact token_nonempty h1 h2 hn
    · exact ih h3 t ht

section
variable {chans : List Path} (hcp : ∀ ch ∈ chans, Plain ch.element) (hca : ∀ ch ∈ chans, AllLines OptionalTail ch.element)

include hcp hca
mutual
theorem token_lang {deps e s} : (t : Token) → t.Conforms chans deps e s → t.isValid = true → t.discoveries.length < 2 ^ 64 →
    Plain e → AllLines OptionalTail e → InElement chans deps e t.discoveries
  | .mk _ none, _, hv, _, _, _ => by simp [Token.isValid] at hv
  | .mk _ (some (.mk m none)), h, hv, hl64, hp, ha => by
    simp only [Token.isValid, TokenContent.isValid] at hv
    simp only [Token.discoveries, TokenContent.discoveries]
    exact line_lang m h.2 hv (by simpa only [Token.discoveries, TokenContent.discoveries] using hl64) hp ha
  | .mk _ (some (.mk m (some (.mk i l)))), h, hv, hl64, hp, ha => by
    obtain ⟨_, _, line, hl, _⟩ := h
    cases hp with | mk _ => simp [Element.not] at hl
theorem line_lang {deps e s} : (l : LineMatch) → l.Conforms chans deps e.must s → l.isValid = true →
    l.discoveries.length < 2 ^ 64 → Plain e → AllLines OptionalTail e → InElement chans deps e l.discoveries
  | .mk i l, h, hv, hl64, hp, ha => by
    obtain ⟨line, hl, _, h⟩ := h
    simp only [LineMatch.isValid] at hv
    simp only [LineMatch.discoveries, hv, if_true] at hl64 ⊢
    have hmem : line ∈ e.must := List.mem_of_getElem? hl
    refine .mk hmem (blocks_lang l (h hv).2 hv hl64 ?_ ?_ ?_)
    · cases hp with | mk hp => exact hp line hmem
    · cases ha with | mk ha _ => exact ha line hmem
    · cases ha with | mk _ ha => exact ha line hmem
theorem blocks_lang {deps line s} : (l : List BlockMatch) → BlocksConform chans deps line s l → blocksValid l = true →
    (blocksDiscoveries l).length < 2 ^ 64 → (∀ c, Instruction.container c ∈ line → PlainC c) → OptionalTail line →
    (∀ c, Instruction.container c ∈ line → AllLinesC OptionalTail c) → InLine chans deps line (blocksDiscoveries l)
  | [], h, _, _, hp, ho, _ => InLine_stop line hp ho h
  | b :: bs, h, hv, hl64, hp, ho, ha => by
    obtain ⟨c, rest, hn, hb, _, hr⟩ := h
    simp only [blocksValid, Bool.and_eq_true] at hv
    obtain ⟨h1, h2, h3, h4⟩ := nextContainer_spec line hn
    simp only [blocksDiscoveries, List.length_append] at hl64 ⊢
    obtain ⟨g, u, hd, hg, hu⟩ := block_lang b hb hv.1 (by omega) (hp c h1) (ha c h1)
    rw [hd]
    exact h4 hg hu
      (blocks_lang bs hr hv.2 (by omega) (fun d hd => hp d (h2 d hd)) (h3 ho) (fun d hd => ha d (h2 d hd)))
theorem block_lang {deps c s} : (b : BlockMatch) → b.Conforms chans deps c s → b.isValid = true →
    b.discoveries.length < 2 ^ 64 → PlainC c →
    AllLinesC OptionalTail c → ∃ g u, b.discoveries = g ++ u ∧ InChannels chans g ∧ InContainer chans deps c u
  | .mk none x, h, hv, hl64, hp, ha => content_lang x h hv (by simpa only [BlockMatch.discoveries] using hl64) hp ha
  | .mk (some p) x, h, hv, hl64, hp, ha => by
    obtain ⟨⟨ch, hch, hpv, hpc⟩, _, hx⟩ := h
    simp only [BlockMatch.discoveries, List.length_append] at hl64
    obtain ⟨g, u, hd, hg, hu⟩ := content_lang x hx hv (by omega) hp ha
    refine ⟨p.discoveries ++ g, u, by simp [BlockMatch.discoveries, hd], .cons hch ?_ hg, hu⟩
    have hplain := hcp ch hch
    exact line_lang p hpc (hpv hplain.not_nil) (by omega) hplain (hca ch hch)
theorem content_lang {deps c s} : (b : BlockContent) → b.Conforms chans deps c s → b.isValid = true →
    b.discoveries.length < 2 ^ 64 → PlainC c →
    AllLinesC OptionalTail c → ∃ g u, b.discoveries = g ++ u ∧ InChannels chans g ∧ InContainer chans deps c u
  | .container m, h, hv, hl64, hp, ha => ⟨[], _, rfl, .nil, match_lang m h.2 hv (by simpa only [BlockContent.discoveries] using hl64) hp ha⟩
  | .block b, h, hv, hl64, hp, ha => block_lang b h hv (by simpa only [BlockContent.discoveries] using hl64) hp ha
  | .next n, h, hv, hl64, hp, ha => by simp [BlockContent.isValid] at hv
theorem match_lang {deps c s} : (m : Match) → m.Conforms chans deps c s → m.isValid = true →
    m.discoveries.length < 2 ^ 64 → PlainC c →
    AllLinesC OptionalTail c → InContainer chans deps c m.discoveries
  | .token (.mk name (.mk input card' l) specs), h, hv, hl64, hp, ha => by
    obtain ⟨e, card, hc, rfl, rfl, rfl, _, ht⟩ := h
    simp only [Match.isValid, TokenMatch.isValid, TokenResult.isValid, Bool.and_eq_true] at hv
    simp only [Match.discoveries, TokenMatch.discoveries, TokenResult.discoveries] at hl64 ⊢
    rcases hc with rfl | ⟨rfl, _⟩
    · cases hp with | token hp =>
      cases ha with | token ha =>
      rw [tokens_flatten]
      have hne := tokens_nonempty hp.not_nil l ht
      have hlen := length_le_flatten (l.map Token.discoveries) (by simpa using hne)
      rw [← tokens_flatten] at hlen
      simp only [List.length_map] at hlen
      refine InContainer.token ?_ (by simpa using allows_of_valid hv.2.1 (by omega))
      intro w hw
      obtain ⟨t, ht', rfl⟩ := List.mem_map.mp hw
      exact tokens_lang l ht hv.2.2 hl64 hp ha t ht'
    · cases hp
  | .rule r, h, hv, hl64, hp, ha => by
    obtain ⟨rfl, _, ht⟩ := h
    simp only [Match.isValid, RuleMatch.isValid, Bool.and_eq_true] at hv
    simp only [Match.discoveries, RuleMatch.discoveries] at hl64 ⊢
    cases hp with | rule hp =>
    have htext : ∀ w ∈ r.results.map RuleResult.content, RuleText r.rule w := by
      intro w hw
      obtain ⟨x, hx, rfl⟩ := List.mem_map.mp hw
      exact (ht hp).results x hx
    have hlen := length_le_flatten (r.results.map RuleResult.content) (fun w hw => RuleText_nonempty (htext w hw))
    simp only [List.length_map] at hlen
    refine InContainer.rule htext ?_
    simpa [RuleMatch.amount] using allows_of_valid hv.1 (by unfold RuleMatch.amount; omega)
  | .skipToken t, h, hv, hl64, hp, ha => by
    obtain ⟨_, k, hk1, hk2⟩ := h
    exact InContainer_empty hp hk1 hk2
  | .skipRule r, h, hv, hl64, hp, ha => by
    obtain ⟨rfl, hk⟩ := h
    exact InContainer_empty hp rfl hk
  | .line l, h, hv, hl64, hp, ha => by
    obtain ⟨ls, rfl, _⟩ := h
    cases hp
theorem tokens_lang {deps e s} : (l : List Token) → TokensConform chans deps e s l → tokensValid l = true →
    (tokensDiscoveries l).length < 2 ^ 64 → Plain e →
    AllLines OptionalTail e → ∀ t ∈ l, InElement chans deps e t.discoveries
  | [], _, _, _, _, _ => by simp
  | t :: ts, h, hv, hl64, hp, ha => by
    obtain ⟨h1, _, _, h2⟩ := h
    simp only [tokensValid, Bool.and_eq_true] at hv
    simp only [tokensDiscoveries, List.length_append] at hl64
    intro x hx
    rcases List.mem_cons.mp hx with hx | hx
    · rw [hx]; exact token_lang t h1 hv.1 (by omega) hp ha
    · exact tokens_lang ts h2 hv.2 (by omega) hp ha x hx
end
end

end Verif.Lexer
