import Verif.Lemmas.LexerReadUnique

/-! Tokens with `not` lines. -/

namespace Verif.Lexer
open Verif.Patterns Verif.Cardinality

theorem not_runs {env : Env} {chs : List Path} (hch : ∀ k, env.channels k = chs) (hchs : ∀ p ∈ chs, Readable false p.element) {name : Str} {must not : List Line}
    (hne : not ≠ []) (hm : Readable true (.mk name must [])) (hn : Readable true (.mk name not [])) {deps : List Element} {n : Nat} {script : Str}
    (hlen : script.length < 2 ^ 63) {st st' : St} {t : Token} (h : elementToToken env n (.mk name must not) deps script true st = some (.ok t, st')) :
    ∃ rm rn s1 k, bestLineToMatches env k must deps script true st = some (.ok rm, s1) ∧
      (rm ≠ none → bestLineToMatches env k not deps script true s1 = some (.ok rn, st')) ∧
      (Element.mk name must []).Reads (GapReads chs) true script (lineOut rm) ∧
      (rm ≠ none → (Element.mk name not []).Reads (GapReads chs) true script (lineOut rn)) ∧
      t = .mk name (rm.map fun m => .mk m rn) := by
  obtain _ | _ | k := n
  · simp [elementToToken] at h
  · simp only [elementToToken, elementToTokenContent] at h
    obtain ⟨x, s1, hx, h⟩ := M.bind_ok.mp h
    simp [M.outOfFuel] at hx
  simp only [elementToToken, elementToTokenContent] at h
  obtain ⟨c, s0, hc, h⟩ := M.bind_ok.mp h
  split at h
  · simp at h
  simp at h
  obtain ⟨rfl, rfl⟩ := h
  obtain ⟨rm, s1, hrm, hc⟩ := M.bind_ok.mp hc
  have hs := readSound env chs (by simp [hch]) hchs k
  have hmode : Mode env (GapReads chs) true true := .inl (by simp [hch])
  have hread : ∀ {ls : List Line} {r : Option LineMatch} {a b : St}, Readable true (.mk name ls []) → bestLineToMatches env k ls deps script true a = some (.ok r, b) →
      (Element.mk name ls []).Reads (GapReads chs) true script (lineOut r) := by
    intro ls r a b hr hb
    cases hr with
    | mk h1 h2 =>
      simp only [Element.Reads]
      exact hs.best _ _ _ _ _ _ _ _ true hb h1 h2 hlen hmode
  cases rm with
  | none =>
    simp at hc
    obtain ⟨rfl, rfl⟩ := hc
    exact ⟨none, none, _, k, hrm, by simp, hread hm hrm, by simp, rfl⟩
  | some m =>
    dsimp only at hc
    rw [if_neg (by simpa [Element.not] using hne)] at hc
    obtain ⟨rn, s2, hrn, hc⟩ := M.bind_ok.mp hc
    simp at hc
    obtain ⟨rfl, rfl⟩ := hc
    exact ⟨some m, rn, _, k, hrm, fun _ => hrn, hread hm hrm, fun _ => hread hn hrn, rfl⟩

/-- A mandatory rule which is valid stands at the beginning of the text. -/
theorem mandatory_front {r : Rule} (hw : RuleWF r) {s : Str} (hlen : s.length < 2 ^ 63) {n : Nat} {ch : Bool} {st st' : St} {m : RuleMatch}
    (h : ruleToRuleMatch n r .mandatory s ch st = some (.ok m, st')) (hv : m.isValid = true) : m.discoveries <+: s ∧ m.discoveries ≠ [] := by
  unfold ruleToRuleMatch at h
  rw [M.bind_some_ok (M.get_run _)] at h
  obtain ⟨l, s1, hl, h⟩ := M.bind_ok.mp h
  rw [M.bind_some_ok (M.get_run _)] at h
  simp at h
  obtain ⟨rfl, rfl⟩ := h
  obtain ⟨new, ws, h1, h2, h3⟩ := ruleLoop_reads hw .mandatory _ _ hlen _ _ _ _ _ _ hl (by simp) (by simpa using tries_zero .mandatory)
  simp only [List.nil_append] at h1
  subst h1
  have hcnt := ruleLoop_count hw _ _ _ _ _ _ _ _ _ hl
  simp only [List.length_nil, Nat.zero_add] at hcnt
  have hone : l.length = 1 := by
    have hv' := hv
    unfold RuleMatch.isValid RuleMatch.amount at hv'
    simp only [Bool.and_eq_true] at hv'
    have := (isValid_nat (by omega)).mp hv'.1
    simpa [SpecAllows] using this
  have hpre := repeats_prefix (fun _ _ => ruleReads_prefix) h2
  have hne := repeats_ne (fun _ _ => ruleReads_ne) h2
  rcases h3 with ⟨h3, h4, h5⟩ | ⟨c, front, x, xs, h4, h5, h6, h7, h8, h9, h10, h11, h12, h13, h14⟩
  · have hd : RuleMatch.discoveries ⟨r, .mandatory, l, s1.canPrefix && ch⟩ = ws.flatten := by simp [RuleMatch.discoveries, h3]
    rw [hd]
    refine ⟨hpre, ?_⟩
    have : ws.length = 1 := by rw [← h3]; simpa using hone
    obtain ⟨w, rfl⟩ := List.length_eq_one_iff.mp this
    simpa using hne w (by simp)
  · subst h10
    cases front with
    | nil =>
      unfold RuleMatch.isValid at hv
      rw [exact_behind (x := x) (xs := xs) rfl h13 (by simp [h9])] at hv
      simp at hv
    | cons y ys => simp at hone

/-- A line of one mandatory rule, without channels. -/
theorem mandatory_line {env : Env} (hch : ∀ k, env.channels k = []) {r : Rule} (hw : RuleWF r) {s : Str} (hs : s ≠ []) (hlen : s.length < 2 ^ 63) {n : Nat}
    {deps : List Element} {st st' : St} {o : Option (List BlockMatch)}
    (h : lineToMatches env n [.container (.rule r .mandatory)] deps s true st = some (.ok o, st')) :
    ∃ b, o = some [b] ∧ (b.isValid = true → b.discoveries ≠ []) := by
  obtain _ | n := n
  · simp [lineToMatches] at h
  simp only [lineToMatches, lineLoop] at h
  obtain ⟨m, s1, hm, h⟩ := M.bind_ok.mp h
  obtain _ | _ | n := n
  · simp [containerToBlockMatch] at hm
  · simp only [containerToBlockMatch, hs, if_false, if_true] at hm
    obtain ⟨x, s2, hx, hm⟩ := M.bind_ok.mp hm
    simp [findChannelBlockMatch] at hx
  obtain ⟨k, hk⟩ := block_direct hch (n := n) (c := .rule r .mandatory) (deps := deps) hs true true st
  rw [hk] at hm
  obtain ⟨y, s2, hy, hm⟩ := M.bind_ok.mp hm
  simp only [containerToMatch] at hy
  obtain ⟨x, s3, hx, hy⟩ := M.bind_ok.mp hy
  simp at hy
  obtain ⟨rfl, rfl⟩ := hy
  simp at hm
  obtain ⟨rfl, rfl⟩ := hm
  have hwr : wrapRule x = .rule x := by
    have : x.card = .mandatory := by
      unfold ruleToRuleMatch at hx
      rw [M.bind_some_ok (M.get_run _)] at hx
      obtain ⟨l, s4, _, hx⟩ := M.bind_ok.mp hx
      rw [M.bind_some_ok (M.get_run _)] at hx
      simp at hx
      rw [← hx.1]
    have h0 : ¬ Card.isValid .mandatory 0 = true := fun h => by simpa [SpecAllows] using isValid_zero.mp h
    simp [wrapRule, this, h0]
  rw [hwr] at h
  dsimp only at h
  by_cases hv : x.isValid = true
  · obtain ⟨h1, h2⟩ := mandatory_front hw hlen hx hv
    simp only [BlockMatch.isValid, BlockContent.isValid, Match.isValid, hv, BlockMatch.discoveries, BlockContent.discoveries, Match.discoveries,
      isPrefixOf_iff.mpr h1] at h
    simp at h
    obtain ⟨rfl, _⟩ := h
    exact ⟨_, rfl, fun _ => by simpa [BlockMatch.discoveries, BlockContent.discoveries, Match.discoveries] using h2⟩
  · have hv : x.isValid = false := by simpa using hv
    simp only [BlockMatch.isValid, BlockContent.isValid, Match.isValid, hv] at h
    simp at h
    obtain ⟨rfl, _⟩ := h
    refine ⟨_, rfl, fun h => ?_⟩
    simp [BlockMatch.isValid, BlockContent.isValid, Match.isValid, hv] at h

/-- The lines of one mandatory rule each: one of them is the result. -/
theorem mandatory_best {env : Env} (hch : ∀ k, env.channels k = []) {rs : List Rule} (hr : rs ≠ []) (hw : ∀ r ∈ rs, RuleWF r) {s : Str} (hs : s ≠ [])
    (hlen : s.length < 2 ^ 63) {n : Nat} {deps : List Element} {st st' : St} {o : Option LineMatch}
    (h : bestLineToMatches env n (rs.map fun r => [.container (.rule r .mandatory)]) deps s true st = some (.ok o, st')) : o ≠ none := by
  obtain _ | n := n
  · simp [bestLineToMatches] at h
  simp only [bestLineToMatches] at h
  obtain ⟨b, s2, hb, h⟩ := M.bind_ok.mp h
  simp at h; obtain ⟨rfl, _⟩ := h
  obtain ⟨ms, hruns, hinv⟩ := bestLoop_inv _ [] ⟨0, none, none⟩ _ _ _ ⟨by simp [GoodLine], by simp, by simp, by simp, by simp [BadLine]⟩ hb
  have hres := hinv.result
  simp only [List.nil_append] at hres
  have hfirst : ∃ rest b, ms = some [b] :: rest ∧ (b.isValid = true → b.discoveries ≠ []) := by
    cases rs with
    | nil => exact absurd rfl hr
    | cons r rs =>
      simp only [List.map_cons] at hruns
      cases hruns with
      | cons h1 h2 =>
        obtain ⟨b, rfl, hb⟩ := mandatory_line hch (hw r (by simp)) hs hlen h1
        exact ⟨_, b, rfl, hb⟩
  obtain ⟨rest, b', rfl, hb'⟩ := hfirst
  intro e
  rw [e] at hres
  cases hres with
  | nothing h1 h2 =>
    by_cases hv : b'.isValid = true
    · exact h1 0 [b'] ⟨rfl, by simp [blocksValid, hv], by simpa [blocksDiscoveries] using hb' hv⟩
    · exact h2 0 [b'] ⟨rfl, by simpa [blocksValid] using hv⟩

/-- A mandatory rule is read exactly once. -/
theorem mandatory_reads {r : Rule} {s : Str} {o : Option Str} (h : RuleRepeated r .mandatory s o) : RuleReads r s o := by
  obtain ⟨ws, h1, h2⟩ := h
  have ht : tries .mandatory = some 1 := by simp [tries, maximum]
  cases h1 with
  | stop h3 =>
    rcases h2 with ⟨⟨_, _, _, h2, _⟩, _⟩ | ⟨_, h2⟩
    · exact absurd rfl h2
    · rcases h2 with ⟨h2, _⟩ | ⟨_, h2, _⟩ | ⟨_, _, rfl⟩
      · simp [SpecAllows] at h2
      · simp [SpecAllows] at h2
      · exact h3
  | @more _ _ w ws hl h3 h4 =>
    rw [ht] at h4
    have : ws = [] := by
      have := repeats_limit h4 (k := 0) (by simp)
      simpa using this
    subst this
    rcases h2 with ⟨⟨_, _, _, _, h2, _⟩, _⟩ | ⟨_, h2⟩
    · exact absurd (by simp [ht]) h2
    · rcases h2 with ⟨_, rfl⟩ | ⟨h2, _⟩ | ⟨h2, _⟩
      · simpa using h3
      · simp [SpecAllows] at h2
      · simp [SpecAllows] at h2

/-- Alternatives of mandatory rules, without channels. -/
theorem alternatives_none {name : Str} (rs : List Rule) (s : Str) (hs : s ≠ []) {o : Option Str}
    (h : (Element.mk name (rs.map fun r => [.container (.rule r .mandatory)]) []).Reads (GapReads []) true s o) :
    (∀ r ∈ rs, RuleReads r s none) ↔ o = none := by
  have hline : ∀ r o, LineReads (GapReads []) [.container (.rule r .mandatory)] true true s o → RuleReads r s o := by
    intro r o h
    simp only [LineReads, PContainer.Reads] at h
    obtain ⟨x, hx, h⟩ := h
    cases hx with
    | endOptional _ => exact absurd rfl hs
    | endMissing _ => exact absurd rfl hs
    | @noGap _ o' _ _ h3 =>
      have h3 := mandatory_reads h3
      cases o' with
      | none => simp at h; subst h; exact h3
      | some u => simp at h; subst h; exact h3
    | gap _ h2 _ => simp [GapReads] at h2
    | gapEnd _ h2 _ _ => simp [GapReads] at h2
  have hlines : ∀ (rs : List Rule) os, LinesRead (GapReads []) (rs.map fun r => [.container (.rule r .mandatory)]) true s os →
      List.Forall₂ (fun r o => RuleReads r s o) rs os := by
    intro rs
    induction rs with
    | nil => intro os h; simp [LinesRead] at h; subst h; exact .nil
    | cons r rs ih =>
      intro os h
      simp only [List.map_cons, LinesRead] at h
      obtain ⟨o, os', rfl, h1, h2⟩ := h
      exact .cons (hline r o h1) (ih _ h2)
  simp only [Element.Reads] at h
  obtain ⟨os, h1, h2⟩ := h
  have h1' := hlines rs os h1
  clear h1
  have hall : (∀ r ∈ rs, RuleReads r s none) ↔ ∀ x ∈ os, x = none := by
    clear h2
    induction h1' with
    | nil => simp
    | @cons r o rs os ho _ ih =>
      simp only [List.mem_cons, forall_eq_or_imp, ih]
      refine and_congr_left fun _ => ⟨fun h => ruleReads_det r _ _ _ ho h, fun h => h ▸ ho⟩
  have hne : ∀ v, some v ∈ os → v ≠ [] := by
    clear h2 hall
    induction h1' with
    | nil => simp
    | @cons r o rs os ho _ ih =>
      intro v hv
      rcases List.mem_cons.mp hv with rfl | hv
      · exact ruleReads_ne ho
      · exact ih v hv
  rw [hall]
  constructor
  · intro hx
    cases o with
    | none => rfl
    | some w => exact absurd (hx _ h2.1) (by simp)
  · rintro rfl x hx
    cases x with
    | none => rfl
    | some v => exact absurd (h2 v hx) (hne v hx)

end Verif.Lexer
