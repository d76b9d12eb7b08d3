import Verif.Lemmas.BaseTree
import Verif.Lemmas.TextRefs
import Verif.Props.BaseText
import Verif.Props.Derivation

/-!
# The shipped grammar is compiled
-/

set_option maxRecDepth 100000

namespace Verif.Base
open Verif.Patterns Verif.Lexer Verif.Cardinality

/-- What C91 says about the tokens and the channels which are read. -/
structure BaseRead (rs : RuleSet) (ts cs : TokenSet) : Prop where
  rulesNow : uniqueNow Rule.name rs.list = .ok rs
  rules : rs.list.map (fun r => (r.name, r.content)) = baseRules
  tokensNow : tokensNow ts.list = .ok ts
  tokens : List.Forall₂ (TokenIs rs) tokenKinds ts.list
  channels : List.Forall₂ (ChannelIs rs) [("whiteSpaces", "WHITESPACES"), ("multiLineComment", "MULTI_LINE_COMMENT"), ("lineComment", "SINGLE_LINE_COMMENT")] cs.list

theorem base_read : ∃ ps rs ts cs, Text.toPatterns patternsAlex = .ok ps ∧ Text.toRules rulesAlex ps = .ok rs ∧
    Text.toTokens rs tokensAlex = .ok ts ∧ Text.toTokens rs channelsAlex = .ok cs ∧ BaseRead rs ts cs := by
  obtain ⟨ps, rs, ts, cs, h1, h2, h3, h4, h5, h6, h7, h8⟩ := C91_base_texts_read
  exact ⟨ps, rs, ts, cs, h1, h2, h3, h4, rules_unique h2, h6, tokens_unique h3, h7, h8⟩

section
variable {rs : RuleSet} {ts cs : TokenSet} (h : BaseRead rs ts cs)
include h

theorem BaseRead.find_rule {n : Str} {r : Rule} (hr : rs.find n = .ok r) : r ∈ rs.list ∧ r.name = n :=
  ((C38_unique_find _ _ h.rulesNow).2.1 n r).mp hr

theorem BaseRead.rule_wf {r : Rule} (hr : r ∈ rs.list) : RuleWF r := by
  have : (r.name, r.content) ∈ baseRules := by rw [← h.rules]; exact List.mem_map_of_mem hr
  have key : ∀ x ∈ baseRules, match x.2 with | .constant _ => True | .pattern ps _ => ∀ p ∈ ps, WellFormed p := by
    have hp : ∀ p ∈ basePatterns, WellFormed p := by
      unfold WellFormed
      simp [basePatterns, pNumbers, pUnderscore, pMinLetters, pMajLetters, pWhitespace, pNoQuotation, pLineComment, pBlockComment, choice]
    intro x hx
    have hx' : match x.2 with | .constant _ => True | .pattern ps _ => ∀ p ∈ ps, p ∈ basePatterns := by
      revert x
      simp only [baseRules, List.forall_mem_cons, basePatterns]
      simp
    split at hx'
    · trivial
    · exact fun p hm => hp p (hx' p hm)
  exact key _ this

theorem BaseRead.token {t : GToken} (ht : t ∈ ts.list) : ∃ k, TokenIs rs k t := by
  obtain ⟨k, _, hk⟩ := (forall2_mem h.tokens).2 t ht
  exact ⟨k, hk⟩

theorem BaseRead.kind (k : Kind) : ∃ t ∈ ts.list, TokenIs rs k t := by
  obtain ⟨t, ht, hk⟩ := (forall2_mem h.tokens).1 k (C91_all_kinds k).1
  exact ⟨t, ht, hk⟩

theorem BaseRead.find_kind (k : Kind) : ∃ t, ts.find k.name = .ok t ∧ t ∈ ts.list ∧ TokenIs rs k t := by
  obtain ⟨t, ht, hk⟩ := h.kind k
  exact ⟨t, ((C38_unique_find _ _ h.tokensNow).2.1 _ _).mpr ⟨ht, hk.1⟩, ht, hk⟩

theorem BaseRead.channel {t : GToken} (ht : t ∈ cs.list) :
    ∃ x ∈ [("whiteSpaces", "WHITESPACES"), ("multiLineComment", "MULTI_LINE_COMMENT"), ("lineComment", "SINGLE_LINE_COMMENT")], ChannelIs rs x t := by
  obtain ⟨k, hk', hk⟩ := (forall2_mem h.channels).2 t ht
  exact ⟨k, hk', hk⟩

theorem BaseRead.chanLine {t : GToken} (ht : t ∈ cs.list) {l : GLine} (hl : l ∈ t.must) : ChanLine l := by
  obtain ⟨x, hx, _, _, _, r, e, h1, h2, h3, h4⟩ := h.channel ht
  rw [h1] at hl
  simp at hl
  refine ⟨e, r, hl, h2, h3, ?_⟩
  rw [(h.find_rule h4).2]
  simp only [List.mem_cons, List.not_mem_nil, or_false] at hx
  rcases hx with rfl | rfl | rfl <;> simp [channelNames]

theorem BaseRead.kind_name_ne {t : GToken} (ht : t ∈ cs.list) (k : Kind) : k.name ≠ t.name := by
  obtain ⟨x, hx, hn, _⟩ := h.channel ht
  rw [hn]
  simp only [List.mem_cons, List.not_mem_nil, or_false] at hx
  rcases hx with rfl | rfl | rfl <;> cases k <;> decide

theorem part_of {l : List Piece} {gl : GLine} (hp : List.Forall₂ (PieceIs rs) l gl) {e : GElement} (he : .element e ∈ gl) :
    ∃ s rep spec, Piece.part s rep spec ∈ l ∧ PieceIs rs (.part s rep spec) (.element e) := by
  obtain ⟨p, hm, hp⟩ := (forall2_mem hp).2 _ he
  cases p with
  | switch => simp [PieceIs] at hp
  | part s rep spec => exact ⟨s, rep, spec, hm, hp⟩

theorem BaseRead.line {t : GToken} {k : Kind} (hk : TokenIs rs k t) {gl : GLine} (hl : gl ∈ t.must) : ∃ l ∈ source k, List.Forall₂ (PieceIs rs) l gl := by
  obtain ⟨l, hm, hp⟩ := (forall2_mem hk.2.2).2 _ hl
  exact ⟨l, hm, hp⟩

theorem BaseRead.ordinary : OrdinaryGrammar ts.list cs.list := by
  refine ⟨?_, ?_, ?_⟩
  · intro t ht
    rcases List.mem_append.mp ht with ht | ht
    · exact (h.token ht).choose_spec.2.1
    · obtain ⟨x, _, hx⟩ := h.channel ht
      exact hx.2.1
  · intro t ht gl hl e he r hr
    rcases List.mem_append.mp ht with ht | ht
    · obtain ⟨k, hk⟩ := h.token ht
      obtain ⟨l, _, hp⟩ := h.line hk hl
      obtain ⟨s, rep, spec, _, hp⟩ := part_of h hp he
      cases s with
      | tok k => obtain ⟨e', h1, _, h2⟩ := hp; cases h1; rw [hr] at h2; cases h2
      | rule s =>
        obtain ⟨e', r', h1, _, h2, h3⟩ := hp
        cases h1; rw [hr] at h2; cases h2
        exact h.rule_wf (h.find_rule h3).1
    · obtain ⟨x, hx, _, _, _, r', e', h1, h2, h3, h4⟩ := h.channel ht
      rw [h1] at hl
      simp at hl
      subst hl
      simp at he
      subst he
      rw [hr] at h2
      cases h2
      exact h.rule_wf (h.find_rule h4).1
  · intro c hc u hu hn
    obtain ⟨k, hk⟩ := h.token hu
    exact absurd (hk.1.symm.trans hn) (h.kind_name_ne hc k)
end

theorem source_fits : ∀ k, ∀ l ∈ source k, LineFits l ∧ SpecFits k l := by
  have key : ∀ k, ((source k).all fun l => l.all fun
      | .switch => true
      | .part s rep spec => !channelNames.contains s.name && (l.all fun
        | .switch => true
        | .part s' _ _ => !(s'.name == s.name) || s' == s) && (match rep with | .times m => decide (m < 2 ^ 64) | _ => true) &&
        (!(k == .forStatement) || !(s.name == lit "assigneeNames") || (rep == .one && spec == some (.commaAssigneeName, 1)))) = true := by
    intro k
    cases k <;> decide +kernel
  intro k l hl
  have := List.all_eq_true.mp (key k) l hl
  rw [List.all_eq_true] at this
  have part : ∀ s rep spec, Piece.part s rep spec ∈ l → _ := fun s rep spec hm => this _ hm
  simp only [Bool.and_eq_true] at part
  refine ⟨⟨?_, ?_⟩, ?_⟩
  · intro s rep spec hm
    obtain ⟨⟨⟨a1, a2⟩, a3⟩, a4⟩ := part s rep spec hm
    refine ⟨by simpa using a1, ?_⟩
    intro s' rep' spec' hm' hn
    rw [List.all_eq_true] at a2
    have := a2 _ hm'
    simpa [hn] using this
  · intro s rep spec hm
    obtain ⟨⟨⟨a1, a2⟩, a3⟩, a4⟩ := part s rep spec hm
    cases rep <;> simp_all [Rep.Small]
  · rintro rfl s rep spec hm hn
    obtain ⟨⟨⟨a1, a2⟩, a3⟩, a4⟩ := part s rep spec hm
    simpa [hn] using a4

end Verif.Base
