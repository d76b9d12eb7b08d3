import Verif.Props.LexerOrder

/-!
# Lemmas: the channels of the shipped grammar are apart
-/

set_option maxRecDepth 100000

namespace Verif.Base
open Verif.Patterns Verif.Lexer Verif.Cardinality

/-- What texts of a pattern begin with. -/
theorem patternText_head {p : Pattern} {name : Str} {options : List Str} {rest : List Choice} (hp : p.choices = choice name options false :: rest) {x : Str}
    (h : PatternText p x) : ∃ o ∈ options, o <+: x := by
  obtain ⟨s, ts, h1, h2, rfl⟩ := h
  rw [hp] at h1
  generalize hcs : choice name options false :: rest = cs at h1
  cases h1 with
  | nil => cases hcs
  | stop _ => exact absurd rfl h2
  | cons hc _ =>
    cases hcs
    simp only [SpecChoice, choice, Bool.false_eq_true, if_false] at hc
    generalize hg : ([⟨36 :: name, options⟩] : List Group) = gs at hc
    cases hc with
    | nil => cases hg
    | cons hg' _ =>
      cases hg
      exact ⟨_, hg'.1, by simp⟩

theorem ruleText_head {r : Rule} {p : Pattern} {k : Cardinality.Card} {name : Str} {options : List Str} {rest : List Choice} (hr : r.content = .pattern [p] k)
    (hp : p.choices = choice name options false :: rest) {w : Str} (h : RuleText r w) : ∃ o ∈ options, o <+: w := by
  unfold RuleText at h
  rw [hr] at h
  obtain ⟨us, h1, rfl, h2⟩ := h
  cases us with
  | nil => exact absurd rfl h1
  | cons u us =>
    obtain ⟨q, hq, hu⟩ := h2 u List.mem_cons_self
    simp at hq
    subst hq
    obtain ⟨o, ho, hx⟩ := patternText_head hp hu
    exact ⟨o, ho, hx.trans (by simp)⟩

/-- What a text of a channel begins with. -/
def channelHeads : String × String → List Str
  | ("whiteSpaces", _) => [[32], [9], [10]]
  | ("multiLineComment", _) => [[47, 42]]
  | _ => [[47, 47]]

def channelTable : List (String × String) := [("whiteSpaces", "WHITESPACES"), ("multiLineComment", "MULTI_LINE_COMMENT"), ("lineComment", "SINGLE_LINE_COMMENT")]

theorem rule_contents :
    (∀ x ∈ baseRules, x.1 = lit "WHITESPACES" → x.2 = .pattern [pWhitespace] .nonZeroMultiple) ∧
    (∀ x ∈ baseRules, x.1 = lit "MULTI_LINE_COMMENT" → x.2 = .pattern [pBlockComment] (.specific (.amount 1))) ∧
    (∀ x ∈ baseRules, x.1 = lit "SINGLE_LINE_COMMENT" → x.2 = .pattern [pLineComment] (.specific (.amount 1))) := by
  decide +kernel

theorem heads_apart : ∀ x ∈ channelTable, ∀ y ∈ channelTable, x ≠ y → ∀ o ∈ channelHeads x, ∀ o' ∈ channelHeads y, ¬ o <+: o' ∧ ¬ o' <+: o := by
  decide

section
variable {rs : RuleSet} {ts cs : TokenSet} (h : BaseRead rs ts cs)
include h

theorem BaseRead.channel_head {x : String × String} (hx : x ∈ channelTable) {r : Rule} (hr : rs.find (lit x.2) = .ok r) {w : Str} (hw : RuleText r w) :
    ∃ o ∈ channelHeads x, o <+: w := by
  obtain ⟨hm, hn⟩ := h.find_rule hr
  have hb : (r.name, r.content) ∈ baseRules := by rw [← h.rules]; exact List.mem_map_of_mem hm
  obtain ⟨c1, c2, c3⟩ := rule_contents
  simp only [channelTable, List.mem_cons, List.not_mem_nil, or_false] at hx
  rcases hx with rfl | rfl | rfl
  · have := c1 _ hb hn
    simpa [channelHeads, lit] using ruleText_head this rfl hw
  · have := c2 _ hb hn
    simpa [channelHeads, lit] using ruleText_head this rfl hw
  · have := c3 _ hb hn
    simpa [channelHeads, lit] using ruleText_head this rfl hw

theorem BaseRead.apart : ApartChannels cs.list := by
  refine ⟨?_, ?_⟩
  · intro c hc
    obtain ⟨x, _, _, h1, h2, r, e, h3, h4, h5, h6⟩ := h.channel hc
    exact ⟨r, h.rule_wf (h.find_rule h6).1, h1, e, h3, h4, by simp [GElement.times, h5]⟩
  · have key : ∀ c ∈ cs.list, ∀ c' ∈ cs.list, c ≠ c' → ∃ x ∈ channelTable, ∃ y ∈ channelTable, x ≠ y ∧ ChannelIs rs x c ∧ ChannelIs rs y c' := by
      have hf := h.channels
      generalize cs.list = l at hf
      cases hf with
      | cons a1 hf =>
        cases hf with
        | cons a2 hf =>
          cases hf with
          | cons a3 hf =>
            cases hf
            simp only [List.mem_cons, List.not_mem_nil, or_false]
            rintro c (rfl | rfl | rfl) c' (rfl | rfl | rfl) hne
            all_goals first
              | exact absurd rfl hne
              | exact ⟨_, by simp [channelTable], _, by simp [channelTable], by decide, a1, a2⟩
              | exact ⟨_, by simp [channelTable], _, by simp [channelTable], by decide, a1, a3⟩
              | exact ⟨_, by simp [channelTable], _, by simp [channelTable], by decide, a2, a1⟩
              | exact ⟨_, by simp [channelTable], _, by simp [channelTable], by decide, a2, a3⟩
              | exact ⟨_, by simp [channelTable], _, by simp [channelTable], by decide, a3, a1⟩
              | exact ⟨_, by simp [channelTable], _, by simp [channelTable], by decide, a3, a2⟩
    intro c hc c' hc' hne r r' hr hr' s w w' hw hw' hp hp'
    obtain ⟨x, hx, y, hy, hxy, ix, iy⟩ := key c hc c' hc' hne
    have find : ∀ {x : String × String} {c : GToken} {r : Rule}, ChannelIs rs x c → RuleChannel c r → rs.find (lit x.2) = .ok r := by
      intro x c r hi hr
      obtain ⟨_, _, _, r1, e, h3, h4, h5, h6⟩ := hi
      obtain ⟨_, e', g1, g2, _⟩ := hr
      rw [h3] at g1
      simp at g1
      subst g1
      rw [h4] at g2
      cases g2
      exact h6
    obtain ⟨o, ho, po⟩ := h.channel_head hx (find ix hr) hw
    obtain ⟨o', ho', po'⟩ := h.channel_head hy (find iy hr') hw'
    have := heads_apart x hx y hy hxy o ho o' ho'
    rcases List.prefix_or_prefix_of_prefix (po.trans hp) (po'.trans hp') with hc | hc
    · exact this.1 hc
    · exact this.2 hc
end

end Verif.Base
