import Verif.Lemmas.BaseText2

/-!
# Property C91: the shipped texts of the base grammar
-/

set_option maxRecDepth 100000

namespace Verif.Base
open Verif.Text Verif.Patterns Verif.Lexer

/-- C91: the shipped texts of the base grammar are read without error, and say what they should: the patterns and rules are those of the tables, in their
order; there is exactly one token for each kind of the grammar, in the order of the kinds, and its lines have the pieces (tokens with specifiers, rules
and channel switches, with their cardinalities) of the table `source`; there are three channels, each with one rule. -/
theorem C91_base_texts_read : ∃ ps rs ts cs, toPatterns patternsAlex = .ok ps ∧ toRules rulesAlex ps = .ok rs ∧
    toTokens rs tokensAlex = .ok ts ∧ toTokens rs channelsAlex = .ok cs ∧
    ps.list = basePatterns ∧
    rs.list.map (fun r => (r.name, r.content)) = baseRules ∧
    List.Forall₂ (TokenIs rs) tokenKinds ts.list ∧
    List.Forall₂ (ChannelIs rs) [("whiteSpaces", "WHITESPACES"), ("multiLineComment", "MULTI_LINE_COMMENT"), ("lineComment", "SINGLE_LINE_COMMENT")] cs.list := by
  obtain ⟨ps, rs, ts, cs, h1, h2, t1, c1, h3, h4, _, t2, c2⟩ := base_exact
  refine ⟨ps, rs, ts, cs, h1, h2, t1, c1, h3, h4, pair_is t2 tokensData_source, ?_⟩
  · generalize hg : cs.list = gs at c2
    clear hg
    unfold channelsData at c2
    cases c2 with
    | cons x1 c2 =>
      cases c2 with
      | cons x2 c2 =>
        cases c2 with
        | cons x3 c2 =>
          cases c2
          refine .cons (channel_is x1 ?_ rfl rfl rfl ?_) (.cons (channel_is x2 ?_ rfl rfl rfl ?_) (.cons (channel_is x3 ?_ rfl rfl rfl ?_) .nil))
          all_goals simp only [litBytes]

/-- C91: the grammar on which the statements about the parser (C71-C82) rest is the view of these texts: for every token and line the same
symbols, and for each of them the numbers of children in the trees. -/
theorem C91_view (k : Kind) : List.Forall₂ ViewOf (grammar k) (source k) := by
  apply viewsB_sound
  cases k <;> decide +kernel

/-- All the kinds are there. -/
theorem C91_all_kinds (k : Kind) : k ∈ tokenKinds ∧ tokenKinds.Nodup := by
  refine ⟨?_, by decide⟩
  cases k <;> simp [tokenKinds]

end Verif.Base
