import Verif.Spec.Derivation

/-!
# Channels which cannot be confused

The matcher tries the channels in the order of a Go map, which is chosen anew each time.
-/

namespace Verif.Lexer
open Verif.Patterns Verif.Cardinality

/-- A channel with one line, which is one text of one rule. -/
def RuleChannel (c : GToken) (r : Rule) : Prop :=
  c.not = none ∧ ∃ e, c.must = [[.element e]] ∧ e.content = .rule r ∧ e.times = .mandatory

/-- No text begins with texts of both rules. -/
def Apart (r r' : Rule) : Prop := ∀ s w w', RuleText r w → RuleText r' w' → w <+: s → ¬ w' <+: s

/-- All the channels are of this kind, and no two of them can begin at the same place. -/
def ApartChannels (chans : List GToken) : Prop :=
  (∀ c ∈ chans, ∃ r, RuleWF r ∧ RuleChannel c r) ∧
  ∀ c ∈ chans, ∀ c' ∈ chans, c ≠ c' → ∀ r r', RuleChannel c r → RuleChannel c' r' → Apart r r'

end Verif.Lexer
