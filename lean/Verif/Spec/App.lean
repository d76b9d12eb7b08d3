import Verif.Model.App
import Verif.Spec.Suites
import Verif.Spec.Containers

/-!
# What the application of the lexer computes for a grammar without includes
-/

namespace Verif.Lexer
open Verif.Patterns Verif.Cardinality

/-- The texts of the container are read as these tokens and channels. -/
def Reads (fe : Frontend) (c : ResContainer) (channels : Str) (ts : TokenSet) (cs : Option TokenSet) : Prop :=
  ∃ ps rs, fe.toPatterns c.patterns = .ok ps ∧ fe.toRules c.rules ps = .ok rs ∧ fe.toTokens rs c.tokens = .ok ts ∧
    if channels = [] then cs = none else ∃ x, cs = some x ∧ fe.toTokens rs channels = .ok x

/-- The tokens of the container link to no other file. -/
def NoLinks (fe : Frontend) (c : ResContainer) : Prop := fe.toReferences c.tokens = .ok ⟨none, none⟩

end Verif.Lexer
