import Verif.Spec.Derivation

/-!
# Grammars on which the lexer answers with a tree or a mistake
-/

namespace Verif.Lexer
open Verif.Patterns Verif.Cardinality

/-- A rule with a name and a code, and with a constant which is not empty or with at least one pattern, all of them well formed. -/
structure RuleMade (r : Rule) : Prop where
  name : r.name ≠ []
  code : r.code ≠ []
  content : match r.content with
    | .constant c => c ≠ []
    | .pattern ps _ => ps ≠ [] ∧ ∀ p ∈ ps, WellFormed p

/-- A token without `not` lines, whose rules are made (`RuleMade`) and whose first line has an element (a line of channel switches only
is allowed by the compiler, see C59). -/
structure TokenMade (t : GToken) : Prop where
  noNot : t.not = none
  rules : ∀ l ∈ t.must, ∀ e, .element e ∈ l → ∀ r, e.content = .rule r → RuleMade r
  first : ∀ l ls, t.must = l :: ls → ∃ e, .element e ∈ l

end Verif.Lexer
