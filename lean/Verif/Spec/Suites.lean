import Verif.Model.Suites

/-!
# What a test suite reports
-/

namespace Verif.Lexer
open Verif.Patterns Verif.Cardinality

/-- The outcome of one test line of the token `t`: a matcher that is made for `t` alone and was not used before turns the line
into an AST, and `success` says whether that is a success. -/
def LineOutcome (g : PathEnv) (channels : Option TokenSet) (d : Nat) (order : List Path → Nat → List Path) (fuel : Nat)
    (t : GToken) (line : Str) (success : Bool) : Prop :=
  ∃ p ps ast st, matcherNow g d t channels = .ok (p, ps) ∧
    toAST ⟨p, order ps⟩ false fuel line ⟨false, fun _ => none, 0⟩ = some (.ok ast, st) ∧
    (success = true ↔ ∃ a, ast = .success a)

/-- The suite `s` reports the test lines of the token `t`: its name, and for each line the index and the outcome. -/
structure Reports (g : PathEnv) (channels : Option TokenSet) (d : Nat) (order : Str → Nat → List Path → Nat → List Path)
    (fuel : Nat) (t : GToken) (s : Suite) : Prop where
  name : s.name = t.name ∧ t.name ≠ []
  count : s.lines.length = (t.tests.getD []).length ∧ s.lines ≠ []
  index : ∀ i (x : SLine), s.lines[i]? = some x → x.index = i
  outcome : ∀ i (x : SLine) line, s.lines[i]? = some x → (t.tests.getD [])[i]? = some line →
    LineOutcome g channels d (order t.name i) fuel t line x.isSuccess

/-- The tokens of the channels. -/
def chanList (channels : Option TokenSet) : List GToken := match channels with
  | none => []
  | some cs => cs.list

end Verif.Lexer
