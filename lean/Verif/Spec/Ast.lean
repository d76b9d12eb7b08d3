import Verif.Model.Ast

/-!
# Shapes of grammars and positions in a text
-/

namespace Verif.Lexer
open Verif.Patterns Verif.Cardinality

/-! `Shape nots specs R e`: the element `e` and everything inside has no groups of lines, `not` parts only if `nots`, specifiers
only if `specs`, and all rules have the property `R`. Recursive tokens refer to the dependencies, see `GrammarShape`. -/
mutual
inductive Shape (nots specs : Prop) (R : Rule → Prop) : Element → Prop
  | mk {name : Str} {must not : List Line} : (¬ nots → not = []) →
      (∀ line ∈ must ++ not, ∀ c, Instruction.container c ∈ line → ShapeC nots specs R c) →
      Shape nots specs R (.mk name must not)
inductive ShapeC (nots specs : Prop) (R : Rule → Prop) : PContainer → Prop
  | token {e : Element} {sp : List Spec} {card : Card} : Shape nots specs R e → (¬ specs → sp = []) →
      ShapeC nots specs R (.token e sp card)
  | rule {r : Rule} {card : Card} : R r → ShapeC nots specs R (.rule r card)
  | recursive {name : Str} {sp : List Spec} {card : Card} : (¬ specs → sp = []) → ShapeC nots specs R (.recursive name sp card)
end

/-- All the elements of a grammar have the shape: the root, the dependencies, the channels and their dependencies. -/
structure GrammarShape (nots specs : Prop) (R : Rule → Prop) (env : Env) : Prop where
  root : Shape nots specs R env.root.element
  deps : ∀ e ∈ env.root.deps, Shape nots specs R e
  channels : ∀ k, ∀ p ∈ env.channels k, Shape nots specs R p.element ∧ ∀ e ∈ p.deps, Shape nots specs R e

/-- `(index, line, column)` is the reported position of the end of the text `s`: the number of its bytes, the number of its
new lines and the column in the last line. The columns begin with 0 and the column is that of the last byte, except in an
empty last line. -/
def PositionOf (s : Str) (p : Nat × Nat × Nat) : Prop :=
  p.1 = s.length ∧ p.2.1 = s.count 10 ∧
  ∃ before lastLine, s = before ++ lastLine ∧ 10 ∉ lastLine ∧ (before = [] ∨ before.getLast? = some 10) ∧
    p.2.2 = lastLine.length - 1

end Verif.Lexer
