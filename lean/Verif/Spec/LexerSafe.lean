import Verif.Spec.Lexer

/-!
# Grammars on which the matcher cannot panic
-/

namespace Verif.Lexer
open Verif.Patterns Verif.Cardinality

/-! Every element has a first line with a container, there are no groups of lines, and the rules have at least one pattern (all
of them well formed) or a constant. Nothing is said about recursion, `not` parts, specifiers or cardinalities. -/
mutual
inductive Safe : Element → Prop
  | mk {name : Str} {must not : List Line} : (∃ l ls c, must = l :: ls ∧ Instruction.container c ∈ l) →
      (∀ line ∈ must ++ not, ∀ c, Instruction.container c ∈ line → SafeC c) → Safe (.mk name must not)
inductive SafeC : PContainer → Prop
  | token {e : Element} {sp : List Spec} {card : Card} : Safe e → SafeC (.token e sp card)
  | rule {r : Rule} {card : Card} : RuleWF r → (∀ k, r.content ≠ .pattern [] k) → SafeC (.rule r card)
  | recursive {name : Str} {sp : List Spec} {card : Card} : SafeC (.recursive name sp card)
end

/-- All the elements of a grammar are safe. -/
structure GrammarSafe (env : Env) : Prop where
  root : Safe env.root.element
  deps : ∀ e ∈ env.root.deps, Safe e
  channels : ∀ k, ∀ p ∈ env.channels k, Safe p.element ∧ ∀ e ∈ p.deps, Safe e

end Verif.Lexer
