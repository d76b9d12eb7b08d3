import Verif.Spec.BaseParser

/-! # Specification notions: trees in which no part can be taken for another -/

namespace Verif.Base
open Verif.Patterns Verif.Lexer

/-- The parts of the grammar which may also occur inside the other parts of the same token. -/
def confusable : List (String × List String) :=
  [("forDeclaration", ["forStatement"]),
   ("ifDeclaration", ["ifOperation"]),
   ("assigneeNameFirsts", ["assigneeNameFirst"]),
   ("assigneeNames", ["assigneeName"]),
   ("slice", ["sliceDelimiter"]),
   ("assignables", ["assignable", "commaAssignable"]),
   ("listFetchElement", ["listElementFetcher"]),
   ("listAppend", ["listValue", "singleAssignable"]),
   ("operationWithSuffix", ["operationElement", "operationSuffix"]),
   ("operationSuffix", ["operator"]),
   ("variableDeclarations", ["variableDeclaration"])]

/-- In every root of the tree, nothing with the name of one of these parts is found in the other parts. -/
inductive Clear : Root → Prop where
  | mk {r : Root} :
      (∀ p ∈ confusable, r.name = lit p.1 → ∀ s ∈ p.2, ∀ m ∈ r.nodes, m.name ≠ lit s → ∀ f, ReachNode m f → f.name ≠ lit s) →
      (∀ n ∈ r.nodes, ∀ c ∈ n.containers, ∀ u, c.root = some u → Clear u) → Clear r

end Verif.Base
