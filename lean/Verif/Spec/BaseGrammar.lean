import Verif.Model.BaseGrammar
import Verif.Spec.Parsers

/-! # Specification notions for the events of the base language -/

namespace Verif.Base
open Verif.Patterns Verif.Lexer

/-- The numbers in the root of an integer, an index or a float are in the range of the bit size. -/
def Literals (cfg : Cfg) : Kind → Root → Prop
  | .intValue, r => ∀ n ∈ r.nodes, n.name = lit "INT_PATTERN" → ∀ c ∈ n.containers,
      if r.exists (lit "MINUS") then ∃ z, parseNeg c.content cfg.bitSize = .ok z else ∃ z, parseUint c.content cfg.bitSize = .ok z
  | .indexValue, r => ∀ n ∈ r.nodes, n.name = lit "INT_PATTERN" → ∀ c ∈ n.containers, ∃ z, parseUint c.content cfg.bitSize = .ok z
  | .floatValue, r => ∀ n ∈ r.nodes, n.name = lit "INT_PATTERN" → ∀ a b, n.containers = [a, b] →
      ∃ x, cfg.parseFloat ((if r.exists (lit "MINUS") then lit "-" else []) ++ a.content ++ lit "." ++ b.content) cfg.bitSize = .ok x
  | _, _ => True

/-- The specifier of `forStatement` (`tokens.alex:211`): there is a second name. -/
def Specifier : Kind → Root → Prop
  | .forStatement, r => ∀ n ∈ r.nodes, n.name = lit "assigneeNames" → ∀ c ∈ n.containers, ∀ u, c.root = some u →
      u.exists (lit "commaAssigneeName") = true
  | _, _ => True

/-- The rules of the channels (`resources/base/channels.alex`): the blanks and the comments, which the lexer keeps in the trees beside
the parts of the token (`lexers/asts/adapter.go:124-134`). -/
def channelNames : List Str := [lit "WHITESPACES", lit "MULTI_LINE_COMMENT", lit "SINGLE_LINE_COMMENT"]

/-- The root tree of a text of the grammar: the root has the name of the token, its nodes are those of one of the lines of the
token, with numbers of containers which the line allows, and any blanks and comments; the containers of rules are texts, those of
tokens have roots which conform to these tokens. The numbers are in range. -/
inductive Conf (cfg : Cfg) : Kind → Root → Prop where
  | mk {k : Kind} {r : Root} {line : List (Sym × Card)} :
      line ∈ grammar k → r.name = k.name → (r.nodes.map Node.name).Nodup →
      (∀ n ∈ r.nodes, n.containers ≠ [] ∧ ((∃ p ∈ line, n.name = p.1.name ∧ p.2.Allows n.containers.length) ∨
        (n.name ∈ channelNames ∧ ∀ c ∈ n.containers, c.root = none))) →
      (∀ p ∈ line, p.2.Allows 0 ∨ r.exists p.1.name = true) →
      (∀ n ∈ r.nodes, ∀ c ∈ n.containers, c.name = n.name ∧ c.content ≠ []) →
      (∀ s card, (Sym.rule s, card) ∈ line → ∀ n ∈ r.nodes, n.name = lit s → ∀ c ∈ n.containers, c.root = none) →
      (∀ k' card, (Sym.tok k', card) ∈ line → ∀ n ∈ r.nodes, n.name = k'.name → ∀ c ∈ n.containers, c.root ≠ none) →
      (∀ k' card, (Sym.tok k', card) ∈ line → ∀ n ∈ r.nodes, n.name = k'.name → ∀ c ∈ n.containers, ∀ u, c.root = some u → Conf cfg k' u) →
      Literals cfg k r → Specifier k r → Conf cfg k r

/-- The object for a token: what the parser is expected to deliver for it. -/
def Good : Kind → V → Prop
  | .program, v => ∃ x, v = .other (.program x)
  | .headerVariables, v => ∃ x, v = .other (.headers x)
  | .headerVariable, v => ∃ x, v = .other (.header x)
  | .inputOutput, v => ∃ x, v = .other (.bool x)
  | .instructions, v => ∃ x, v = .other (.instructions x)
  | .instruction, v => ∃ x, v = .other (.instruction x)
  | .direction, v => ∃ x, v = .other (.direction x)
  | .voidFuncCalls, v => ∃ x, v = .other (.voidCall x)
  | .logFuncCall, v => ∃ x, v = .other (.assignable x)
  | .listAppend, v => ∃ x, v = .other (.append x)
  | .slice, v => ∃ x, v = .other (.slice x)
  | .sliceDelimiter, v => ∃ x, v = .other (.delimiter x)
  | .indexValue, v => ∃ x, v = .other (.index x)
  | .forDeclaration, v => ∃ x, v = .other (.forDecl x)
  | .forStatement, v => ∃ x, v = .other (.forStatement x)
  | .ifDeclaration, v => ∃ x, v = .other (.ifDecl x)
  | .ifOperation, v => ∃ x, v = .other (.operation x)
  | .operation, v => ∃ x, v = .other (.operation x)
  | .operationWithSuffix, v => ∃ x, v = .other (.operation x)
  | .operationSuffix, v => ∃ x, v = .other (.suffix x)
  | .operationElement, v => ∃ x, v = .other (.element x)
  | .operationFuncCalls, v => ∃ x, v = .other (.opCall x)
  | .isNullFuncCall, v => ∃ x, v = .other (.operation x)
  | .operator, v => ∃ x, v = .other (.flag16 x)
  | .operatorArithmetic, v => ∃ x, v = .other (.flag16 x)
  | .operatorRelational, v => ∃ x, v = .other (.flag16 x)
  | .operatorLogical, v => ∃ x, v = .other (.flag16 x)
  | .assignment, v => ∃ x, v = .other (.assignment x)
  | .assignee, v => ∃ x, v = .other (.assignee x)
  | .assigneeNameFirsts, v => ∃ x, v = .other (.assigneeFirsts x)
  | .commaAssigneeFirst, v => ∃ x, v = .other (.assigneeFirst x)
  | .assigneeNameFirst, v => ∃ x, v = .other (.assigneeFirst x)
  | .assigneeNames, v => ∃ x, v = .other (.assigneeNames x)
  | .commaAssigneeName, v => ∃ x, v = .other (.assigneeName x)
  | .assigneeName, v => ∃ x, v = .other (.assigneeName x)
  | .assignables, v => ∃ x, v = .other (.assignables x)
  | .commaAssignable, v => ∃ x, v = .other (.assignable x)
  | .assignable, v => ∃ x, v = .other (.assignable x)
  | .singleAssignable, v => ∃ x, v = .other (.single x)
  | .listFetchElement, v => ∃ x, v = .other (.fetch x)
  | .listElementFetcher, v => ∃ x, v = .other (.index x)
  | .listAssignableToAssignables, v => ∃ x, v = .other (.totalAssignable x)
  | .totalListValue, v => ∃ x, v = .other (.totalValue x)
  | .totalListAssignable, v => ∃ x, v = .other (.totalAssignable x)
  | .listValue, v => ∃ x, v = .other (.listValue x)
  | .listAssignable, v => ∃ x, v = .other (.assignables x)
  | .intIncrement, v => ∃ x, v = .other (.increment x)
  | .intIncrementValue, v => ∃ x, v = .other (.value x)
  | .declarableValue, v => ∃ x, v = .other (.value x)
  | .computableValue, v => ∃ x, v = .other (.value x)
  | .primitiveValue, v => ∃ x, v = .other (.value x)
  | .stringValue, v => ∃ x, v = .other (.value x)
  | .boolValue, v => ∃ b, v = .other (.value ⟨⟨0, boolFlag⟩, .bool b⟩)
  | .intValue, v => ∃ x, v = .other (.value x)
  | .floatValue, v => ∃ x, v = .other (.value x)
  | .variableDeclarations, v => ∃ x, v = .other (.decls x)
  | .commaVariableDeclaration, v => ∃ x, v = .other (.decl x)
  | .variableDeclaration, v => ∃ x, v = .other (.decl x)
  | .declarativeType, v => ∃ x, v = .other (.typ x)
  | .listType, v => ∃ x, v = .other (.typ x)
  | .primitiveType, v => ∃ x, v = .other (.flag8 x)
  | .computableType, v => ∃ x, v = .other (.flag8 x)
  | .variableName, v => ∃ s, v = .text s ∧ s ≠ []

end Verif.Base
