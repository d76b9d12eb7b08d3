import Verif.Model.BaseText
import Verif.Model.BaseGrammar
import Verif.Model.Grammar

/-!
# What the shipped texts of the base grammar say
-/

namespace Verif.Base
open Verif.Patterns Verif.Lexer

/-! ## Patterns (`patterns.alex`) -/

/-- The characters from `a` to `b`. -/
def chars (a b : Nat) : List Str := (List.range (b + 1 - a)).map (fun i => [UInt8.ofNat (a + i)])
/-- A choice of one serie with one group of the same name. -/
def choice (name : Str) (options : List Str) (isReverse : Bool) : Choice := ⟨⟨name, [⟨36 :: name, options⟩]⟩, isReverse⟩

def pNumbers : Pattern := ⟨lit "numbers", [choice (lit "NUMBERS") (chars 48 57) false]⟩
def pUnderscore : Pattern := ⟨lit "underscore", [choice (lit "UNDERSCORE") [lit "_"] false]⟩
def pMinLetters : Pattern := ⟨lit "min_letters", [choice (lit "MIN_LETTERS") (chars 97 122) false]⟩
def pMajLetters : Pattern := ⟨lit "maj_letters", [choice (lit "MAJ_LETTERS") (chars 65 90) false]⟩
def pWhitespace : Pattern := ⟨lit "whitespace", [choice (lit "WHITESPACE") [lit " ", lit "\t", lit "\n"] false]⟩
def pNoQuotation : Pattern := ⟨lit "everything_except_quotation", [choice (lit "QUOTATION") [lit "\""] true]⟩
def pLineComment : Pattern := ⟨lit "single_line_comment",
  [choice (lit "TWO_SLASHES") [lit "//"] false, choice (lit "EOF") [lit "\n"] true, choice (lit "EOF") [lit "\n"] false]⟩
def pBlockComment : Pattern := ⟨lit "multi_line_comment",
  [choice (lit "SLASH_STAR") [lit "/*"] false, choice (lit "STAR_SLASH") [lit "*/"] true, choice (lit "STAR_SLASH") [lit "*/"] false]⟩
def basePatterns : List Pattern := [pNumbers, pUnderscore, pMinLetters, pMajLetters, pWhitespace, pNoQuotation, pLineComment, pBlockComment]

/-! ## Rules (`rules.alex`) -/

def baseRules : List (Str × RuleContent) :=
  [(lit "FIRST_LETTER", .pattern [pMinLetters] (.specific (.amount 1))),
   (lit "MIN_MAJ_LETTERS", .pattern [pMinLetters, pMajLetters] .nonZeroMultiple),
   (lit "INT_PATTERN", .pattern [pNumbers] .nonZeroMultiple),
   (lit "KEYNAME_PATTERN", .pattern [pMinLetters, pUnderscore] .nonZeroMultiple),
   (lit "EVERYTHING_EXCEPT_QUOTATION", .pattern [pNoQuotation] .nonZeroMultiple),
   (lit "COMMA", .constant (lit ",")),
   (lit "OPEN_PARENTHESIS", .constant (lit "(")),
   (lit "CLOSE_PARENTHESIS", .constant (lit ")")),
   (lit "OPEN_BRACKET", .constant (lit "{")),
   (lit "CLOSE_BRACKET", .constant (lit "}")),
   (lit "OPEN_SQUARE_BRACKET", .constant (lit "[")),
   (lit "CLOSE_SQUARE_BRACKET", .constant (lit "]")),
   (lit "QUOTATION", .constant (lit "\"")),
   (lit "MINUS", .constant (lit "-")),
   (lit "COLON", .constant (lit ":")),
   (lit "EQUAL", .constant (lit "=")),
   (lit "DOT", .constant (lit ".")),
   (lit "AND", .constant (lit "&")),
   (lit "PIPE", .constant (lit "|")),
   (lit "LESS", .constant (lit "<")),
   (lit "MORE", .constant (lit ">")),
   (lit "PLUS", .constant (lit "+")),
   (lit "STAR", .constant (lit "*")),
   (lit "DIV", .constant (lit "/")),
   (lit "EXCLAMATION", .constant (lit "!")),
   (lit "UNDERSCORE", .constant (lit "_")),
   (lit "RIGHT_ARROW", .constant (lit "->")),
   (lit "LEFT_ARROW", .constant (lit "<-")),
   (lit "QUESTION_MARK", .constant (lit "?")),
   (lit "BREAK", .constant (lit "break")),
   (lit "CONTINUE", .constant (lit "continue")),
   (lit "APPEND", .constant (lit "append")),
   (lit "FOR", .constant (lit "for")),
   (lit "LIST", .constant (lit "list")),
   (lit "BOOL", .constant (lit "bool")),
   (lit "INT", .constant (lit "int")),
   (lit "UINT", .constant (lit "uint")),
   (lit "FLOAT", .constant (lit "float")),
   (lit "STRING", .constant (lit "string")),
   (lit "HEIGHT", .constant (lit "8")),
   (lit "SIXTEEN", .constant (lit "16")),
   (lit "THIRTY_TWO", .constant (lit "32")),
   (lit "SIXTY_FOUR", .constant (lit "64")),
   (lit "TRUE", .constant (lit "true")),
   (lit "FALSE", .constant (lit "false")),
   (lit "IF", .constant (lit "if")),
   (lit "IS_NULL_FUNC", .constant (lit "isNull")),
   (lit "LOG_FUNC", .constant (lit "log")),
   (lit "SINGLE_LINE_COMMENT", .pattern [pLineComment] (.specific (.amount 1))),
   (lit "MULTI_LINE_COMMENT", .pattern [pBlockComment] (.specific (.amount 1))),
   (lit "WHITESPACES", .pattern [pWhitespace] .nonZeroMultiple)]

/-! ## Tokens (`tokens.alex`, `channels.alex`) -/

/-- The tokens in the order of the file. -/
def tokenKinds : List Kind :=
  [.program, .headerVariables, .headerVariable, .inputOutput, .instructions, .instruction, .direction, .voidFuncCalls, .logFuncCall, .listAppend, .slice,
   .sliceDelimiter, .indexValue, .forDeclaration, .forStatement, .ifDeclaration, .ifOperation, .operation, .operationWithSuffix, .operationSuffix,
   .operationElement, .operationFuncCalls, .isNullFuncCall, .operator, .operatorArithmetic, .operatorRelational, .operatorLogical, .assignment, .assignee,
   .assigneeNameFirsts, .commaAssigneeFirst, .assigneeNameFirst, .assigneeNames, .commaAssigneeName, .assigneeName, .assignables, .commaAssignable, .assignable,
   .singleAssignable, .listFetchElement, .listElementFetcher, .listAssignableToAssignables, .totalListValue, .totalListAssignable, .listValue, .listAssignable,
   .intIncrement, .intIncrementValue, .declarableValue, .computableValue, .primitiveValue, .stringValue, .boolValue, .intValue, .floatValue,
   .variableDeclarations, .commaVariableDeclaration, .variableDeclaration, .declarativeType, .listType, .primitiveType, .computableType, .variableName]

/-- A number of repetitions, as written: nothing, `?`, `+`, `*` or `{n}`. -/
inductive Rep where
  | one
  | opt
  | plus
  | star
  | times (n : Nat)
  deriving DecidableEq

/-- A piece of a line: the channel switch `#`, or a token or a rule, how often, and the specifier (a token inside which must occur `n` times). -/
inductive Piece where
  | switch
  | part (sym : Sym) (rep : Rep) (spec : Option (Kind × Nat) := none)
  deriving DecidableEq

/-- The lines of the tokens as they are written, piece by piece; a switch at the end of a line (of `stringValue` and `variableName`), which has no
effect and is lost in the reading (C84), is left out. -/
def source : Kind → List (List Piece)
  -- tokens.alex:1-2
  | .program =>
    [[.part (.tok .headerVariables) .opt, .part (.tok .instructions) .one]]
  -- tokens.alex:17-18
  | .headerVariables =>
    [[.part (.tok .headerVariable) .plus]]
  -- tokens.alex:27-28
  | .headerVariable =>
    [[.part (.tok .inputOutput) .one, .part (.tok .variableDeclaration) .one, .part (.rule "COLON") .one, .part (.rule "KEYNAME_PATTERN") .one, .part (.rule "QUESTION_MARK") .opt]]
  -- tokens.alex:41-43
  | .inputOutput =>
    [[.part (.rule "RIGHT_ARROW") .one],
     [.part (.rule "LEFT_ARROW") .one]]
  -- tokens.alex:52-53
  | .instructions =>
    [[.part (.tok .instruction) .plus]]
  -- tokens.alex:64-71
  | .instruction =>
    [[.part (.tok .assignment) .one],
     [.part (.tok .variableDeclaration) .one],
     [.part (.tok .ifDeclaration) .one],
     [.part (.tok .forDeclaration) .one],
     [.part (.tok .voidFuncCalls) .one],
     [.part (.tok .direction) .one],
     [.part (.tok .intIncrement) .one]]
  -- tokens.alex:96-98
  | .direction =>
    [[.part (.rule "BREAK") .one],
     [.part (.rule "CONTINUE") .one]]
  -- tokens.alex:107-108
  | .voidFuncCalls =>
    [[.part (.tok .logFuncCall) .one]]
  -- tokens.alex:115-116
  | .logFuncCall =>
    [[.part (.rule "LOG_FUNC") .one, .part (.rule "OPEN_PARENTHESIS") .one, .part (.tok .assignable) .one, .part (.rule "CLOSE_PARENTHESIS") .one]]
  -- tokens.alex:123-124
  | .listAppend =>
    [[.part (.rule "APPEND") .one, .part (.tok .listValue) .one, .part (.rule "COMMA") .one, .part (.tok .singleAssignable) .one]]
  -- tokens.alex:135-136
  | .slice =>
    [[.part (.tok .listValue) .one, .part (.rule "OPEN_SQUARE_BRACKET") .one, .part (.tok .sliceDelimiter) .one, .part (.rule "CLOSE_SQUARE_BRACKET") .one]]
  -- tokens.alex:149-150
  | .sliceDelimiter =>
    [[.part (.tok .indexValue) .one, .part (.rule "COLON") .one, .part (.tok .indexValue) .opt]]
  -- tokens.alex:171-173
  | .indexValue =>
    [[.part (.rule "INT_PATTERN") .one],
     [.part (.tok .variableName) .one]]
  -- tokens.alex:182-183
  | .forDeclaration =>
    [[.part (.rule "FOR") .one, .part (.tok .forStatement) .one, .part (.rule "OPEN_BRACKET") .one, .part (.tok .instructions) .opt, .part (.rule "CLOSE_BRACKET") .one]]
  -- tokens.alex:210-212
  | .forStatement =>
    [[.part (.tok .assigneeNames) .one (some (.commaAssigneeName, 1)), .part (.rule "COLON") .one, .part (.rule "EQUAL") .one, .part (.tok .totalListValue) .one],
     [.part (.rule "OPEN_PARENTHESIS") .one, .part (.tok .forStatement) .one, .part (.rule "CLOSE_PARENTHESIS") .one]]
  -- tokens.alex:231-232
  | .ifDeclaration =>
    [[.part (.tok .ifOperation) .one, .part (.rule "OPEN_BRACKET") .one, .part (.tok .instructions) .opt, .part (.rule "CLOSE_BRACKET") .one]]
  -- tokens.alex:250-251
  | .ifOperation =>
    [[.part (.rule "IF") .one, .part (.tok .operation) .one]]
  -- tokens.alex:264-267
  | .operation =>
    [[.part (.tok .operationWithSuffix) .one],
     [.part (.tok .operationFuncCalls) .one],
     [.part (.rule "OPEN_PARENTHESIS") .one, .part (.tok .operation) .one, .part (.rule "CLOSE_PARENTHESIS") .one]]
  -- tokens.alex:284-285
  | .operationWithSuffix =>
    [[.part (.tok .operationElement) .one, .part (.tok .operationSuffix) .opt]]
  -- tokens.alex:302-303
  | .operationSuffix =>
    [[.part (.tok .operator) .one, .part (.tok .operationElement) .one]]
  -- tokens.alex:314-318
  | .operationElement =>
    [[.part (.tok .boolValue) .one],
     [.part (.tok .variableName) .one],
     [.part (.tok .computableValue) .one],
     [.part (.tok .operation) .one]]
  -- tokens.alex:335-336
  | .operationFuncCalls =>
    [[.part (.tok .isNullFuncCall) .one]]
  -- tokens.alex:343-344
  | .isNullFuncCall =>
    [[.part (.rule "IS_NULL_FUNC") .one, .part (.rule "OPEN_PARENTHESIS") .one, .part (.tok .operation) .one, .part (.rule "CLOSE_PARENTHESIS") .one]]
  -- tokens.alex:351-354
  | .operator =>
    [[.part (.tok .operatorArithmetic) .one],
     [.part (.tok .operatorRelational) .one],
     [.part (.tok .operatorLogical) .one]]
  -- tokens.alex:365-369
  | .operatorArithmetic =>
    [[.part (.rule "PLUS") .one],
     [.part (.rule "MINUS") .one],
     [.part (.rule "STAR") .one],
     [.part (.rule "DIV") .one]]
  -- tokens.alex:382-386
  | .operatorRelational =>
    [[.part (.rule "LESS") .one, .part (.rule "EQUAL") .opt],
     [.part (.rule "MORE") .one, .part (.rule "EQUAL") .opt],
     [.part (.rule "EXCLAMATION") .one, .part (.rule "EQUAL") .one],
     [.part (.rule "EQUAL") (.times 2)]]
  -- tokens.alex:403-405
  | .operatorLogical =>
    [[.part (.rule "AND") (.times 2)],
     [.part (.rule "PIPE") (.times 2)]]
  -- tokens.alex:414-415
  | .assignment =>
    [[.part (.tok .assignee) .one, .part (.tok .assignables) .one]]
  -- tokens.alex:432-434
  | .assignee =>
    [[.part (.tok .assigneeNameFirsts) .one, .part (.rule "COLON") .one, .part (.rule "EQUAL") .one],
     [.part (.tok .assigneeNames) .one, .part (.rule "EQUAL") .one]]
  -- tokens.alex:451-452
  | .assigneeNameFirsts =>
    [[.part (.tok .assigneeNameFirst) .one, .part (.tok .commaAssigneeFirst) .star]]
  -- tokens.alex:461-462
  | .commaAssigneeFirst =>
    [[.part (.rule "COMMA") .one, .part (.tok .assigneeNameFirst) .one]]
  -- tokens.alex:473-475
  | .assigneeNameFirst =>
    [[.part (.tok .variableDeclaration) .one],
     [.part (.tok .assigneeName) .one]]
  -- tokens.alex:486-487
  | .assigneeNames =>
    [[.part (.tok .assigneeName) .one, .part (.tok .commaAssigneeName) .star]]
  -- tokens.alex:500-501
  | .commaAssigneeName =>
    [[.part (.rule "COMMA") .one, .part (.tok .assigneeName) .one]]
  -- tokens.alex:510-512
  | .assigneeName =>
    [[.part (.tok .variableName) .one],
     [.part (.rule "UNDERSCORE") .one]]
  -- tokens.alex:521-522
  | .assignables =>
    [[.part (.tok .assignable) .one, .part (.tok .commaAssignable) .star]]
  -- tokens.alex:531-532
  | .commaAssignable =>
    [[.part (.rule "COMMA") .one, .part (.tok .assignable) .one]]
  -- tokens.alex:541-543
  | .assignable =>
    [[.part (.tok .totalListAssignable) .one],
     [.part (.tok .singleAssignable) .one]]
  -- tokens.alex:576-580
  | .singleAssignable =>
    [[.part (.tok .declarableValue) .one],
     [.part (.tok .operation) .one],
     [.part (.tok .listAssignableToAssignables) .one],
     [.part (.tok .listFetchElement) .one]]
  -- tokens.alex:607-608
  | .listFetchElement =>
    [[.part (.tok .totalListValue) .one, .part (.tok .listElementFetcher) .one]]
  -- tokens.alex:626-627
  | .listElementFetcher =>
    [[.part (.rule "OPEN_SQUARE_BRACKET") .one, .part (.tok .indexValue) .one, .part (.rule "CLOSE_SQUARE_BRACKET") .one]]
  -- tokens.alex:638-640
  | .listAssignableToAssignables =>
    [[.part (.tok .totalListAssignable) .one, .part (.rule "DOT") (.times 3)],
     [.part (.rule "OPEN_PARENTHESIS") .one, .part (.tok .totalListAssignable) .one, .part (.rule "CLOSE_PARENTHESIS") .one, .part (.rule "DOT") (.times 3)]]
  -- tokens.alex:663-665
  | .totalListValue =>
    [[.part (.tok .variableName) .one],
     [.part (.tok .totalListAssignable) .one]]
  -- tokens.alex:685-688
  | .totalListAssignable =>
    [[.part (.tok .listValue) .one],
     [.part (.tok .slice) .one],
     [.part (.tok .listAppend) .one]]
  -- tokens.alex:706-708
  | .listValue =>
    [[.part (.tok .listAssignable) .one],
     [.part (.tok .variableName) .one]]
  -- tokens.alex:717-718
  | .listAssignable =>
    [[.part (.rule "OPEN_SQUARE_BRACKET") .one, .part (.tok .assignables) .opt, .part (.rule "CLOSE_SQUARE_BRACKET") .one]]
  -- tokens.alex:727-728
  | .intIncrement =>
    [[.part (.tok .variableName) .one, .part (.tok .intIncrementValue) .one]]
  -- tokens.alex:737-739
  | .intIncrementValue =>
    [[.part (.rule "PLUS") .one, .part (.rule "PLUS") .one],
     [.part (.rule "MINUS") .one, .part (.rule "MINUS") .one]]
  -- tokens.alex:748-750
  | .declarableValue =>
    [[.part (.tok .computableValue) .one],
     [.part (.tok .primitiveValue) .one]]
  -- tokens.alex:759-761
  | .computableValue =>
    [[.part (.tok .floatValue) .one],
     [.part (.tok .intValue) .one]]
  -- tokens.alex:770-772
  | .primitiveValue =>
    [[.part (.tok .boolValue) .one],
     [.part (.tok .stringValue) .one]]
  -- tokens.alex:781-782
  | .stringValue =>
    [[.switch, .part (.rule "QUOTATION") .one, .part (.rule "EVERYTHING_EXCEPT_QUOTATION") .one, .part (.rule "QUOTATION") .one]]
  -- tokens.alex:791-793
  | .boolValue =>
    [[.part (.rule "TRUE") .one],
     [.part (.rule "FALSE") .one]]
  -- tokens.alex:802-803
  | .intValue =>
    [[.part (.rule "MINUS") .opt, .part (.rule "INT_PATTERN") .one]]
  -- tokens.alex:812-813
  | .floatValue =>
    [[.part (.rule "MINUS") .opt, .part (.rule "INT_PATTERN") .one, .part (.rule "DOT") .one, .part (.rule "INT_PATTERN") .one]]
  -- tokens.alex:822-823
  | .variableDeclarations =>
    [[.part (.tok .variableDeclaration) .one, .part (.tok .commaVariableDeclaration) .star]]
  -- tokens.alex:832-833
  | .commaVariableDeclaration =>
    [[.part (.rule "COMMA") .one, .part (.tok .variableDeclaration) .one]]
  -- tokens.alex:840-841
  | .variableDeclaration =>
    [[.part (.tok .declarativeType) .one, .part (.tok .variableName) .one]]
  -- tokens.alex:850-853
  | .declarativeType =>
    [[.part (.tok .primitiveType) .one],
     [.part (.tok .computableType) .one],
     [.part (.tok .listType) .one]]
  -- tokens.alex:866-867
  | .listType =>
    [[.part (.rule "LIST") .one, .part (.rule "LESS") .one, .part (.tok .declarativeType) .one, .part (.rule "MORE") .one]]
  -- tokens.alex:878-880
  | .primitiveType =>
    [[.part (.rule "BOOL") .one],
     [.part (.rule "STRING") .one]]
  -- tokens.alex:890-893
  | .computableType =>
    [[.part (.rule "FLOAT") .one],
     [.part (.rule "UINT") .one],
     [.part (.rule "INT") .one]]
  -- tokens.alex:904-905
  | .variableName =>
    [[.switch, .part (.rule "FIRST_LETTER") .one, .part (.rule "MIN_MAJ_LETTERS") .one]]

/-- The cardinality as the adapter reads it. -/
def Rep.card : Rep → Option Cardinality.Card
  | .one => none
  | .opt => some .optional
  | .plus => some .nonZeroMultiple
  | .star => some .zeroMultiple
  | .times n => some (.specific (.amount (UInt64.ofNat n)))

/-- The specifier as the adapter reads it. -/
def specsOf : Option (Kind × Nat) → List GSpec
  | none => []
  | some (k, n) => [⟨.token k.name, .amount (UInt64.ofNat n)⟩]

/-- The instruction is the piece: the switch, or the token with its specifiers, or the rule with this name, with the cardinality. -/
def PieceIs (rules : RuleSet) : Piece → GInstr → Prop
  | .switch, i => i = .channelSwitch
  | .part (.tok k) rep spec, i => ∃ e, i = .element e ∧ e.card = rep.card ∧ e.content = .token k.name (specsOf spec)
  | .part (.rule s) rep _, i => ∃ e r, i = .element e ∧ e.card = rep.card ∧ e.content = .rule r ∧ rules.find (lit s) = .ok r

/-- The token is the one written: its lines have the pieces in their order. There is no `not` part. -/
def TokenIs (rules : RuleSet) (k : Kind) (t : GToken) : Prop :=
  t.name = k.name ∧ t.not = none ∧ List.Forall₂ (List.Forall₂ (PieceIs rules)) (source k) t.must

/-- A channel: one line with one rule. -/
def ChannelIs (rules : RuleSet) (x : String × String) (t : GToken) : Prop :=
  t.name = lit x.1 ∧ t.not = none ∧ t.tests = none ∧ ∃ r e, t.must = [[.element e]] ∧ e.content = .rule r ∧ e.card = none ∧ rules.find (lit x.2) = .ok r

/-! ## The view of the parser (`Model/BaseGrammar`) -/

/-- The numbers of children in the tree for the parts of a line with a symbol: a token has one child for each repetition, all the repetitions of
a rule are one text (`lexers/asts/adapter.go:224-241`). -/
def Rep.Children : Rep → Sym → Nat → Prop
  | .one, _, n => n = 1
  | .opt, _, n => n ≤ 1
  | .plus, .tok _, n => 1 ≤ n
  | .plus, .rule _, n => n = 1
  | .star, .tok _, _ => True
  | .star, .rule _, n => n ≤ 1
  | .times m, .tok _, n => n = m
  | .times m, .rule _, n => n = min m 1

/-- The repetitions of the parts with a symbol. -/
def repsOf (l : List Piece) (s : Sym) : List Rep := l.filterMap fun
  | .part t rep _ => if t = s then some rep else none
  | .switch => none
/-- The numbers of children of a symbol which a line asks for: the sum over its parts with this symbol. -/
def LineAllows (l : List Piece) (s : Sym) (m : Nat) : Prop :=
  ∃ counts : List Nat, List.Forall₂ (fun rep n => rep.Children s n) (repsOf l s) counts ∧ counts.sum = m

/-- The line of `grammar` is the view of the line of the source: the same symbols, and the same numbers of children. -/
def ViewOf (g : List (Sym × Card)) (l : List Piece) : Prop :=
  (g.map Prod.fst).Nodup ∧ (∀ s, s ∈ g.map Prod.fst ↔ ∃ rep spec, .part s rep spec ∈ l) ∧ ∀ p ∈ g, ∀ m, p.2.Allows m ↔ LineAllows l p.1 m

end Verif.Base
