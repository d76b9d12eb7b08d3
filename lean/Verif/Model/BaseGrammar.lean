import Verif.Model.BaseEvents

/-!
# The grammar of the base language (`domain/languages/scripts/resources/base/tokens.alex`)

The grammar file as data: the tokens, and for each token its lines with the elements and their cardinalities. Elements which occur
several times in a line are joined (the root tree has one node for each name, C45). The cardinalities count the children in the tree of
the text: a token has one child for each occurrence, but the repetitions of one rule (`EQUAL{2}`) are a single text in the tree
(`domain/languages/lexers/asts/adapter.go:225-239`). That this table is the view of the shipped texts is C91 (`C91_view`). The quotation
marks and the specifier of `forStatement` (lines 211) are described where they are used.
-/

namespace Verif.Base
open Verif.Patterns Verif.Lexer

/-- The tokens of `tokens.alex`. `scripts/resources/base/tokens.alex`; their events are the keys of `parsers/helper.go:50-1178`. -/
inductive Kind where
  | program
  | headerVariables
  | headerVariable
  | inputOutput
  | instructions
  | instruction
  | direction
  | voidFuncCalls
  | logFuncCall
  | listAppend
  | slice
  | sliceDelimiter
  | indexValue
  | forDeclaration
  | forStatement
  | ifDeclaration
  | ifOperation
  | operation
  | operationWithSuffix
  | operationSuffix
  | operationElement
  | operationFuncCalls
  | isNullFuncCall
  | operator
  | operatorArithmetic
  | operatorRelational
  | operatorLogical
  | assignment
  | assignee
  | assigneeNameFirsts
  | commaAssigneeFirst
  | assigneeNameFirst
  | assigneeNames
  | commaAssigneeName
  | assigneeName
  | assignables
  | commaAssignable
  | assignable
  | singleAssignable
  | listFetchElement
  | listElementFetcher
  | listAssignableToAssignables
  | totalListValue
  | totalListAssignable
  | listValue
  | listAssignable
  | intIncrement
  | intIncrementValue
  | declarableValue
  | computableValue
  | primitiveValue
  | stringValue
  | boolValue
  | intValue
  | floatValue
  | variableDeclarations
  | commaVariableDeclaration
  | variableDeclaration
  | declarativeType
  | listType
  | primitiveType
  | computableType
  | variableName
deriving DecidableEq

/-- The names of the tokens. The keys of `parsers/helper.go:50-1178`. -/
def Kind.name : Kind → Str
  | .program => lit "program"
  | .headerVariables => lit "headerVariables"
  | .headerVariable => lit "headerVariable"
  | .inputOutput => lit "inputOutput"
  | .instructions => lit "instructions"
  | .instruction => lit "instruction"
  | .direction => lit "direction"
  | .voidFuncCalls => lit "voidFuncCalls"
  | .logFuncCall => lit "logFuncCall"
  | .listAppend => lit "listAppend"
  | .slice => lit "slice"
  | .sliceDelimiter => lit "sliceDelimiter"
  | .indexValue => lit "indexValue"
  | .forDeclaration => lit "forDeclaration"
  | .forStatement => lit "forStatement"
  | .ifDeclaration => lit "ifDeclaration"
  | .ifOperation => lit "ifOperation"
  | .operation => lit "operation"
  | .operationWithSuffix => lit "operationWithSuffix"
  | .operationSuffix => lit "operationSuffix"
  | .operationElement => lit "operationElement"
  | .operationFuncCalls => lit "operationFuncCalls"
  | .isNullFuncCall => lit "isNullFuncCall"
  | .operator => lit "operator"
  | .operatorArithmetic => lit "operatorArithmetic"
  | .operatorRelational => lit "operatorRelational"
  | .operatorLogical => lit "operatorLogical"
  | .assignment => lit "assignment"
  | .assignee => lit "assignee"
  | .assigneeNameFirsts => lit "assigneeNameFirsts"
  | .commaAssigneeFirst => lit "commaAssigneeFirst"
  | .assigneeNameFirst => lit "assigneeNameFirst"
  | .assigneeNames => lit "assigneeNames"
  | .commaAssigneeName => lit "commaAssigneeName"
  | .assigneeName => lit "assigneeName"
  | .assignables => lit "assignables"
  | .commaAssignable => lit "commaAssignable"
  | .assignable => lit "assignable"
  | .singleAssignable => lit "singleAssignable"
  | .listFetchElement => lit "listFetchElement"
  | .listElementFetcher => lit "listElementFetcher"
  | .listAssignableToAssignables => lit "listAssignableToAssignables"
  | .totalListValue => lit "totalListValue"
  | .totalListAssignable => lit "totalListAssignable"
  | .listValue => lit "listValue"
  | .listAssignable => lit "listAssignable"
  | .intIncrement => lit "intIncrement"
  | .intIncrementValue => lit "intIncrementValue"
  | .declarableValue => lit "declarableValue"
  | .computableValue => lit "computableValue"
  | .primitiveValue => lit "primitiveValue"
  | .stringValue => lit "stringValue"
  | .boolValue => lit "boolValue"
  | .intValue => lit "intValue"
  | .floatValue => lit "floatValue"
  | .variableDeclarations => lit "variableDeclarations"
  | .commaVariableDeclaration => lit "commaVariableDeclaration"
  | .variableDeclaration => lit "variableDeclaration"
  | .declarativeType => lit "declarativeType"
  | .listType => lit "listType"
  | .primitiveType => lit "primitiveType"
  | .computableType => lit "computableType"
  | .variableName => lit "variableName"

/-- An element of a line: a token or a rule. `containers/tokens/content.go`. -/
inductive Sym where
  | tok (k : Kind)
  | rule (name : String)
deriving DecidableEq

/-- The name of a token or of a rule, as given to `nodes.Exists` (`parsers/helper.go:50-1178`). -/
def Sym.name : Sym → Str
  | .tok k => k.name
  | .rule s => lit s

/-- A cardinality. `cardinality/cardinality.go:3-9`, for the cardinalities of `tokens.alex`. -/
inductive Card where
  | one
  | opt
  | star
  | plus
  | between (min max : Nat)
deriving DecidableEq

/-- The numbers of containers which a cardinality allows. `cardinality/cardinality.go:50-59`. -/
def Card.Allows : Card → Nat → Prop
  | .one, n => n = 1
  | .opt, n => n ≤ 1
  | .star, _ => True
  | .plus, n => 1 ≤ n
  | .between a b, n => a ≤ n ∧ n ≤ b

/-- The lines of the tokens (`tokens.alex`, the lines of the file are given for each token). Read by `containers/tokens/adapter.go:216-268`. -/
def grammar : Kind → List (List (Sym × Card))
  -- tokens.alex:1-2
  | .program =>
    [[(.tok .headerVariables, .opt), (.tok .instructions, .one)]]
  -- tokens.alex:17-18
  | .headerVariables =>
    [[(.tok .headerVariable, .plus)]]
  -- tokens.alex:27-28
  | .headerVariable =>
    [[(.tok .inputOutput, .one), (.tok .variableDeclaration, .one), (.rule "COLON", .one), (.rule "KEYNAME_PATTERN", .one), (.rule "QUESTION_MARK", .opt)]]
  -- tokens.alex:41-43
  | .inputOutput =>
    [[(.rule "RIGHT_ARROW", .one)],
     [(.rule "LEFT_ARROW", .one)]]
  -- tokens.alex:52-53
  | .instructions =>
    [[(.tok .instruction, .plus)]]
  -- tokens.alex:64-71
  | .instruction =>
    [[(.tok .assignment, .one)],
     [(.tok .variableDeclaration, .one)],
     [(.tok .ifDeclaration, .one)],
     [(.tok .forDeclaration, .one)],
     [(.tok .voidFuncCalls, .one)],
     [(.tok .direction, .one)],
     [(.tok .intIncrement, .one)]]
  -- tokens.alex:96-98
  | .direction =>
    [[(.rule "BREAK", .one)],
     [(.rule "CONTINUE", .one)]]
  -- tokens.alex:107-108
  | .voidFuncCalls =>
    [[(.tok .logFuncCall, .one)]]
  -- tokens.alex:115-116
  | .logFuncCall =>
    [[(.rule "LOG_FUNC", .one), (.rule "OPEN_PARENTHESIS", .one), (.tok .assignable, .one), (.rule "CLOSE_PARENTHESIS", .one)]]
  -- tokens.alex:123-124
  | .listAppend =>
    [[(.rule "APPEND", .one), (.tok .listValue, .one), (.rule "COMMA", .one), (.tok .singleAssignable, .one)]]
  -- tokens.alex:135-136
  | .slice =>
    [[(.tok .listValue, .one), (.rule "OPEN_SQUARE_BRACKET", .one), (.tok .sliceDelimiter, .one), (.rule "CLOSE_SQUARE_BRACKET", .one)]]
  -- tokens.alex:149-150
  | .sliceDelimiter =>
    [[(.tok .indexValue, .between 1 2), (.rule "COLON", .one)]]
  -- tokens.alex:171-173
  | .indexValue =>
    [[(.rule "INT_PATTERN", .one)],
     [(.tok .variableName, .one)]]
  -- tokens.alex:182-183
  | .forDeclaration =>
    [[(.rule "FOR", .one), (.tok .forStatement, .one), (.rule "OPEN_BRACKET", .one), (.tok .instructions, .opt), (.rule "CLOSE_BRACKET", .one)]]
  -- tokens.alex:210-212
  | .forStatement =>
    [[(.tok .assigneeNames, .one), (.rule "COLON", .one), (.rule "EQUAL", .one), (.tok .totalListValue, .one)],
     [(.rule "OPEN_PARENTHESIS", .one), (.tok .forStatement, .one), (.rule "CLOSE_PARENTHESIS", .one)]]
  -- tokens.alex:231-232
  | .ifDeclaration =>
    [[(.tok .ifOperation, .one), (.rule "OPEN_BRACKET", .one), (.tok .instructions, .opt), (.rule "CLOSE_BRACKET", .one)]]
  -- tokens.alex:250-251
  | .ifOperation =>
    [[(.rule "IF", .one), (.tok .operation, .one)]]
  -- tokens.alex:264-267
  | .operation =>
    [[(.tok .operationWithSuffix, .one)],
     [(.tok .operationFuncCalls, .one)],
     [(.rule "OPEN_PARENTHESIS", .one), (.tok .operation, .one), (.rule "CLOSE_PARENTHESIS", .one)]]
  -- tokens.alex:284-285
  | .operationWithSuffix =>
    [[(.tok .operationElement, .one), (.tok .operationSuffix, .opt)]]
  -- tokens.alex:302-303
  | .operationSuffix =>
    [[(.tok .operator, .one), (.tok .operationElement, .one)]]
  -- tokens.alex:314-318
  | .operationElement =>
    [[(.tok .boolValue, .one)],
     [(.tok .variableName, .one)],
     [(.tok .computableValue, .one)],
     [(.tok .operation, .one)]]
  -- tokens.alex:335-336
  | .operationFuncCalls =>
    [[(.tok .isNullFuncCall, .one)]]
  -- tokens.alex:343-344
  | .isNullFuncCall =>
    [[(.rule "IS_NULL_FUNC", .one), (.rule "OPEN_PARENTHESIS", .one), (.tok .operation, .one), (.rule "CLOSE_PARENTHESIS", .one)]]
  -- tokens.alex:351-354
  | .operator =>
    [[(.tok .operatorArithmetic, .one)],
     [(.tok .operatorRelational, .one)],
     [(.tok .operatorLogical, .one)]]
  -- tokens.alex:365-369
  | .operatorArithmetic =>
    [[(.rule "PLUS", .one)],
     [(.rule "MINUS", .one)],
     [(.rule "STAR", .one)],
     [(.rule "DIV", .one)]]
  -- tokens.alex:382-386
  | .operatorRelational =>
    [[(.rule "LESS", .one), (.rule "EQUAL", .opt)],
     [(.rule "MORE", .one), (.rule "EQUAL", .opt)],
     [(.rule "EXCLAMATION", .one), (.rule "EQUAL", .one)],
     [(.rule "EQUAL", .one)]]
  -- tokens.alex:403-405
  | .operatorLogical =>
    [[(.rule "AND", .one)],
     [(.rule "PIPE", .one)]]
  -- tokens.alex:414-415
  | .assignment =>
    [[(.tok .assignee, .one), (.tok .assignables, .one)]]
  -- tokens.alex:432-434
  | .assignee =>
    [[(.tok .assigneeNameFirsts, .one), (.rule "COLON", .one), (.rule "EQUAL", .one)],
     [(.tok .assigneeNames, .one), (.rule "EQUAL", .one)]]
  -- tokens.alex:451-452
  | .assigneeNameFirsts =>
    [[(.tok .assigneeNameFirst, .one), (.tok .commaAssigneeFirst, .star)]]
  -- tokens.alex:461-462
  | .commaAssigneeFirst =>
    [[(.rule "COMMA", .one), (.tok .assigneeNameFirst, .one)]]
  -- tokens.alex:473-475
  | .assigneeNameFirst =>
    [[(.tok .variableDeclaration, .one)],
     [(.tok .assigneeName, .one)]]
  -- tokens.alex:486-487
  | .assigneeNames =>
    [[(.tok .assigneeName, .one), (.tok .commaAssigneeName, .star)]]
  -- tokens.alex:500-501
  | .commaAssigneeName =>
    [[(.rule "COMMA", .one), (.tok .assigneeName, .one)]]
  -- tokens.alex:510-512
  | .assigneeName =>
    [[(.tok .variableName, .one)],
     [(.rule "UNDERSCORE", .one)]]
  -- tokens.alex:521-522
  | .assignables =>
    [[(.tok .assignable, .one), (.tok .commaAssignable, .star)]]
  -- tokens.alex:531-532
  | .commaAssignable =>
    [[(.rule "COMMA", .one), (.tok .assignable, .one)]]
  -- tokens.alex:541-543
  | .assignable =>
    [[(.tok .totalListAssignable, .one)],
     [(.tok .singleAssignable, .one)]]
  -- tokens.alex:576-580
  | .singleAssignable =>
    [[(.tok .declarableValue, .one)],
     [(.tok .operation, .one)],
     [(.tok .listAssignableToAssignables, .one)],
     [(.tok .listFetchElement, .one)]]
  -- tokens.alex:607-608
  | .listFetchElement =>
    [[(.tok .totalListValue, .one), (.tok .listElementFetcher, .one)]]
  -- tokens.alex:626-627
  | .listElementFetcher =>
    [[(.rule "OPEN_SQUARE_BRACKET", .one), (.tok .indexValue, .one), (.rule "CLOSE_SQUARE_BRACKET", .one)]]
  -- tokens.alex:638-640
  | .listAssignableToAssignables =>
    [[(.tok .totalListAssignable, .one), (.rule "DOT", .one)],
     [(.rule "OPEN_PARENTHESIS", .one), (.tok .totalListAssignable, .one), (.rule "CLOSE_PARENTHESIS", .one), (.rule "DOT", .one)]]
  -- tokens.alex:663-665
  | .totalListValue =>
    [[(.tok .variableName, .one)],
     [(.tok .totalListAssignable, .one)]]
  -- tokens.alex:685-688
  | .totalListAssignable =>
    [[(.tok .listValue, .one)],
     [(.tok .slice, .one)],
     [(.tok .listAppend, .one)]]
  -- tokens.alex:706-708
  | .listValue =>
    [[(.tok .listAssignable, .one)],
     [(.tok .variableName, .one)]]
  -- tokens.alex:717-718
  | .listAssignable =>
    [[(.rule "OPEN_SQUARE_BRACKET", .one), (.tok .assignables, .opt), (.rule "CLOSE_SQUARE_BRACKET", .one)]]
  -- tokens.alex:727-728
  | .intIncrement =>
    [[(.tok .variableName, .one), (.tok .intIncrementValue, .one)]]
  -- tokens.alex:737-739
  | .intIncrementValue =>
    [[(.rule "PLUS", .between 2 2)],
     [(.rule "MINUS", .between 2 2)]]
  -- tokens.alex:748-750
  | .declarableValue =>
    [[(.tok .computableValue, .one)],
     [(.tok .primitiveValue, .one)]]
  -- tokens.alex:759-761
  | .computableValue =>
    [[(.tok .floatValue, .one)],
     [(.tok .intValue, .one)]]
  -- tokens.alex:770-772
  | .primitiveValue =>
    [[(.tok .boolValue, .one)],
     [(.tok .stringValue, .one)]]
  -- tokens.alex:781-782
  | .stringValue =>
    [[(.rule "QUOTATION", .between 2 2), (.rule "EVERYTHING_EXCEPT_QUOTATION", .one)]]
  -- tokens.alex:791-793
  | .boolValue =>
    [[(.rule "TRUE", .one)],
     [(.rule "FALSE", .one)]]
  -- tokens.alex:802-803
  | .intValue =>
    [[(.rule "MINUS", .opt), (.rule "INT_PATTERN", .one)]]
  -- tokens.alex:812-813
  | .floatValue =>
    [[(.rule "MINUS", .opt), (.rule "INT_PATTERN", .between 2 2), (.rule "DOT", .one)]]
  -- tokens.alex:822-823
  | .variableDeclarations =>
    [[(.tok .variableDeclaration, .one), (.tok .commaVariableDeclaration, .star)]]
  -- tokens.alex:832-833
  | .commaVariableDeclaration =>
    [[(.rule "COMMA", .one), (.tok .variableDeclaration, .one)]]
  -- tokens.alex:840-841
  | .variableDeclaration =>
    [[(.tok .declarativeType, .one), (.tok .variableName, .one)]]
  -- tokens.alex:850-853
  | .declarativeType =>
    [[(.tok .primitiveType, .one)],
     [(.tok .computableType, .one)],
     [(.tok .listType, .one)]]
  -- tokens.alex:866-867
  | .listType =>
    [[(.rule "LIST", .one), (.rule "LESS", .one), (.tok .declarativeType, .one), (.rule "MORE", .one)]]
  -- tokens.alex:878-880
  | .primitiveType =>
    [[(.rule "BOOL", .one)],
     [(.rule "STRING", .one)]]
  -- tokens.alex:890-893
  | .computableType =>
    [[(.rule "FLOAT", .one)],
     [(.rule "UINT", .one)],
     [(.rule "INT", .one)]]
  -- tokens.alex:904-905
  | .variableName =>
    [[(.rule "FIRST_LETTER", .one), (.rule "MIN_MAJ_LETTERS", .one)]]

/-- The event registered for a token (`parsers/helper.go:50-1178`). -/
def evOf (cfg : Cfg) : Kind → Event BVal
  | .program => evProgram
  | .headerVariables => evHeaderVariables
  | .headerVariable => evHeaderVariable
  | .inputOutput => evInputOutput
  | .instructions => evInstructions
  | .instruction => evInstruction
  | .direction => evDirection
  | .voidFuncCalls => evVoidFuncCalls
  | .logFuncCall => evLogFuncCall
  | .listAppend => evListAppend
  | .slice => evSlice
  | .sliceDelimiter => evSliceDelimiter
  | .indexValue => evIndexValue cfg
  | .forDeclaration => evForDeclaration
  | .forStatement => evForStatement
  | .ifDeclaration => evIfDeclaration
  | .ifOperation => evIfOperation
  | .operation => evOperation
  | .operationWithSuffix => evOperationWithSuffix
  | .operationSuffix => evOperationSuffix
  | .operationElement => evOperationElement
  | .operationFuncCalls => evOperationFuncCalls
  | .isNullFuncCall => evIsNullFuncCall
  | .operator => evOperator
  | .operatorArithmetic => evOperatorArithmetic
  | .operatorRelational => evOperatorRelational
  | .operatorLogical => evOperatorLogical
  | .assignment => evAssignment
  | .assignee => evAssignee
  | .assigneeNameFirsts => evAssigneeNameFirsts
  | .commaAssigneeFirst => evCommaAssigneeFirst
  | .assigneeNameFirst => evAssigneeNameFirst
  | .assigneeNames => evAssigneeNames
  | .commaAssigneeName => evCommaAssigneeName
  | .assigneeName => evAssigneeName
  | .assignables => evAssignables
  | .commaAssignable => evCommaAssignable
  | .assignable => evAssignable
  | .singleAssignable => evSingleAssignable
  | .listFetchElement => evListFetchElement
  | .listElementFetcher => evListElementFetcher
  | .listAssignableToAssignables => evListAssignableToAssignables
  | .totalListValue => evTotalListValue
  | .totalListAssignable => evTotalListAssignable
  | .listValue => evListValue
  | .listAssignable => evListAssignable
  | .intIncrement => evIntIncrement
  | .intIncrementValue => evIntIncrementValue
  | .declarableValue => evDeclarableValue
  | .computableValue => evComputableValue
  | .primitiveValue => evPrimitiveValue
  | .stringValue => evStringValue
  | .boolValue => evBoolValue
  | .intValue => evIntValue cfg
  | .floatValue => evFloatValue cfg
  | .variableDeclarations => evVariableDeclarations
  | .commaVariableDeclaration => evCommaVariableDeclaration
  | .variableDeclaration => evVariableDeclaration
  | .declarativeType => evDeclarativeType
  | .listType => evListType
  | .primitiveType => evPrimitiveType
  | .computableType => evComputableType
  | .variableName => evVariableName

end Verif.Base
