import Verif.Spec.BaseParser

/-!
# Specification: the object which is written in a tree of the base language

`Written cfg k r v` says that the object written in the tree `r` of a text of the token `k` is `v`. There is a clause for every line of
the grammar; it uses the own parts of the root only: the parts of its line, their objects, the texts of its rules, and which rules
are there. It does not mention events, the manager, searching or builders.
-/

namespace Verif.Base
open Verif.Patterns Verif.Lexer

set_option inductive.autoPromoteIndices false

/-- The only part of a token in a root, and its object. -/
inductive Has (W : Kind → Root → V → Prop) : Root → Kind → V → Prop where
  | mk {r u : Root} {k : Kind} {v : V} : Child r k.name u → W k u v → Has W r k v

/-- The trees of a list and their objects, place by place. -/
inductive Each (W : Kind → Root → V → Prop) : Kind → List Root → List V → Prop where
  | nil {k : Kind} : Each W k [] []
  | cons {k : Kind} {u : Root} {us : List Root} {v : V} {vs : List V} : W k u v → Each W k us vs → Each W k (u :: us) (v :: vs)

/-- The parts of a token in a root, and their objects. -/
inductive HasAll (W : Kind → Root → V → Prop) : Root → Kind → List V → Prop where
  | mk {r : Root} {us : List Root} {k : Kind} {vs : List V} : Children r k.name us → Each W k us vs → HasAll W r k vs

/-- A part which may be missing. -/
inductive HasOpt (W : Kind → Root → V → Prop) : Root → Kind → Option V → Prop where
  | none {r : Root} {k : Kind} : r.exists k.name = false → HasOpt W r k none
  | some {r : Root} {k : Kind} {v : V} : Has W r k v → HasOpt W r k (some v)

/-- The parts of a token in a root, possibly none, and their objects. -/
inductive HasAny (W : Kind → Root → V → Prop) : Root → Kind → List V → Prop where
  | none {r : Root} {k : Kind} : r.exists k.name = false → HasAny W r k []
  | some {r : Root} {k : Kind} {vs : List V} : HasAll W r k vs → HasAny W r k vs

/-- The numbers of the language: an unsigned integer, an integer, a float, a boolean, a text. -/
def uintValue (n : Nat) : Value := ⟨⟨0, integerFlag ||| unsignedFlag⟩, .uint n⟩
def intValue (n : Int) : Value := ⟨⟨0, integerFlag⟩, .int n⟩
def floatValue (bits : Nat) : Value := ⟨⟨0, floatFlag⟩, .float bits⟩
def boolValue (b : Bool) : Value := ⟨⟨0, boolFlag⟩, .bool b⟩
def textValue (s : Str) : Value := ⟨⟨0, stringFlag⟩, .str s⟩

/-- The object written in a tree. -/
inductive Written (cfg : Cfg) : Kind → Root → V → Prop where
  /-- The instructions, and the variables of the header, if there is one. -/
  | program {r : Root} {l : List Instruction} {h : Option (List HeaderVariable)} :
      HasOpt (Written cfg) r .headerVariables (h.map fun l => .other (.headers l)) →
      Has (Written cfg) r .instructions (.other (.instructions l)) → Written cfg .program r (.other (.program ⟨l, h⟩))
  /-- The variables of the header, in their order. -/
  | headers {r : Root} {l : List HeaderVariable} :
      HasAll (Written cfg) r .headerVariable (l.map fun x => .other (.header x)) → Written cfg .headerVariables r (.other (.headers l))
  /-- `-> type name : key`; a question mark makes the variable optional. -/
  | header {r : Root} {isInput : Bool} {d : VarDecl} {key : Str} :
      Has (Written cfg) r .inputOutput (.other (.bool isInput)) → Has (Written cfg) r .variableDeclaration (.other (.decl d)) →
      Texts r (lit "KEYNAME_PATTERN") [key] →
      Written cfg .headerVariable r (.other (.header ⟨!r.exists (lit "QUESTION_MARK"), isInput, d, key⟩))
  | input {r : Root} : r.exists (lit "RIGHT_ARROW") = true → Written cfg .inputOutput r (.other (.bool true))
  | output {r : Root} : r.exists (lit "LEFT_ARROW") = true → Written cfg .inputOutput r (.other (.bool false))
  /-- The instructions, in their order. -/
  | instructions {r : Root} {l : List Instruction} :
      HasAll (Written cfg) r .instruction (l.map fun x => .other (.instruction x)) → Written cfg .instructions r (.other (.instructions l))
  | instrAssignment {r : Root} {a : Assignment} : Has (Written cfg) r .assignment (.other (.assignment a)) →
      Written cfg .instruction r (.other (.instruction (.assignment a)))
  | instrDeclaration {r : Root} {d : VarDecl} : Has (Written cfg) r .variableDeclaration (.other (.decl d)) →
      Written cfg .instruction r (.other (.instruction (.declaration d)))
  | instrIf {r : Root} {c : Operation} {b : Option (List Instruction)} : Has (Written cfg) r .ifDeclaration (.other (.ifDecl (c, b))) →
      Written cfg .instruction r (.other (.instruction (.ifDecl c b)))
  | instrFor {r : Root} {s : ForStatement} {b : Option (List Instruction)} : Has (Written cfg) r .forDeclaration (.other (.forDecl (s, b))) →
      Written cfg .instruction r (.other (.instruction (.forDecl s b)))
  | instrCall {r : Root} {c : VoidFuncCall} : Has (Written cfg) r .voidFuncCalls (.other (.voidCall c)) →
      Written cfg .instruction r (.other (.instruction (.call c)))
  | instrDirection {r : Root} {d : Direction} : Has (Written cfg) r .direction (.other (.direction d)) →
      Written cfg .instruction r (.other (.instruction (.direction d)))
  | instrIncrement {r : Root} {i : IntIncrement} : Has (Written cfg) r .intIncrement (.other (.increment i)) →
      Written cfg .instruction r (.other (.instruction (.increment i)))
  | brk {r : Root} : r.exists (lit "BREAK") = true → Written cfg .direction r (.other (.direction .brk))
  | cont {r : Root} : r.exists (lit "CONTINUE") = true → Written cfg .direction r (.other (.direction .cont))
  | voidCall {r : Root} {a : Assignable} : Has (Written cfg) r .logFuncCall (.other (.assignable a)) →
      Written cfg .voidFuncCalls r (.other (.voidCall (.log a)))
  | logCall {r : Root} {v : V} : Has (Written cfg) r .assignable v → Written cfg .logFuncCall r v
  /-- `append list , element`. -/
  | listAppend {r : Root} {l : ListValue} {s : SingleAssignable} : Has (Written cfg) r .listValue (.other (.listValue l)) →
      Has (Written cfg) r .singleAssignable (.other (.single s)) → Written cfg .listAppend r (.other (.append (.mk l s)))
  /-- `list[delimiter]`. -/
  | slice {r : Root} {l : ListValue} {d : SliceDelimiter} : Has (Written cfg) r .listValue (.other (.listValue l)) →
      Has (Written cfg) r .sliceDelimiter (.other (.delimiter d)) → Written cfg .slice r (.other (.slice (.mk l d)))
  /-- `index:` and `index:amount`. -/
  | delimiterOne {r : Root} {a : IndexValue} : HasAll (Written cfg) r .indexValue [.other (.index a)] →
      Written cfg .sliceDelimiter r (.other (.delimiter ⟨a, none⟩))
  | delimiterTwo {r : Root} {a b : IndexValue} : HasAll (Written cfg) r .indexValue [.other (.index a), .other (.index b)] →
      Written cfg .sliceDelimiter r (.other (.delimiter ⟨a, some b⟩))
  | indexNumber {r : Root} {s : Str} {n : Nat} : Texts r (lit "INT_PATTERN") [s] → DecimalText s n →
      Written cfg .indexValue r (.other (.index (.value (uintValue n))))
  | indexVariable {r : Root} {s : Str} : Has (Written cfg) r .variableName (.text s) → Written cfg .indexValue r (.other (.index (.var s)))
  /-- `for statement { instructions }`; the block may be empty. -/
  | forDecl {r : Root} {s : ForStatement} {b : Option (List Instruction)} : Has (Written cfg) r .forStatement (.other (.forStatement s)) →
      HasOpt (Written cfg) r .instructions (b.map fun l => .other (.instructions l)) →
      Written cfg .forDeclaration r (.other (.forDecl (s, b)))
  /-- `index, value := list`; further names are ignored. -/
  | forStatement {r : Root} {a b : AssigneeName} {ns : List AssigneeName} {l : TotalListValue} :
      Has (Written cfg) r .assigneeNames (.other (.assigneeNames (a :: b :: ns))) → Has (Written cfg) r .totalListValue (.other (.totalValue l)) →
      Written cfg .forStatement r (.other (.forStatement ⟨a, b, l⟩))
  | forParentheses {r : Root} {v : V} : Has (Written cfg) r .forStatement v → Written cfg .forStatement r v
  /-- `if condition { instructions }`; the block may be empty. -/
  | ifDecl {r : Root} {c : Operation} {b : Option (List Instruction)} : Has (Written cfg) r .ifOperation (.other (.operation c)) →
      HasOpt (Written cfg) r .instructions (b.map fun l => .other (.instructions l)) → Written cfg .ifDeclaration r (.other (.ifDecl (c, b)))
  | ifOperation {r : Root} {v : V} : Has (Written cfg) r .operation v → Written cfg .ifOperation r v
  | operation {r : Root} {v : V} : Has (Written cfg) r .operationWithSuffix v → Written cfg .operation r v
  | operationCall {r : Root} {c : OpCall} : Has (Written cfg) r .operationFuncCalls (.other (.opCall c)) →
      Written cfg .operation r (.other (.operation (.plain (.call c))))
  | operationParentheses {r : Root} {v : V} : Has (Written cfg) r .operation v → Written cfg .operation r v
  /-- `left operator right`, with the element and the suffix. -/
  | suffixed {r : Root} {e : OpElement} {s : OpSuffix} : Has (Written cfg) r .operationElement (.other (.element e)) →
      Has (Written cfg) r .operationSuffix (.other (.suffix s)) → Written cfg .operationWithSuffix r (.other (.operation (.suffixed e s)))
  /-- An element alone; an operation as an element is not wrapped again. -/
  | plain {r : Root} {e : OpElement} : Has (Written cfg) r .operationElement (.other (.element e)) → r.exists (lit "operationSuffix") = false →
      (∀ o, e ≠ .op o) → Written cfg .operationWithSuffix r (.other (.operation (.plain e)))
  | inner {r : Root} {o : Operation} : Has (Written cfg) r .operationElement (.other (.element (.op o))) →
      r.exists (lit "operationSuffix") = false → Written cfg .operationWithSuffix r (.other (.operation o))
  | suffix {r : Root} {o : Nat} {e : OpElement} : Has (Written cfg) r .operator (.other (.flag16 o)) →
      Has (Written cfg) r .operationElement (.other (.element e)) → Written cfg .operationSuffix r (.other (.suffix (.mk o e)))
  | elementBool {r : Root} {b : Bool} : Has (Written cfg) r .boolValue (.other (.value (boolValue b))) →
      Written cfg .operationElement r (.other (.element (.bool b)))
  | elementVariable {r : Root} {s : Str} : Has (Written cfg) r .variableName (.text s) →
      Written cfg .operationElement r (.other (.element (.var s)))
  | elementValue {r : Root} {v : Value} : Has (Written cfg) r .computableValue (.other (.value v)) →
      Written cfg .operationElement r (.other (.element (.value v)))
  | elementOperation {r : Root} {o : Operation} : Has (Written cfg) r .operation (.other (.operation o)) →
      Written cfg .operationElement r (.other (.element (.op o)))
  | funcCall {r : Root} {o : Operation} : Has (Written cfg) r .isNullFuncCall (.other (.operation o)) →
      Written cfg .operationFuncCalls r (.other (.opCall (.isNull o)))
  | isNull {r : Root} {v : V} : Has (Written cfg) r .operation v → Written cfg .isNullFuncCall r v
  | operatorA {r : Root} {v : V} : Has (Written cfg) r .operatorArithmetic v → Written cfg .operator r v
  | operatorR {r : Root} {v : V} : Has (Written cfg) r .operatorRelational v → Written cfg .operator r v
  | operatorL {r : Root} {v : V} : Has (Written cfg) r .operatorLogical v → Written cfg .operator r v
  | arithmetic {r : Root} {op : Operator} : op.written.1 = "operatorArithmetic" → OperatorRules r op →
      Written cfg .operatorArithmetic r (.other (.flag16 op.number))
  | relational {r : Root} {op : Operator} : op.written.1 = "operatorRelational" → OperatorRules r op →
      Written cfg .operatorRelational r (.other (.flag16 op.number))
  | logical {r : Root} {op : Operator} : op.written.1 = "operatorLogical" → OperatorRules r op →
      Written cfg .operatorLogical r (.other (.flag16 op.number))
  /-- `names = values`. -/
  | assignment {r : Root} {a : Assignee} {l : List Assignable} : Has (Written cfg) r .assignee (.other (.assignee a)) →
      Has (Written cfg) r .assignables (.other (.assignables l)) → Written cfg .assignment r (.other (.assignment ⟨a, l⟩))
  | assigneeFirst {r : Root} {l : List AssigneeNameFirst} : Has (Written cfg) r .assigneeNameFirsts (.other (.assigneeFirsts l)) →
      Written cfg .assignee r (.other (.assignee (.first l)))
  | assigneeName {r : Root} {l : List AssigneeName} : Has (Written cfg) r .assigneeNames (.other (.assigneeNames l)) →
      Written cfg .assignee r (.other (.assignee (.name l)))
  /-- Lists with commas: the first element and those after the commas, in their order. -/
  | firsts {r : Root} {a : AssigneeNameFirst} {l : List AssigneeNameFirst} :
      Has (Written cfg) r .assigneeNameFirst (.other (.assigneeFirst a)) →
      HasAny (Written cfg) r .commaAssigneeFirst (l.map fun x => .other (.assigneeFirst x)) →
      Written cfg .assigneeNameFirsts r (.other (.assigneeFirsts (a :: l)))
  | commaFirst {r : Root} {v : V} : Has (Written cfg) r .assigneeNameFirst v → Written cfg .commaAssigneeFirst r v
  | firstDeclaration {r : Root} {d : VarDecl} : Has (Written cfg) r .variableDeclaration (.other (.decl d)) →
      Written cfg .assigneeNameFirst r (.other (.assigneeFirst (.declaration d)))
  | firstName {r : Root} {n : AssigneeName} : Has (Written cfg) r .assigneeName (.other (.assigneeName n)) →
      Written cfg .assigneeNameFirst r (.other (.assigneeFirst (.name n)))
  | names {r : Root} {a : AssigneeName} {l : List AssigneeName} : Has (Written cfg) r .assigneeName (.other (.assigneeName a)) →
      HasAny (Written cfg) r .commaAssigneeName (l.map fun x => .other (.assigneeName x)) →
      Written cfg .assigneeNames r (.other (.assigneeNames (a :: l)))
  | commaName {r : Root} {v : V} : Has (Written cfg) r .assigneeName v → Written cfg .commaAssigneeName r v
  | nameVariable {r : Root} {s : Str} : Has (Written cfg) r .variableName (.text s) → Written cfg .assigneeName r (.other (.assigneeName (.var s)))
  | nameSkip {r : Root} : r.exists (lit "UNDERSCORE") = true → Written cfg .assigneeName r (.other (.assigneeName .skip))
  | assignables {r : Root} {a : Assignable} {l : List Assignable} : Has (Written cfg) r .assignable (.other (.assignable a)) →
      HasAny (Written cfg) r .commaAssignable (l.map fun x => .other (.assignable x)) →
      Written cfg .assignables r (.other (.assignables (a :: l)))
  | commaAssignable {r : Root} {v : V} : Has (Written cfg) r .assignable v → Written cfg .commaAssignable r v
  | assignableList {r : Root} {l : TotalListAssignable} : Has (Written cfg) r .totalListAssignable (.other (.totalAssignable l)) →
      Written cfg .assignable r (.other (.assignable (.list l)))
  | assignableSingle {r : Root} {s : SingleAssignable} : Has (Written cfg) r .singleAssignable (.other (.single s)) →
      Written cfg .assignable r (.other (.assignable (.single s)))
  | singleValue {r : Root} {v : Value} : Has (Written cfg) r .declarableValue (.other (.value v)) →
      Written cfg .singleAssignable r (.other (.single (.value v)))
  | singleOperation {r : Root} {o : Operation} : Has (Written cfg) r .operation (.other (.operation o)) →
      Written cfg .singleAssignable r (.other (.single (.op o)))
  | singleExtract {r : Root} {l : TotalListAssignable} : Has (Written cfg) r .listAssignableToAssignables (.other (.totalAssignable l)) →
      Written cfg .singleAssignable r (.other (.single (.extract l)))
  | singleFetch {r : Root} {f : ListFetchElement} : Has (Written cfg) r .listFetchElement (.other (.fetch f)) →
      Written cfg .singleAssignable r (.other (.single (.fetch f)))
  /-- `list[index]`. -/
  | fetch {r : Root} {l : TotalListValue} {i : IndexValue} : Has (Written cfg) r .totalListValue (.other (.totalValue l)) →
      Has (Written cfg) r .listElementFetcher (.other (.index i)) → Written cfg .listFetchElement r (.other (.fetch (.mk l i)))
  | fetcher {r : Root} {v : V} : Has (Written cfg) r .indexValue v → Written cfg .listElementFetcher r v
  | extract {r : Root} {v : V} : Has (Written cfg) r .totalListAssignable v → Written cfg .listAssignableToAssignables r v
  | totalVariable {r : Root} {s : Str} : Has (Written cfg) r .variableName (.text s) →
      Written cfg .totalListValue r (.other (.totalValue (.var s)))
  | totalAssignable {r : Root} {l : TotalListAssignable} : Has (Written cfg) r .totalListAssignable (.other (.totalAssignable l)) →
      Written cfg .totalListValue r (.other (.totalValue (.assignable l)))
  | totalList {r : Root} {l : ListValue} : Has (Written cfg) r .listValue (.other (.listValue l)) →
      Written cfg .totalListAssignable r (.other (.totalAssignable (.listValue l)))
  | totalSlice {r : Root} {s : Slice} : Has (Written cfg) r .slice (.other (.slice s)) →
      Written cfg .totalListAssignable r (.other (.totalAssignable (.slice s)))
  | totalAppend {r : Root} {a : Append} : Has (Written cfg) r .listAppend (.other (.append a)) →
      Written cfg .totalListAssignable r (.other (.totalAssignable (.append a)))
  | listLiteral {r : Root} {l : List Assignable} : Has (Written cfg) r .listAssignable (.other (.assignables l)) →
      Written cfg .listValue r (.other (.listValue (.assignables l)))
  | listVariable {r : Root} {s : Str} : Has (Written cfg) r .variableName (.text s) → Written cfg .listValue r (.other (.listValue (.var s)))
  /-- `[values]` and `[]`. -/
  | elements {r : Root} {v : V} : Has (Written cfg) r .assignables v → Written cfg .listAssignable r v
  | empty {r : Root} : r.exists (lit "assignables") = false → Written cfg .listAssignable r (.other (.assignables []))
  /-- `name++` and `name--`. -/
  | increment {r : Root} {s : Str} {v : Value} : Has (Written cfg) r .variableName (.text s) →
      Has (Written cfg) r .intIncrementValue (.other (.value v)) → Written cfg .intIncrement r (.other (.increment ⟨s, v⟩))
  | up {r : Root} : r.exists (lit "PLUS") = true → Written cfg .intIncrementValue r (.other (.value (intValue 1)))
  | down {r : Root} : r.exists (lit "MINUS") = true → Written cfg .intIncrementValue r (.other (.value (intValue (-1))))
  | declarableC {r : Root} {v : V} : Has (Written cfg) r .computableValue v → Written cfg .declarableValue r v
  | declarableP {r : Root} {v : V} : Has (Written cfg) r .primitiveValue v → Written cfg .declarableValue r v
  | computableF {r : Root} {v : V} : Has (Written cfg) r .floatValue v → Written cfg .computableValue r v
  | computableI {r : Root} {v : V} : Has (Written cfg) r .intValue v → Written cfg .computableValue r v
  | primitiveB {r : Root} {v : V} : Has (Written cfg) r .boolValue v → Written cfg .primitiveValue r v
  | primitiveS {r : Root} {v : V} : Has (Written cfg) r .stringValue v → Written cfg .primitiveValue r v
  | text {r : Root} {s : Str} : Texts r (lit "EVERYTHING_EXCEPT_QUOTATION") [s] → Written cfg .stringValue r (.other (.value (textValue s)))
  | yes {r : Root} : r.exists (lit "TRUE") = true → Written cfg .boolValue r (.other (.value (boolValue true)))
  | no {r : Root} : r.exists (lit "FALSE") = true → Written cfg .boolValue r (.other (.value (boolValue false)))
  | positive {r : Root} {s : Str} {n : Nat} : Texts r (lit "INT_PATTERN") [s] → DecimalText s n → r.exists (lit "MINUS") = false →
      Written cfg .intValue r (.other (.value (uintValue n)))
  | negative {r : Root} {s : Str} {n : Nat} : Texts r (lit "INT_PATTERN") [s] → DecimalText s n → r.exists (lit "MINUS") = true →
      Written cfg .intValue r (.other (.value (intValue (-n))))
  /-- `a.b` and `-a.b`, as `strconv.ParseFloat` reads them. -/
  | float {r : Root} {a b : Str} {x : Nat} : Texts r (lit "INT_PATTERN") [a, b] → r.exists (lit "MINUS") = false →
      cfg.parseFloat (a ++ lit "." ++ b) cfg.bitSize = .ok x → Written cfg .floatValue r (.other (.value (floatValue x)))
  | negativeFloat {r : Root} {a b : Str} {x : Nat} : Texts r (lit "INT_PATTERN") [a, b] → r.exists (lit "MINUS") = true →
      cfg.parseFloat (lit "-" ++ a ++ lit "." ++ b) cfg.bitSize = .ok x → Written cfg .floatValue r (.other (.value (floatValue x)))
  | declarations {r : Root} {a : VarDecl} {l : List VarDecl} : Has (Written cfg) r .variableDeclaration (.other (.decl a)) →
      HasAny (Written cfg) r .commaVariableDeclaration (l.map fun x => .other (.decl x)) →
      Written cfg .variableDeclarations r (.other (.decls (a :: l)))
  | commaDeclaration {r : Root} {v : V} : Has (Written cfg) r .variableDeclaration v → Written cfg .commaVariableDeclaration r v
  /-- `type name`. -/
  | declaration {r : Root} {t : Typ} {s : Str} : Has (Written cfg) r .declarativeType (.other (.typ t)) →
      Has (Written cfg) r .variableName (.text s) → Written cfg .variableDeclaration r (.other (.decl ⟨t, s⟩))
  | typePrimitive {r : Root} {f : Nat} : Has (Written cfg) r .primitiveType (.other (.flag8 f)) →
      Written cfg .declarativeType r (.other (.typ ⟨0, f⟩))
  | typeComputable {r : Root} {f : Nat} : Has (Written cfg) r .computableType (.other (.flag8 f)) →
      Written cfg .declarativeType r (.other (.typ ⟨0, f⟩))
  /-- `list<type>` is one deeper than its type. -/
  | typeList {r : Root} {t : Typ} : Has (Written cfg) r .listType (.other (.typ t)) →
      Written cfg .declarativeType r (.other (.typ ⟨t.dept + 1, t.flag⟩))
  | listType {r : Root} {v : V} : Has (Written cfg) r .declarativeType v → Written cfg .listType r v
  | bool {r : Root} : r.exists (lit "BOOL") = true → Written cfg .primitiveType r (.other (.flag8 boolFlag))
  | string {r : Root} : r.exists (lit "STRING") = true → Written cfg .primitiveType r (.other (.flag8 stringFlag))
  | floatType {r : Root} : r.exists (lit "FLOAT") = true → Written cfg .computableType r (.other (.flag8 floatFlag))
  | uintType {r : Root} : r.exists (lit "UINT") = true → Written cfg .computableType r (.other (.flag8 (integerFlag ||| unsignedFlag)))
  | intType {r : Root} : r.exists (lit "INT") = true → Written cfg .computableType r (.other (.flag8 integerFlag))
  /-- A name: a small letter and further letters. -/
  | name {r : Root} {a b : Str} : Texts r (lit "FIRST_LETTER") [a] → Texts r (lit "MIN_MAJ_LETTERS") [b] →
      Written cfg .variableName r (.text (a ++ b))

end Verif.Base
