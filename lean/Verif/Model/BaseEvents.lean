import Verif.Model.BaseAst

/-!
# Model of the events of the base language (`domain/languages/scripts/base/parsers/helper.go`)

Every event is a program over the manager (`Prog`). A type assertion `x.(T)` panics unless `x` holds a `T`; no two of the interfaces
are implemented by the same object, so the values are a disjoint union. `strconv.ParseFloat` is a parameter.
-/

namespace Verif.Base
open Verif.Patterns Verif.Lexer

/-- The values of the events other than texts and results: the interfaces of `base/parsers/sdk.go:260-820`, `bool`, `uint8` and `uint16`. -/
inductive BVal where
  | bool (b : Bool)
  | flag8 (n : Nat)
  | flag16 (n : Nat)
  | typ (t : Typ)
  | value (v : Value)
  | decl (d : VarDecl)
  | decls (l : List VarDecl)
  | operation (o : Operation)
  | element (e : OpElement)
  | suffix (s : OpSuffix)
  | opCall (c : OpCall)
  | index (i : IndexValue)
  | delimiter (d : SliceDelimiter)
  | assignable (a : Assignable)
  | assignables (l : List Assignable)
  | single (s : SingleAssignable)
  | fetch (f : ListFetchElement)
  | totalValue (l : TotalListValue)
  | totalAssignable (l : TotalListAssignable)
  | listValue (l : ListValue)
  | slice (s : Slice)
  | append (a : Append)
  | assigneeName (n : AssigneeName)
  | assigneeNames (l : List AssigneeName)
  | assigneeFirst (n : AssigneeNameFirst)
  | assigneeFirsts (l : List AssigneeNameFirst)
  | assignee (a : Assignee)
  | assignment (a : Assignment)
  | increment (i : IntIncrement)
  | direction (d : Direction)
  | voidCall (c : VoidFuncCall)
  | forStatement (s : ForStatement)
  | forDecl (d : ForDeclaration)
  | ifDecl (d : IfDeclaration)
  | instruction (i : Instruction)
  | instructions (l : List Instruction)
  | header (h : HeaderVariable)
  | headers (l : List HeaderVariable)
  | program (p : Program)

/-- `interface{}` as used by `parsers/helper.go:50-1178`. -/
abbrev V := Val BVal
/-- The bodies of the events of `parsers/helper.go:50-1178`. -/
abbrev P := Prog BVal

/-! ## Type assertions -/

/-- `.(string)`: `parsers/helper.go:100,437,593` and 8 more. -/
def asText : V → Option Str
  | .text s => some s
  | _ => none
/-- `.(bool)`: `parsers/helper.go:101,824`. -/
def asBool : V → Option Bool
  | .other (.bool x) => some x
  | _ => none
/-- `.(uint8)`: `parsers/helper.go:1100,1111`. -/
def asFlag8 : V → Option Nat
  | .other (.flag8 x) => some x
  | _ => none
/-- `.(uint16)`: `parsers/helper.go:795`. -/
def asFlag16 : V → Option Nat
  | .other (.flag16 x) => some x
  | _ => none
/-- `.(Type)`: `parsers/helper.go:1086,1122`. -/
def asTyp : V → Option Typ
  | .other (.typ x) => some x
  | _ => none
/-- `.(Value)`: `parsers/helper.go:521,818,842` and 1 more. -/
def asValue : V → Option Value
  | .other (.value x) => some x
  | _ => none
/-- `.(VariableDeclaration)`: `parsers/helper.go:100,151,386` and 2 more. -/
def asDecl : V → Option VarDecl
  | .other (.decl x) => some x
  | _ => none
/-- `.(Operation)`: `parsers/helper.go:286,530,755` and 1 more. -/
def asOperation : V → Option Operation
  | .other (.operation x) => some x
  | _ => none
/-- `.(OperationElement)`: `parsers/helper.go:772,804`. -/
def asElement : V → Option OpElement
  | .other (.element x) => some x
  | _ => none
/-- `.(OperationSuffix)`: `parsers/helper.go:781`. -/
def asSuffix : V → Option OpSuffix
  | .other (.suffix x) => some x
  | _ => none
/-- `.(OperationFuncCall)`: `parsers/helper.go:735`. -/
def asOpCall : V → Option OpCall
  | .other (.opCall x) => some x
  | _ => none
/-- `.(IndexValue)`: `parsers/helper.go:566,685,688`. -/
def asIndex : V → Option IndexValue
  | .other (.index x) => some x
  | _ => none
/-- `.(SliceDelimiter)`: `parsers/helper.go:459`. -/
def asDelimiter : V → Option SliceDelimiter
  | .other (.delimiter x) => some x
  | _ => none
/-- `.(Assignable)`: `parsers/helper.go:210,469,480`. -/
def asAssignable : V → Option Assignable
  | .other (.assignable x) => some x
  | _ => none
/-- `.(Assignables)`: `parsers/helper.go:321,655`. -/
def asAssignables : V → Option (List Assignable)
  | .other (.assignables x) => some x
  | _ => none
/-- `.(SingleAssignable)`: `parsers/helper.go:507,643`. -/
def asSingle : V → Option SingleAssignable
  | .other (.single x) => some x
  | _ => none
/-- `.(ListFetchElement)`: `parsers/helper.go:548`. -/
def asFetch : V → Option ListFetchElement
  | .other (.fetch x) => some x
  | _ => none
/-- `.(TotalListValue)`: `parsers/helper.go:272,565`. -/
def asTotalValue : V → Option TotalListValue
  | .other (.totalValue x) => some x
  | _ => none
/-- `.(TotalListAssignable)`: `parsers/helper.go:498,539,584`. -/
def asTotalAssignable : V → Option TotalListAssignable
  | .other (.totalAssignable x) => some x
  | _ => none
/-- `.(ListValue)`: `parsers/helper.go:458,607,642`. -/
def asListValue : V → Option ListValue
  | .other (.listValue x) => some x
  | _ => none
/-- `.(Slice)`: `parsers/helper.go:616`. -/
def asSlice : V → Option Slice
  | .other (.slice x) => some x
  | _ => none
/-- `.(Append)`: `parsers/helper.go:625`. -/
def asAppend : V → Option Append
  | .other (.append x) => some x
  | _ => none
/-- `.(AssigneeName)`: `parsers/helper.go:263,395,408` and 1 more. -/
def asAssigneeName : V → Option AssigneeName
  | .other (.assigneeName x) => some x
  | _ => none
/-- `.(AssigneeNames)`: `parsers/helper.go:262,344`. -/
def asAssigneeNames : V → Option (List AssigneeName)
  | .other (.assigneeNames x) => some x
  | _ => none
/-- `.(AssigneeNameFirst)`: `parsers/helper.go:357,368`. -/
def asAssigneeFirst : V → Option AssigneeNameFirst
  | .other (.assigneeFirst x) => some x
  | _ => none
/-- `.(AssigneeNameFirsts)`: `parsers/helper.go:335`. -/
def asAssigneeFirsts : V → Option (List AssigneeNameFirst)
  | .other (.assigneeFirsts x) => some x
  | _ => none
/-- `.(Assignee)`: `parsers/helper.go:312`. -/
def asAssignee : V → Option Assignee
  | .other (.assignee x) => some x
  | _ => none
/-- `.(Assignment)`: `parsers/helper.go:142`. -/
def asAssignment : V → Option Assignment
  | .other (.assignment x) => some x
  | _ => none
/-- `.(IntIncrement)`: `parsers/helper.go:196`. -/
def asIncrement : V → Option IntIncrement
  | .other (.increment x) => some x
  | _ => none
/-- `.(Direction)`: `parsers/helper.go:187`. -/
def asDirection : V → Option Direction
  | .other (.direction x) => some x
  | _ => none
/-- `.(VoidFuncCall)`: `parsers/helper.go:178`. -/
def asVoidCall : V → Option VoidFuncCall
  | .other (.voidCall x) => some x
  | _ => none
/-- `.(ForStatement)`: `parsers/helper.go:237`. -/
def asForStatement : V → Option ForStatement
  | .other (.forStatement x) => some x
  | _ => none
/-- `.(ForDeclaration)`: `parsers/helper.go:169`. -/
def asForDecl : V → Option ForDeclaration
  | .other (.forDecl x) => some x
  | _ => none
/-- `.(IfDeclaration)`: `parsers/helper.go:160`. -/
def asIfDecl : V → Option IfDeclaration
  | .other (.ifDecl x) => some x
  | _ => none
/-- `.(Instruction)`: `parsers/helper.go:128`. -/
def asInstruction : V → Option Instruction
  | .other (.instruction x) => some x
  | _ => none
/-- `.(Instructions)`: `parsers/helper.go:58,244,295`. -/
def asInstructions : V → Option (List Instruction)
  | .other (.instructions x) => some x
  | _ => none
/-- `.(HeaderVariable)`: `parsers/helper.go:79`. -/
def asHeader : V → Option HeaderVariable
  | .other (.header x) => some x
  | _ => none
/-- `.(HeaderVariables)`: `parsers/helper.go:65`. -/
def asHeaders : V → Option (List HeaderVariable)
  | .other (.headers x) => some x
  | _ => none

variable {α : Type}

/-- `x.(T)`, for example `parsers/helper.go:1086`: a failing assertion panics. -/
def assert (f : V → Option α) (v : V) : Out α :=
  match f v with
  | some a => .ok a
  | none => .panic

/-- `result.First().(T)` (`parsers/result.go:26-28`). -/
def assertFirst (f : V → Option α) (l : List V) : Out α :=
  match l with
  | [] => .panic
  | v :: _ => assert f v

/-- The loops over `result.List()`, with an assertion for each value: `parsers/helper.go:70-83` and the like. -/
def assertAll (f : V → Option α) : List V → Out (List α)
  | [] => .ok []
  | v :: vs => do
    let a ← assert f v
    let l ← assertAll f vs
    return a :: l

/-! ## Steps of events -/

/-- `if err != nil { return nil, err }`, for example `parsers/helper.go:54`. -/
def step (o : Out α) (k : α → P) : P :=
  match o with
  | .ok a => k a
  | .err => .done .err
  | .panic => .done .panic

/-- `return builder.Now()`, for example `parsers/helper.go:68`. -/
def ret (o : Out α) (mk : α → BVal) : P := step o (fun a => .done (.ok (.other (mk a))))

/-- `result, err := manager.Trigger(name, root); if err != nil { return nil, err }`, for example `parsers/helper.go:53`. -/
def call (name : Str) (r : Root) (k : List V → P) : P := .trigger name r (fun x => step x k)

/-- `Trigger` with the assertion of the first value, for example `parsers/helper.go:53`. -/
def need (name : Str) (r : Root) (f : V → Option α) (k : α → P) : P := call name r (fun l => step (assertFirst f l) k)

/-- `if nodes.Exists(name) { … }` with `Trigger` and the assertion of the first value, for example `parsers/helper.go:59`. -/
def opt (name : Str) (r : Root) (f : V → Option α) (k : Option α → P) : P :=
  if r.exists name then need name r f (fun a => k (some a)) else k none

/-- `return manager.Trigger(name, root)`, for example `parsers/helper.go:216`. -/
def pass (name : Str) (r : Root) : P := call name r (fun l => .done (.ok (.result l)))

/-- An unset text of a builder is empty: `parsers/assigneename_builder.go` and the other builders with a text. -/
def textOr (o : Option Str) : Str := o.getD []

/-! ## Numbers -/

/-- The digits of a decimal number (`strconv.ParseUint` of the Go library, called at `parsers/helper.go:699,1016`). -/
def digit? (c : UInt8) : Option Nat := if 48 ≤ c.toNat ∧ c.toNat ≤ 57 then some (c.toNat - 48) else none

/-- The value of a text of digits (`strconv.ParseUint` of the Go library, called at `parsers/helper.go:699,1016`). -/
def decimal? : Str → Nat → Option Nat
  | [], acc => some acc
  | c :: cs, acc =>
    match digit? c with
    | none => none
    | some d => decimal? cs (acc * 10 + d)

/-- `strconv.ParseUint(s, 10, int(bitSize))`, from its documentation; both errors (syntax, range) are `err`. Called at `parsers/helper.go:699,1016`. -/
def parseUint (s : Str) (bitSize : Nat) : Out Nat :=
  if s = [] then .err
  else if bitSize > 64 then .err
  else match decimal? s 0 with
    | none => .err
    | some n => if n < 2 ^ (if bitSize = 0 then 64 else bitSize) then .ok n else .err

/-- `strconv.ParseInt("-" + s, 10, int(bitSize))`, from its documentation. Called at `parsers/helper.go:1008`. -/
def parseNeg (s : Str) (bitSize : Nat) : Out Int :=
  if s = [] then .err
  else if bitSize > 64 then .err
  else match decimal? s 0 with
    | none => .err
    | some n => if n ≤ 2 ^ ((if bitSize = 0 then 64 else bitSize) - 1) then .ok (-(n : Int)) else .err

/-- The parameters of `newEvents` (`parsers/helper.go:13`) and the library function `strconv.ParseFloat`. -/
structure Cfg where
  bitSize : Nat
  parseFloat : Str → Nat → Out Nat

/-! ## The events -/

/-- `parsers/helper.go:51-69`. -/
def evProgram (r : Root) : P :=
  need (lit "instructions") r asInstructions fun i =>
  opt (lit "headerVariables") r asHeaders fun h =>
  ret (programNow (some i) h) .program

/-- `parsers/helper.go:70-83`. -/
def evHeaderVariables (r : Root) : P :=
  call (lit "headerVariable") r fun l => step (assertAll asHeader l) fun l => ret (manyNow (some l)) .headers

/-- `parsers/helper.go:84-110`. -/
def evHeaderVariable (r : Root) : P :=
  call (lit "inputOutput") r fun io =>
  call (lit "variableDeclaration") r fun d =>
  call (lit "KEYNAME_PATTERN") r fun key =>
  step (assertFirst asDecl d) fun d =>
  step (assertFirst asText key) fun key =>
  step (assertFirst asBool io) fun io =>
  ret (headerVariableNow (!r.exists (lit "QUESTION_MARK")) io (some d) key) .header

/-- `parsers/helper.go:111-118`. -/
def evInputOutput (r : Root) : P := .done (.ok (.other (.bool (r.exists (lit "RIGHT_ARROW")))))

/-- `parsers/helper.go:119-132`. -/
def evInstructions (r : Root) : P :=
  call (lit "instruction") r fun l => step (assertAll asInstruction l) fun l => ret (manyNow (some l)) .instructions

/-- `parsers/helper.go:133-200`. -/
def evInstruction (r : Root) : P :=
  opt (lit "assignment") r asAssignment fun a =>
  opt (lit "variableDeclaration") r asDecl fun d =>
  opt (lit "ifDeclaration") r asIfDecl fun i =>
  opt (lit "forDeclaration") r asForDecl fun f =>
  opt (lit "voidFuncCalls") r asVoidCall fun c =>
  opt (lit "direction") r asDirection fun dir =>
  opt (lit "intIncrement") r asIncrement fun inc =>
  ret (instructionNow ⟨a, d, i, f, c, dir, inc⟩) .instruction

/-- `parsers/helper.go:201-214`. -/
def evVoidFuncCalls (r : Root) : P :=
  opt (lit "logFuncCall") r asAssignable fun a => ret (voidFuncCallNow a) .voidCall

/-- `parsers/helper.go:215-217`. -/
def evLogFuncCall (r : Root) : P := pass (lit "assignable") r

/-- `parsers/helper.go:218-230`. -/
def evDirection (r : Root) : P := ret (directionNow (r.exists (lit "BREAK")) (r.exists (lit "CONTINUE"))) .direction

/-- `parsers/helper.go:231-248`. -/
def evForDeclaration (r : Root) : P :=
  need (lit "forStatement") r asForStatement fun s =>
  opt (lit "instructions") r asInstructions fun l =>
  ret (forDeclarationNow (some s) l) .forDecl

/-- `parsers/helper.go:262-263`: `list[0]` and `list[1]`. -/
def firstTwo (l : List AssigneeName) : Out (AssigneeName × AssigneeName) :=
  match l with
  | a :: b :: _ => .ok (a, b)
  | _ => .panic

/-- `parsers/helper.go:249-276`. -/
def evForStatement (r : Root) : P :=
  if r.exists (lit "forStatement") then pass (lit "forStatement") r
  else opt (lit "assigneeNames") r asAssigneeNames fun l =>
    step (match l with
      | some l => do let p ← firstTwo l; return some p
      | none => .ok none) fun (p : Option (AssigneeName × AssigneeName)) =>
    opt (lit "totalListValue") r asTotalValue fun t =>
    ret (forStatementNow (p.map Prod.fst) (p.map Prod.snd) t) .forStatement

/-- `parsers/helper.go:277-299`. -/
def evIfDeclaration (r : Root) : P :=
  opt (lit "ifOperation") r asOperation fun c =>
  opt (lit "instructions") r asInstructions fun l =>
  ret (ifDeclarationNow c l) .ifDecl

/-- `parsers/helper.go:300-302`. -/
def evIfOperation (r : Root) : P := pass (lit "operation") r

/-- `parsers/helper.go:303-325`. -/
def evAssignment (r : Root) : P :=
  opt (lit "assignee") r asAssignee fun a =>
  opt (lit "assignables") r asAssignables fun l =>
  ret (assignmentNow a l) .assignment

/-- `parsers/helper.go:326-348`. -/
def evAssignee (r : Root) : P :=
  opt (lit "assigneeNameFirsts") r asAssigneeFirsts fun f =>
  opt (lit "assigneeNames") r asAssigneeNames fun n =>
  ret (assigneeNow f n) .assignee

/-- The events for a list with commas (`parsers/helper.go:349-373`, `400-424`, `462-485`, `1048-1071`): the first value of the elements
named `name`, then all those named `comma`. -/
def commaList (name comma : Str) (f : V → Option α) (r : Root) (k : List α → P) : P :=
  need name r f fun a =>
  if r.exists comma then call comma r fun l => step (assertAll f l) fun l => k (a :: l)
  else k [a]

/-- `parsers/helper.go:349-373`. -/
def evAssigneeNameFirsts (r : Root) : P :=
  commaList (lit "assigneeNameFirst") (lit "commaAssigneeFirst") asAssigneeFirst r fun l => ret (manyNow (some l)) .assigneeFirsts

/-- `parsers/helper.go:374-376`. -/
def evCommaAssigneeFirst (r : Root) : P := pass (lit "assigneeNameFirst") r

/-- `parsers/helper.go:377-399`. -/
def evAssigneeNameFirst (r : Root) : P :=
  opt (lit "variableDeclaration") r asDecl fun d =>
  opt (lit "assigneeName") r asAssigneeName fun n =>
  ret (assigneeNameFirstNow d n) .assigneeFirst

/-- `parsers/helper.go:400-424`. -/
def evAssigneeNames (r : Root) : P :=
  commaList (lit "assigneeName") (lit "commaAssigneeName") asAssigneeName r fun l => ret (manyNow (some l)) .assigneeNames

/-- `parsers/helper.go:425-427`. -/
def evCommaAssigneeName (r : Root) : P := pass (lit "assigneeName") r

/-- `parsers/helper.go:428-445`. -/
def evAssigneeName (r : Root) : P :=
  opt (lit "variableName") r asText fun n =>
  ret (assigneeNameNow (textOr n) (r.exists (lit "UNDERSCORE"))) .assigneeName

/-- `parsers/helper.go:446-461`: both calls are made before the assertions. -/
def evSlice (r : Root) : P :=
  call (lit "listValue") r fun l =>
  call (lit "sliceDelimiter") r fun d =>
  step (assertFirst asListValue l) fun l =>
  step (assertFirst asDelimiter d) fun d =>
  ret (sliceNow (some l) (some d)) .slice

/-- `parsers/helper.go:462-485`. -/
def evAssignables (r : Root) : P :=
  commaList (lit "assignable") (lit "commaAssignable") asAssignable r fun l => ret (assignablesNow (some l)) .assignables

/-- `parsers/helper.go:486-488`. -/
def evCommaAssignable (r : Root) : P := pass (lit "assignable") r

/-- `parsers/helper.go:489-511`. -/
def evAssignable (r : Root) : P :=
  opt (lit "totalListAssignable") r asTotalAssignable fun l =>
  opt (lit "singleAssignable") r asSingle fun s =>
  ret (assignableNow l s) .assignable

/-- `parsers/helper.go:512-552`. -/
def evSingleAssignable (r : Root) : P :=
  opt (lit "declarableValue") r asValue fun v =>
  opt (lit "operation") r asOperation fun o =>
  opt (lit "listAssignableToAssignables") r asTotalAssignable fun l =>
  opt (lit "listFetchElement") r asFetch fun f =>
  ret (singleAssignableNow v o l f) .single

/-- `parsers/helper.go:553-568`. -/
def evListFetchElement (r : Root) : P :=
  call (lit "totalListValue") r fun l =>
  call (lit "listElementFetcher") r fun i =>
  step (assertFirst asTotalValue l) fun l =>
  step (assertFirst asIndex i) fun i =>
  ret (listFetchElementNow (some l) (some i)) .fetch

/-- `parsers/helper.go:569-571`. -/
def evListElementFetcher (r : Root) : P := pass (lit "indexValue") r

/-- `parsers/helper.go:572-574`. -/
def evListAssignableToAssignables (r : Root) : P := pass (lit "totalListAssignable") r

/-- `parsers/helper.go:575-597`. -/
def evTotalListValue (r : Root) : P :=
  opt (lit "totalListAssignable") r asTotalAssignable fun l =>
  opt (lit "variableName") r asText fun n =>
  ret (totalListValueNow l (textOr n)) .totalValue

/-- `parsers/helper.go:598-629`. -/
def evTotalListAssignable (r : Root) : P :=
  opt (lit "listValue") r asListValue fun l =>
  opt (lit "slice") r asSlice fun s =>
  opt (lit "listAppend") r asAppend fun a =>
  ret (totalListAssignableNow l s a) .totalAssignable

/-- `parsers/helper.go:630-645`. -/
def evListAppend (r : Root) : P :=
  call (lit "listValue") r fun l =>
  call (lit "singleAssignable") r fun a =>
  step (assertFirst asListValue l) fun l =>
  step (assertFirst asSingle a) fun a =>
  ret (appendNow (some l) (some a)) .append

/-- `parsers/helper.go:646-668`. -/
def evListValue (r : Root) : P :=
  opt (lit "listAssignable") r asAssignables fun l =>
  opt (lit "variableName") r asText fun n =>
  ret (listValueNow l (textOr n)) .listValue

/-- `parsers/helper.go:669-675`. -/
def evListAssignable (r : Root) : P :=
  if r.exists (lit "assignables") then pass (lit "assignables") r else ret (assignablesNow none) .assignables

/-- `parsers/helper.go:676-689`: the second value, if any, is asserted before the first. -/
def evSliceDelimiter (r : Root) : P :=
  call (lit "indexValue") r fun l =>
  step (match l with
    | _ :: b :: _ => do let b ← assert asIndex b; return some b
    | _ => .ok none) fun (b : Option IndexValue) =>
  step (assertFirst asIndex l) fun a =>
  ret (sliceDelimiterNow (some a) b) .delimiter

/-- `parsers/helper.go:690-722`. -/
def evIndexValue (cfg : Cfg) (r : Root) : P :=
  let rest (v : Option Value) : P :=
    opt (lit "variableName") r asText fun n => ret (indexValueNow v (textOr n)) .index
  if r.exists (lit "INT_PATTERN") then
    need (lit "INT_PATTERN") r asText fun s =>
    step (parseUint s cfg.bitSize) fun n =>
    step (valueNow { uintValue := some n }) fun v => rest (some v)
  else rest none

/-- `parsers/helper.go:723-745`. -/
def evOperation (r : Root) : P :=
  if r.exists (lit "operationWithSuffix") then pass (lit "operationWithSuffix") r
  else if r.exists (lit "operationFuncCalls") then
    need (lit "operationFuncCalls") r asOpCall fun c =>
    step (opElementNow none none none (some c) none) fun e =>
    ret (operationNow (some e) none) .operation
  else pass (lit "operation") r

/-- `parsers/helper.go:746-759`. -/
def evOperationFuncCalls (r : Root) : P :=
  opt (lit "isNullFuncCall") r asOperation fun o => ret (opCallNow o) .opCall

/-- `parsers/helper.go:760-762`. -/
def evIsNullFuncCall (r : Root) : P := pass (lit "operation") r

/-- `parsers/helper.go:763-785`. -/
def evOperationWithSuffix (r : Root) : P :=
  opt (lit "operationElement") r asElement fun e =>
  opt (lit "operationSuffix") r asSuffix fun s =>
  ret (operationNow e s) .operation

/-- `parsers/helper.go:786-808`. -/
def evOperationSuffix (r : Root) : P :=
  opt (lit "operator") r asFlag16 fun o =>
  opt (lit "operationElement") r asElement fun e =>
  ret (opSuffixNow o e) .suffix

/-- `parsers/helper.go:819-825`: the boolean in a value. -/
def boolOf (v : Value) : Out Bool :=
  if v.typ.flag &&& boolFlag = 0 then .err
  else match v.element with
    | .bool b => .ok b
    | _ => .panic

/-- `parsers/helper.go:809-855`. -/
def evOperationElement (r : Root) : P :=
  let rest (b : Option Bool) : P :=
    opt (lit "variableName") r asText fun n =>
    opt (lit "computableValue") r asValue fun v =>
    opt (lit "operation") r asOperation fun o =>
    ret (opElementNow b n v none o) .element
  if r.exists (lit "boolValue") then need (lit "boolValue") r asValue fun v => step (boolOf v) fun b => rest (some b)
  else rest none

/-- `parsers/helper.go:856-867`. -/
def evOperator (r : Root) : P :=
  if r.exists (lit "operatorArithmetic") then pass (lit "operatorArithmetic") r
  else if r.exists (lit "operatorRelational") then pass (lit "operatorRelational") r
  else pass (lit "operatorLogical") r

/-- `base/parsers/sdk.go:24-63`: the flags of the operators. -/
def opArithmetic : Nat := 1
/-- `base/parsers/sdk.go:29`. -/
def opPlus : Nat := 2
/-- `base/parsers/sdk.go:32`. -/
def opMinus : Nat := 4
/-- `base/parsers/sdk.go:35`. -/
def opMultiply : Nat := 8
/-- `base/parsers/sdk.go:38`. -/
def opDivide : Nat := 16
/-- `base/parsers/sdk.go:41`. -/
def opLogical : Nat := 32
/-- `base/parsers/sdk.go:44`. -/
def opAnd : Nat := 64
/-- `base/parsers/sdk.go:47`. -/
def opOr : Nat := 128
/-- `base/parsers/sdk.go:50`. -/
def opRelational : Nat := 256
/-- `base/parsers/sdk.go:53`. -/
def opNot : Nat := 512
/-- `base/parsers/sdk.go:56`. -/
def opEqual : Nat := 1024
/-- `base/parsers/sdk.go:59`. -/
def opLess : Nat := 2048
/-- `base/parsers/sdk.go:62`. -/
def opGreater : Nat := 4096

/-- `if nodes.Exists(name) { flag |= bit }`, for example `parsers/helper.go:872`. -/
def flagIf (r : Root) (name : Str) (bit : Nat) : Nat := if r.exists name then bit else 0

/-- `parsers/helper.go:868-888`. -/
def evOperatorArithmetic (r : Root) : P :=
  .done (.ok (.other (.flag16 (opArithmetic ||| flagIf r (lit "PLUS") opPlus ||| flagIf r (lit "MINUS") opMinus |||
    flagIf r (lit "STAR") opMultiply ||| flagIf r (lit "DIV") opDivide))))

/-- `parsers/helper.go:889-909`. -/
def evOperatorRelational (r : Root) : P :=
  .done (.ok (.other (.flag16 (opRelational ||| flagIf r (lit "EQUAL") opEqual ||| flagIf r (lit "EXCLAMATION") opNot |||
    flagIf r (lit "LESS") opLess ||| flagIf r (lit "MORE") opGreater))))

/-- `parsers/helper.go:910-922`. -/
def evOperatorLogical (r : Root) : P :=
  .done (.ok (.other (.flag16 (opLogical ||| flagIf r (lit "AND") opAnd ||| flagIf r (lit "PIPE") opOr))))

/-- `parsers/helper.go:923-938`. -/
def evIntIncrement (r : Root) : P :=
  need (lit "variableName") r asText fun n =>
  need (lit "intIncrementValue") r asValue fun v =>
  ret (intIncrementNow n (some v)) .increment

/-- `parsers/helper.go:939-951`: the last call of `WithInt` wins. -/
def evIntIncrementValue (r : Root) : P :=
  ret (valueNow { intValue := if r.exists (lit "MINUS") then some (-1) else if r.exists (lit "PLUS") then some 1 else none }) .value

/-- `parsers/helper.go:952-959`. -/
def evDeclarableValue (r : Root) : P :=
  if r.exists (lit "computableValue") then pass (lit "computableValue") r else pass (lit "primitiveValue") r

/-- `parsers/helper.go:960-967`. -/
def evComputableValue (r : Root) : P :=
  if r.exists (lit "floatValue") then pass (lit "floatValue") r else pass (lit "intValue") r

/-- `parsers/helper.go:968-975`. -/
def evPrimitiveValue (r : Root) : P :=
  if r.exists (lit "boolValue") then pass (lit "boolValue") r else pass (lit "stringValue") r

/-- `parsers/helper.go:976-984`. -/
def evStringValue (r : Root) : P :=
  need (lit "EVERYTHING_EXCEPT_QUOTATION") r asText fun s => ret (valueNow { str := some s }) .value

/-- `parsers/helper.go:985-997`: the last call of `WithBool` wins. -/
def evBoolValue (r : Root) : P :=
  ret (valueNow { boolValue := if r.exists (lit "FALSE") then some false else if r.exists (lit "TRUE") then some true else none })
    .value

/-- `parsers/helper.go:998-1022`. -/
def evIntValue (cfg : Cfg) (r : Root) : P :=
  need (lit "INT_PATTERN") r asText fun s =>
  if r.exists (lit "MINUS") then step (parseNeg s cfg.bitSize) fun n => ret (valueNow { intValue := some n }) .value
  else step (parseUint s cfg.bitSize) fun n => ret (valueNow { uintValue := some n }) .value

/-- `fmt.Sprintf("%s", v)` of a value which holds a text (`parsers/helper.go:1039`); of the values of other events the text is not
modelled, it is taken as empty: the containers of `INT_PATTERN` have no root, hence the values are texts. -/
def printed : V → Str
  | .text s => s
  | _ => []

/-- `parsers/helper.go:1023-1047`. -/
def evFloatValue (cfg : Cfg) (r : Root) : P :=
  call (lit "INT_PATTERN") r fun l =>
  match l with
  | [a, b] =>
    step (cfg.parseFloat ((if r.exists (lit "MINUS") then lit "-" else []) ++ printed a ++ lit "." ++ printed b) cfg.bitSize) fun x =>
    ret (valueNow { floatValue := some x }) .value
  | _ => .done .err

/-- `parsers/helper.go:1048-1071`. -/
def evVariableDeclarations (r : Root) : P :=
  commaList (lit "variableDeclaration") (lit "commaVariableDeclaration") asDecl r fun l => ret (varDeclsNow (some l)) .decls

/-- `parsers/helper.go:1072-1074`. -/
def evCommaVariableDeclaration (r : Root) : P := pass (lit "variableDeclaration") r

/-- `parsers/helper.go:1075-1087`. -/
def evVariableDeclaration (r : Root) : P :=
  call (lit "declarativeType") r fun t =>
  call (lit "variableName") r fun n =>
  step (assertFirst asTyp t) fun t =>
  step (assertFirst asText n) fun n =>
  ret (varDeclNow (some t) n) .decl

/-- `parsers/helper.go:1088-1090`. -/
def evListType (r : Root) : P := pass (lit "declarativeType") r

/-- The type builder in `parsers/helper.go:1091-1130`: the dept and the flag. -/
abbrev TypeState := Nat × Option Nat

/-- `parsers/helper.go:1094-1115`: `if casted, ok := result.First().(uint8); ok { builder.WithFlag(casted) }`. -/
def setFlag (l : List V) (s : TypeState) : Out TypeState :=
  match l with
  | [] => .panic
  | v :: _ =>
    match asFlag8 v with
    | some f => .ok (s.1, some f)
    | none => .ok s

/-- `parsers/helper.go:1122-1126`. -/
def setList (l : List V) (s : TypeState) : Out TypeState :=
  match l with
  | [] => .panic
  | v :: _ =>
    match asTyp v with
    | some t => .ok (t.dept + 1, some t.flag)
    | none => .ok s

/-- `if nodes.Exists(name) { … }` of `parsers/helper.go:1091-1130`. -/
def typePart (name : Str) (r : Root) (f : List V → TypeState → Out TypeState) (s : TypeState) (k : TypeState → P) : P :=
  if r.exists name then call name r fun l => step (f l s) k else k s

/-- `parsers/helper.go:1091-1130`. -/
def evDeclarativeType (r : Root) : P :=
  typePart (lit "primitiveType") r setFlag (0, none) fun s =>
  typePart (lit "computableType") r setFlag s fun s =>
  typePart (lit "listType") r setList s fun s =>
  ret (typeNow s.1 s.2) .typ

/-- `parsers/helper.go:1131-1143`. -/
def evPrimitiveType (r : Root) : P :=
  .done (.ok (.other (.flag8 (flagIf r (lit "BOOL") boolFlag ||| flagIf r (lit "STRING") stringFlag))))

/-- `parsers/helper.go:1144-1160`. -/
def evComputableType (r : Root) : P :=
  .done (.ok (.other (.flag8 (flagIf r (lit "FLOAT") floatFlag ||| flagIf r (lit "UINT") (integerFlag ||| unsignedFlag) |||
    flagIf r (lit "INT") integerFlag))))

/-- `parsers/helper.go:1161-1177`. -/
def evVariableName (r : Root) : P :=
  step (r.fetch (lit "FIRST_LETTER")) fun a =>
  step (r.fetch (lit "MIN_MAJ_LETTERS")) fun b =>
  .done (.ok (.text (a.content ++ b.content)))

/-- `parsers/helper.go:50-1178`, with `base/parsers/sdk.go:66-76`: one event for each of the names. -/
def baseEvents (cfg : Cfg) : Events BVal :=
  [(lit "program", [evProgram]), (lit "headerVariables", [evHeaderVariables]), (lit "headerVariable", [evHeaderVariable]),
   (lit "inputOutput", [evInputOutput]), (lit "instructions", [evInstructions]), (lit "instruction", [evInstruction]),
   (lit "voidFuncCalls", [evVoidFuncCalls]), (lit "logFuncCall", [evLogFuncCall]), (lit "direction", [evDirection]),
   (lit "forDeclaration", [evForDeclaration]), (lit "forStatement", [evForStatement]), (lit "ifDeclaration", [evIfDeclaration]),
   (lit "ifOperation", [evIfOperation]), (lit "assignment", [evAssignment]), (lit "assignee", [evAssignee]),
   (lit "assigneeNameFirsts", [evAssigneeNameFirsts]), (lit "commaAssigneeFirst", [evCommaAssigneeFirst]),
   (lit "assigneeNameFirst", [evAssigneeNameFirst]), (lit "assigneeNames", [evAssigneeNames]),
   (lit "commaAssigneeName", [evCommaAssigneeName]), (lit "assigneeName", [evAssigneeName]), (lit "slice", [evSlice]),
   (lit "assignables", [evAssignables]), (lit "commaAssignable", [evCommaAssignable]), (lit "assignable", [evAssignable]),
   (lit "singleAssignable", [evSingleAssignable]), (lit "listFetchElement", [evListFetchElement]),
   (lit "listElementFetcher", [evListElementFetcher]), (lit "listAssignableToAssignables", [evListAssignableToAssignables]),
   (lit "totalListValue", [evTotalListValue]), (lit "totalListAssignable", [evTotalListAssignable]),
   (lit "listAppend", [evListAppend]), (lit "listValue", [evListValue]), (lit "listAssignable", [evListAssignable]),
   (lit "sliceDelimiter", [evSliceDelimiter]), (lit "indexValue", [evIndexValue cfg]), (lit "operation", [evOperation]),
   (lit "operationFuncCalls", [evOperationFuncCalls]), (lit "isNullFuncCall", [evIsNullFuncCall]),
   (lit "operationWithSuffix", [evOperationWithSuffix]), (lit "operationSuffix", [evOperationSuffix]),
   (lit "operationElement", [evOperationElement]), (lit "operator", [evOperator]),
   (lit "operatorArithmetic", [evOperatorArithmetic]), (lit "operatorRelational", [evOperatorRelational]),
   (lit "operatorLogical", [evOperatorLogical]), (lit "intIncrement", [evIntIncrement]),
   (lit "intIncrementValue", [evIntIncrementValue]), (lit "declarableValue", [evDeclarableValue]),
   (lit "computableValue", [evComputableValue]), (lit "primitiveValue", [evPrimitiveValue]), (lit "stringValue", [evStringValue]),
   (lit "boolValue", [evBoolValue]), (lit "intValue", [evIntValue cfg]), (lit "floatValue", [evFloatValue cfg]),
   (lit "variableDeclarations", [evVariableDeclarations]), (lit "commaVariableDeclaration", [evCommaVariableDeclaration]),
   (lit "variableDeclaration", [evVariableDeclaration]), (lit "listType", [evListType]),
   (lit "declarativeType", [evDeclarativeType]), (lit "primitiveType", [evPrimitiveType]),
   (lit "computableType", [evComputableType]), (lit "variableName", [evVariableName])]

end Verif.Base
