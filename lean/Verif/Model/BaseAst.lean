import Verif.Model.Parsers

/-!
# Model of the AST of the base language (`domain/languages/scripts/base/parsers`) and of its builders

The interfaces of `sdk.go` are modelled by inductive types: an object with alternatives (`IsX`/`X`) is modelled by a type with one
constructor per alternative, an optional part (`HasX`/`X`) by an `Option`. A builder is modelled by its `Now` as a function of the
fields of the builder; an unset field is `none` (or the empty text, if the field is a text). The `With` and `Is` functions set one
field each.
-/

namespace Verif.Base
open Verif.Patterns Verif.Lexer

/-! ## Types and values -/

/-- `base/parsers/sdk.go:7-22`. -/
def unsignedFlag : Nat := 1
/-- `base/parsers/sdk.go:12`. -/
def integerFlag : Nat := 2
/-- `base/parsers/sdk.go:15`. -/
def floatFlag : Nat := 4
/-- `base/parsers/sdk.go:18`. -/
def stringFlag : Nat := 8
/-- `base/parsers/sdk.go:21`. -/
def boolFlag : Nat := 16

/-- `parsers/typ.go:8-11`. -/
structure Typ where
  dept : Nat
  flag : Nat
deriving DecidableEq

/-- `parsers/type_builder.go:37-43`, `Now`. -/
def typeNow (dept : Nat) (flag : Option Nat) : Out Typ :=
  match flag with
  | none => .err
  | some f => .ok ⟨dept, f⟩

/-- `parsers/typ.go:36-48`, `Compare`; the result tells if the error is nil. -/
def Typ.compare (t u : Typ) : Bool := if t.dept ≠ u.dept then false else if t.flag ≠ u.flag then false else true

/-- The values in the `interface{}` held by a value (`base/parsers/value.go`, set by `parsers/helper.go:976-1047`): a float is given by its bits. -/
inductive Scalar where
  | uint (n : Nat)
  | int (n : Int)
  | float (bits : Nat)
  | bool (b : Bool)
  | str (s : Str)
  | any (n : Nat)
deriving DecidableEq

/-- `parsers/value.go:3-6`. -/
structure Value where
  typ : Typ
  element : Scalar
deriving DecidableEq

/-- The fields of `parsers/value_builder.go:5-14`. -/
structure ValueBuilder where
  typ : Option Typ := none
  element : Option Scalar := none
  uintValue : Option Nat := none
  intValue : Option Int := none
  floatValue : Option Nat := none
  boolValue : Option Bool := none
  str : Option Str := none

/-- `parsers/value_builder.go:84-114`: a set field overwrites the flag and the element. -/
def overwrite {α : Type} (x : Option α) (flag : Nat) (mk : α → Scalar) (s : Option Nat × Option Scalar) :
    Option Nat × Option Scalar :=
  match x with
  | none => s
  | some a => (some flag, some (mk a))

/-- `parsers/value_builder.go:83-133`, `Now`. -/
def valueNow (b : ValueBuilder) : Out Value := do
  let s ← (match b.typ with
    | some t => .ok (t, b.element)
    | none => do
      let s : Option Nat × Option Scalar := (none, b.element)
      let s := overwrite b.uintValue (integerFlag ||| unsignedFlag) .uint s
      let s := overwrite b.intValue integerFlag .int s
      let s := overwrite b.floatValue floatFlag .float s
      let s := overwrite b.boolValue boolFlag .bool s
      let s := overwrite b.str stringFlag .str s
      let t ← typeNow 0 s.1
      return (t, s.2))
  match s.2 with
  | none => .err
  | some e => return ⟨s.1, e⟩

/-- `variabledeclaration.go`. -/
structure VarDecl where
  typ : Typ
  name : Str
deriving DecidableEq

/-- `parsers/variabledeclaration_builder.go:37-47`, `Now`. -/
def varDeclNow (typ : Option Typ) (name : Str) : Out VarDecl :=
  match typ with
  | none => .err
  | some t => if name = [] then .err else .ok ⟨t, name⟩

/-- `parsers/variabledeclarations_builder.go:29-39`, `Now`: the condition is `list == nil && len(list) <= 0`. -/
def varDeclsNow (list : Option (List VarDecl)) : Out (List VarDecl) :=
  match list with
  | none => .err
  | some l => .ok l

/-- `parsers/assigneenames_builder.go:29-39`, `parsers/assigneenamefirsts_builder.go:29-39`, `parsers/headervariables_builder.go:29-39` and
`parsers/instructions_builder.go:29-39`, `Now`. -/
def manyNow {α : Type} (list : Option (List α)) : Out (List α) :=
  match list with
  | none => .err
  | some [] => .err
  | some l => .ok l

/-! ## Operations -/

mutual
/-- `parsers/operation.go:3-6`. -/
inductive Operation where
  | plain (element : OpElement)
  | suffixed (element : OpElement) (suffix : OpSuffix)
/-- `operationelement.go`. -/
inductive OpElement where
  | bool (b : Bool)
  | var (name : Str)
  | value (v : Value)
  | call (c : OpCall)
  | op (o : Operation)
/-- `operationsuffix.go`. -/
inductive OpSuffix where
  | mk (operator : Nat) (element : OpElement)
/-- `operationfunccall.go`. -/
inductive OpCall where
  | isNull (o : Operation)
end

/-- `parsers/operation.go:34-40`, `Optimize`. -/
def Operation.optimize : Operation → Operation
  | .plain (.op o) => o
  | o => o

/-- `parsers/operation_builder.go:37-47`, `Now`. -/
def operationNow (element : Option OpElement) (suffix : Option OpSuffix) : Out Operation :=
  match element with
  | none => .err
  | some e =>
    match suffix with
    | some s => .ok (.suffixed e s)
    | none => .ok (Operation.plain e).optimize

/-- `parsers/operationelement_builder.go:61-83`, `Now`. -/
def opElementNow (b : Option Bool) (var : Option Str) (v : Option Value) (call : Option OpCall) (op : Option Operation) :
    Out OpElement :=
  match b with
  | some b => .ok (.bool b)
  | none =>
    match var with
    | some n => .ok (.var n)
    | none =>
      match v with
      | some v => .ok (.value v)
      | none =>
        match call with
        | some c => .ok (.call c)
        | none =>
          match op with
          | some o => .ok (.op o)
          | none => .err

/-- `parsers/operationsuffix_builder.go:37-47`, `Now`. -/
def opSuffixNow (operator : Option Nat) (element : Option OpElement) : Out OpSuffix :=
  match operator with
  | none => .err
  | some o =>
    match element with
    | none => .err
    | some e => .ok (.mk o e)

/-- `parsers/operationfunccall_builder.go:29-35`, `Now`. -/
def opCallNow (null : Option Operation) : Out OpCall :=
  match null with
  | some o => .ok (.isNull o)
  | none => .err

/-! ## Lists and assignables -/

/-- `indexvalue.go`. -/
inductive IndexValue where
  | value (v : Value)
  | var (name : Str)

/-- `parsers/indexvalue_builder.go:37-47`, `Now`. -/
def indexValueNow (v : Option Value) (name : Str) : Out IndexValue :=
  match v with
  | some v => .ok (.value v)
  | none => if name ≠ [] then .ok (.var name) else .err

/-- `slicedelimiter.go`. -/
structure SliceDelimiter where
  index : IndexValue
  amount : Option IndexValue

/-- `parsers/slicedelimiter_builder.go:37-47`, `Now`. -/
def sliceDelimiterNow (index amount : Option IndexValue) : Out SliceDelimiter :=
  match index with
  | none => .err
  | some i =>
    match amount with
    | some a => .ok ⟨i, some a⟩
    | none => .ok ⟨i, none⟩

mutual
/-- `assignable.go`. -/
inductive Assignable where
  | list (l : TotalListAssignable)
  | single (s : SingleAssignable)
/-- `singleassignable.go`. -/
inductive SingleAssignable where
  | value (v : Value)
  | op (o : Operation)
  | extract (l : TotalListAssignable)
  | fetch (f : ListFetchElement)
/-- `listfetchelement.go`. -/
inductive ListFetchElement where
  | mk (list : TotalListValue) (index : IndexValue)
/-- `totallistvalue.go`. -/
inductive TotalListValue where
  | assignable (l : TotalListAssignable)
  | var (name : Str)
/-- `totallistassignable.go`. -/
inductive TotalListAssignable where
  | listValue (l : ListValue)
  | slice (s : Slice)
  | append (a : Append)
/-- `listvalue.go`; the assignables (`assignables.go`) are a list, which may be empty. -/
inductive ListValue where
  | assignables (l : List Assignable)
  | var (name : Str)
/-- `slice.go`. -/
inductive Slice where
  | mk (list : ListValue) (delimiter : SliceDelimiter)
/-- `append.go`. -/
inductive Append where
  | mk (list : ListValue) (assignable : SingleAssignable)
end

/-- `parsers/assignables_builder.go:27-33`, `Now`. -/
def assignablesNow (list : Option (List Assignable)) : Out (List Assignable) :=
  match list with
  | none => .ok []
  | some l => .ok l

/-- `parsers/assignable_builder.go:37-47`, `Now`. -/
def assignableNow (list : Option TotalListAssignable) (single : Option SingleAssignable) : Out Assignable :=
  match list with
  | some l => .ok (.list l)
  | none =>
    match single with
    | some s => .ok (.single s)
    | none => .err

/-- `parsers/singleassignable_builder.go:53-71`, `Now`. -/
def singleAssignableNow (v : Option Value) (op : Option Operation) (extract : Option TotalListAssignable)
    (fetch : Option ListFetchElement) : Out SingleAssignable :=
  match v with
  | some v => .ok (.value v)
  | none =>
    match op with
    | some o => .ok (.op o)
    | none =>
      match extract with
      | some l => .ok (.extract l)
      | none =>
        match fetch with
        | some f => .ok (.fetch f)
        | none => .err

/-- `parsers/listfetchelement_builder.go:37-47`, `Now`. -/
def listFetchElementNow (list : Option TotalListValue) (index : Option IndexValue) : Out ListFetchElement :=
  match list with
  | none => .err
  | some l =>
    match index with
    | none => .err
    | some i => .ok (.mk l i)

/-- `parsers/totallistvalue_builder.go:37-47`, `Now`. -/
def totalListValueNow (assignable : Option TotalListAssignable) (name : Str) : Out TotalListValue :=
  match assignable with
  | some l => .ok (.assignable l)
  | none => if name ≠ [] then .ok (.var name) else .err

/-- `parsers/totallistassignable_builder.go:45-59`, `Now`. -/
def totalListAssignableNow (l : Option ListValue) (s : Option Slice) (a : Option Append) : Out TotalListAssignable :=
  match l with
  | some l => .ok (.listValue l)
  | none =>
    match s with
    | some s => .ok (.slice s)
    | none =>
      match a with
      | some a => .ok (.append a)
      | none => .err

/-- `parsers/listvalue_builder.go:37-47`, `Now`. -/
def listValueNow (assignables : Option (List Assignable)) (name : Str) : Out ListValue :=
  match assignables with
  | some l => .ok (.assignables l)
  | none => if name ≠ [] then .ok (.var name) else .err

/-- `parsers/append_builder.go:37-47`, `Now`. -/
def appendNow (list : Option ListValue) (assignable : Option SingleAssignable) : Out Append :=
  match list with
  | none => .err
  | some l =>
    match assignable with
    | none => .err
    | some a => .ok (.mk l a)

/-- `parsers/slice_builder.go:37-47`, `Now`. -/
def sliceNow (list : Option ListValue) (delimiter : Option SliceDelimiter) : Out Slice :=
  match list with
  | none => .err
  | some l =>
    match delimiter with
    | none => .err
    | some d => .ok (.mk l d)

/-! ## Assignments -/

/-- `assigneename.go`. -/
inductive AssigneeName where
  | var (name : Str)
  | skip
deriving DecidableEq

/-- `parsers/assigneename_builder.go:37-47`, `Now`. -/
def assigneeNameNow (var : Str) (isSkip : Bool) : Out AssigneeName :=
  if var ≠ [] then .ok (.var var) else if isSkip then .ok .skip else .err

/-- `assigneenamefirst.go`. -/
inductive AssigneeNameFirst where
  | declaration (d : VarDecl)
  | name (n : AssigneeName)
deriving DecidableEq

/-- `parsers/assigneenamefirst_builder.go:37-47`, `Now`. -/
def assigneeNameFirstNow (d : Option VarDecl) (n : Option AssigneeName) : Out AssigneeNameFirst :=
  match d with
  | some d => .ok (.declaration d)
  | none =>
    match n with
    | some n => .ok (.name n)
    | none => .err

/-- `assignee.go`. -/
inductive Assignee where
  | first (l : List AssigneeNameFirst)
  | name (l : List AssigneeName)
deriving DecidableEq

/-- `parsers/assignee_builder.go:37-47`, `Now`. -/
def assigneeNow (first : Option (List AssigneeNameFirst)) (name : Option (List AssigneeName)) : Out Assignee :=
  match first with
  | some l => .ok (.first l)
  | none =>
    match name with
    | some l => .ok (.name l)
    | none => .err

/-- `assignment.go`. -/
structure Assignment where
  assignee : Assignee
  assignables : List Assignable

/-- `parsers/assignment_builder.go:39-49`, `Now`. -/
def assignmentNow (assignee : Option Assignee) (assignables : Option (List Assignable)) : Out Assignment :=
  match assignee with
  | none => .err
  | some a =>
    match assignables with
    | none => .err
    | some l => .ok ⟨a, l⟩

/-! ## Instructions and programs -/

/-- `intincrement.go`. -/
structure IntIncrement where
  name : Str
  increment : Value

/-- `parsers/intincrement_builder.go:37-47`, `Now`. -/
def intIncrementNow (name : Str) (increment : Option Value) : Out IntIncrement :=
  if name = [] then .err
  else match increment with
    | none => .err
    | some v => .ok ⟨name, v⟩

/-- `direction.go`. -/
inductive Direction where
  | brk
  | cont
deriving DecidableEq

/-- `parsers/direction_builder.go:37-47`, `Now`. -/
def directionNow (isBreak isContinue : Bool) : Out Direction :=
  if isBreak then .ok .brk else if isContinue then .ok .cont else .err

/-- `voidfunccall.go`. -/
inductive VoidFuncCall where
  | log (a : Assignable)

/-- `parsers/voidfunccall_builder.go:29-35`, `Now`. -/
def voidFuncCallNow (log : Option Assignable) : Out VoidFuncCall :=
  match log with
  | some a => .ok (.log a)
  | none => .err

/-- `forstatement.go`. -/
structure ForStatement where
  index : AssigneeName
  value : AssigneeName
  iterable : TotalListValue

/-- `parsers/forstatement_builder.go:45-59`, `Now`. -/
def forStatementNow (index value : Option AssigneeName) (iterable : Option TotalListValue) : Out ForStatement :=
  match index with
  | none => .err
  | some i =>
    match value with
    | none => .err
    | some v =>
      match iterable with
      | none => .err
      | some l => .ok ⟨i, v, l⟩

/-- `instruction.go`, with `ifdeclaration.go` and `fordeclaration.go`; the instructions (`instructions.go`) are a list. -/
inductive Instruction where
  | assignment (a : Assignment)
  | declaration (d : VarDecl)
  | ifDecl (condition : Operation) (body : Option (List Instruction))
  | forDecl (statement : ForStatement) (body : Option (List Instruction))
  | call (c : VoidFuncCall)
  | direction (d : Direction)
  | increment (i : IntIncrement)

/-- `ifdeclaration.go`: a condition and the instructions. -/
abbrev IfDeclaration := Operation × Option (List Instruction)
/-- `fordeclaration.go`: a statement and the instructions. -/
abbrev ForDeclaration := ForStatement × Option (List Instruction)

/-- `parsers/ifdeclaration_builder.go:37-47`, `Now`. -/
def ifDeclarationNow (condition : Option Operation) (body : Option (List Instruction)) : Out IfDeclaration :=
  match condition with
  | none => .err
  | some c =>
    match body with
    | some l => .ok (c, some l)
    | none => .ok (c, none)

/-- `parsers/fordeclaration_builder.go:37-47`, `Now`. -/
def forDeclarationNow (statement : Option ForStatement) (body : Option (List Instruction)) : Out ForDeclaration :=
  match statement with
  | none => .err
  | some s =>
    match body with
    | some l => .ok (s, some l)
    | none => .ok (s, none)

/-- The fields of `parsers/instruction_builder.go:5-13`. -/
structure InstructionBuilder where
  assignment : Option Assignment := none
  declaration : Option VarDecl := none
  ifDecl : Option IfDeclaration := none
  forDecl : Option ForDeclaration := none
  call : Option VoidFuncCall := none
  direction : Option Direction := none
  increment : Option IntIncrement := none

/-- `parsers/instruction_builder.go:77-107`, `Now`. -/
def instructionNow (b : InstructionBuilder) : Out Instruction :=
  match b.assignment with
  | some a => .ok (.assignment a)
  | none =>
    match b.declaration with
    | some d => .ok (.declaration d)
    | none =>
      match b.ifDecl with
      | some (c, l) => .ok (.ifDecl c l)
      | none =>
        match b.forDecl with
        | some (s, l) => .ok (.forDecl s l)
        | none =>
          match b.call with
          | some c => .ok (.call c)
          | none =>
            match b.direction with
            | some d => .ok (.direction d)
            | none =>
              match b.increment with
              | some i => .ok (.increment i)
              | none => .err

/-- `headervariable.go`. -/
structure HeaderVariable where
  isMandatory : Bool
  isInput : Bool
  declaration : VarDecl
  keyname : Str
deriving DecidableEq

/-- `parsers/headervariable_builder.go:53-63`, `Now`. -/
def headerVariableNow (isMandatory isInput : Bool) (declaration : Option VarDecl) (keyname : Str) : Out HeaderVariable :=
  match declaration with
  | none => .err
  | some d => if keyname = [] then .err else .ok ⟨isMandatory, isInput, d, keyname⟩

/-- `program.go`. -/
structure Program where
  instructions : List Instruction
  header : Option (List HeaderVariable)

/-- `parsers/program_builder.go:37-47`, `Now`. -/
def programNow (instructions : Option (List Instruction)) (header : Option (List HeaderVariable)) : Out Program :=
  match instructions with
  | none => .err
  | some l =>
    match header with
    | some v => .ok ⟨l, some v⟩
    | none => .ok ⟨l, none⟩

end Verif.Base
