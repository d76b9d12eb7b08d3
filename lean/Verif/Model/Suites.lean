import Verif.Model.Grammar

/-!
# Model of `domain/languages/lexers/suites`: running the test lines of a grammar
-/

namespace Verif.Lexer
open Verif.Patterns Verif.Cardinality

/-- `suites/line.go:3-6`. -/
structure SLine where
  index : Nat
  isSuccess : Bool
  deriving DecidableEq, Repr

/-- `suites/suite.go:3-6`. -/
structure Suite where
  name : Str
  lines : List SLine
  deriving DecidableEq, Repr

/-- `suites/line_builder.go:37-43`, `Now`; without `WithIndex` the index is -1 (`none`). -/
def slineNow (index : Option Nat) (isSuccess : Bool) : Out SLine :=
  match index with
  | none => .err
  | some i => .ok ⟨i, isSuccess⟩

/-- `suites/builder.go:37-51`, `Now`; nil lines are `[]`. -/
def suiteNow (name : Str) (lines : List SLine) : Out Suite :=
  if name = [] then .err else if lines = [] then .err else .ok ⟨name, lines⟩

/-- A new token adapter (`asts/adapter_builder.go`, `asts/tokens/adapter_builder.go`): no prefix is allowed and nothing was
called before. -/
def freshSt : St := ⟨false, fun _ => none, 0⟩

/-- `asts/ast.go:47-49`, `IsSuccess`. -/
def AST.isSuccess : AST → Bool
  | .mistake _ => false
  | .success _ => true

/-- `suites/application.go:225-260`, `toLine`: the token is looked up by its name, a new adapter is built for it, and the test line is
given to it. `order` is the order in which the map of the channels is iterated (for each `range`), `fuel` the number of steps
that the matcher may need: `none` when they are not sufficient. -/
def toSLine (g : PathEnv) (channels : Option TokenSet) (d : Nat) (order : List Path → Nat → List Path) (fuel : Nat)
    (rootToken : Str) (index : Nat) (testLine : Str) : Option (Out SLine) :=
  match g.tokens.find rootToken with
  | .err => some .err
  | .panic => some .panic
  | .ok root =>
    match matcherNow g d root channels with
    | .err => some .err
    | .panic => some .panic
    | .ok (p, ps) =>
      match toAST ⟨p, order ps⟩ false fuel testLine freshSt with
      | none => none
      | some (.err, _) => some .err
      | some (.panic, _) => some .panic
      | some (.ok ast, _) => some (slineNow (some index) ast.isSuccess)

/-- The loop of `suites/application.go:213-220`. -/
def toSLines (f : Nat → Str → Option (Out SLine)) : Nat → List Str → Option (Out (List SLine))
  | _, [] => some (.ok [])
  | i, l :: ls =>
    match f i l with
    | none => none
    | some .err => some .err
    | some .panic => some .panic
    | some (.ok x) =>
      match toSLines f (i + 1) ls with
      | some (.ok xs) => some (.ok (x :: xs))
      | r => r

/-- `suites/application.go:211-223`, `toSuite`. -/
def toSuite (f : Nat → Str → Option (Out SLine)) (name : Str) (testLines : List Str) : Option (Out Suite) :=
  match toSLines f 0 testLines with
  | none => none
  | some .err => some .err
  | some .panic => some .panic
  | some (.ok lines) => some (suiteNow name lines)

/-- The loop of `suites/application.go:193-206`; `f` makes the lines of the token of the given name. -/
def executeLoop (f : Str → Nat → Str → Option (Out SLine)) : List GToken → Option (Out (List Suite))
  | [] => some (.ok [])
  | t :: ts =>
    match t.tests with
    | none => executeLoop f ts
    | some tests =>
      match toSuite (f t.name) t.name tests with
      | none => none
      | some .err => some .err
      | some .panic => some .panic
      | some (.ok s) =>
        match executeLoop f ts with
        | some (.ok ss) => some (.ok (s :: ss))
        | r => r

/-- `suites/application.go:190-209`, `Execute`; the order of the channels may be different for each line. -/
def execute (g : PathEnv) (channels : Option TokenSet) (d : Nat) (order : Str → Nat → List Path → Nat → List Path)
    (fuel : Nat) : Option (Out (List Suite)) :=
  executeLoop (fun name i l => toSLine g channels d (order name i) fuel name i l) g.tokens.list

/-- `suites/application_builder.go:73-159`, `Now`: only the tokens are mandatory; all the functions and the channels are kept. -/
def suitesAppNow (tokens : Option TokenSet) (channels : Option TokenSet) (notFound : Option (Str → Option Path))
    (replace : Option (Str → Option (Element × List Element))) : Out (PathEnv × Option TokenSet) :=
  match tokens with
  | none => .err
  | some ts => .ok ({ tokens := ts, notFound := notFound.getD (fun _ => none), replace := replace.getD (fun _ => none) }, channels)

end Verif.Lexer
