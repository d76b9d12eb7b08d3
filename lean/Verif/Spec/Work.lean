import Verif.Spec.BaseApp
import Verif.Model.Ast
import Verif.Model.Grammar

/-!
# How much the lexer works
-/

namespace Verif.Base
open Verif.Lexer

/-- What `AST` does with the tokens and channels which have been read: its outcome, and how many times it has gone through the channels
(`findMatchesInChannels`, `asts/tokens/adapter.go:298-315`), which it does before every attempt to read a part of a line where channels are allowed. -/
def counted (tokens channels : TokenSet) (depth : Nat) (order : List Path → Nat → List Path) (fuel : Nat) (root script : Str) : Option (Out AST × Nat) :=
  match tokens.find root with
  | .err => some (.err, 0)
  | .panic => some (.panic, 0)
  | .ok t =>
    match matcherNow { tokens := tokens } depth t (some channels) with
    | .err => some (.err, 0)
    | .panic => some (.panic, 0)
    | .ok (p, ps) => (toAST ⟨p, order ps⟩ false fuel script ⟨false, fun _ => none, 0⟩).map fun r => (r.1, r.2.ranges)

/-- `n` opening brackets. -/
def brackets (n : Nat) : Str := List.replicate n 91

end Verif.Base
