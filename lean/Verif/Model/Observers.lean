import Verif.Model.Lexer

/-!
# `IsExact` and `Input` of what the token matcher finds

`asts/tokens/sdk.go` exports both for users; no code of the repository calls them, except `IsExact` of a rule (`RuleMatch.isExact`).
-/

namespace Verif.Lexer
open Verif

mutual
/-- `asts/tokens/token.go:57-63`, `IsExact`. -/
def Token.isExact : Token → Bool
  | .mk _ none => false
  | .mk _ (some c) => c.isExact
/-- `asts/tokens/tokencontent.go:43-49`, `IsExact`. -/
def TokenContent.isExact : TokenContent → Bool
  | .mk m (some n) => if n.isValid then false else m.isExact
  | .mk m none => m.isExact
/-- `asts/tokens/matches.go:48-56`, `IsExact`. -/
def LineMatch.isExact : LineMatch → Bool
  | .mk _ l => blocksExact l
/-- `asts/tokens/matches.go:49-55`: the loop. -/
def blocksExact : List BlockMatch → Bool
  | [] => true
  | b :: bs => b.isExact && blocksExact bs
/-- `asts/tokens/blockmatch.go:72-84`, `IsExact`. -/
def BlockMatch.isExact : BlockMatch → Bool
  | .mk _ c => c.isExact
/-- `asts/tokens/blockmatch.go:73-83`: the three contents. -/
def BlockContent.isExact : BlockContent → Bool
  | .container m => m.isExact
  | .block b => b.isExact
  | .next _ => false
/-- `asts/tokens/match.go:59-70`, `IsExact`. -/
def Match.isExact : Match → Bool
  | .token t => t.isExact
  | .rule r => r.isExact
  | .skipToken _ => true
  | .skipRule _ => true
  | .line _ => true
/-- `asts/tokens/tokenmatch.go:54-56`, `IsExact`. -/
def TokenMatch.isExact : TokenMatch → Bool
  | .mk _ r _ => r.isExact
/-- `asts/tokens/tokenresult.go:75-81`, `IsExact`. -/
def TokenResult.isExact : TokenResult → Bool
  | .mk _ _ [] => false
  | .mk _ _ (t :: l) => t.isExact && tokensExact l
/-- `asts/tokens/tokenresultmatches.go:43-51`, `IsExact`. -/
def tokensExact : List Token → Bool
  | [] => true
  | t :: ts => t.isExact && tokensExact ts
end

mutual
/-- `asts/tokens/matches.go:27-34`, `Input`. -/
def LineMatch.input : LineMatch → Out Str
  | .mk _ l => blocksInput l
/-- `asts/tokens/matches.go:29-31`: the loop. -/
def blocksInput : List BlockMatch → Out Str
  | [] => .ok []
  | b :: bs => do
    let x ← b.input
    let y ← blocksInput bs
    return x ++ y
/-- `asts/tokens/blockmatch.go:36-54`, `Input`. -/
def BlockMatch.input : BlockMatch → Out Str
  | .mk none c => c.input
  | .mk (some p) c => do
    let x ← p.input
    let y ← c.input
    return x ++ y
/-- `asts/tokens/blockmatch.go:42-53`: a next element is taken for a block, which is nil. -/
def BlockContent.input : BlockContent → Out Str
  | .container m => m.input
  | .block b => b.input
  | .next _ => .panic
/-- `asts/tokens/match.go:18-28` and `asts/tokens/skipmatch.go:27-33`, `Input`: a line is taken for a skip, which is nil. -/
def Match.input : Match → Out Str
  | .token t => .ok t.result.input
  | .rule r => .ok r.rule.code
  | .skipToken t => .ok t.result.input
  | .skipRule r => .ok r.rule.code
  | .line _ => .panic
end

end Verif.Lexer
