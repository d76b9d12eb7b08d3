import Verif.Model.Mistakes

/-!
# Model of `domain/languages/lexers/asts`
-/

namespace Verif.Lexer
open Verif.Patterns Verif.Cardinality

/-- `asts/result.go:5-10`; an empty prefix or suffix is the missing one. -/
structure AResult where
  input : Str
  discoveries : List Discovery
  pre : Str
  suffix : Str
  deriving DecidableEq, Repr

mutual
/-- `asts/token.go:5-8`, `asts/linematch.go:3-6`; `matches = []` is nil (`asts/linematch_builder.go:42-48`). -/
inductive AToken where
  | mk (name : Str) (index : Nat) (matchList : List AMatch)
/-- `asts/match.go:3-6`, `asts/tokenmatch.go:3-6`, `asts/rulematch.go:3-6`: exactly one of the two is set. -/
inductive AMatch where
  | token (name : Str) (list : List AToken)
  | rule (name : Str) (result : AResult)
end

/-- `asts/token.go:30-32`, `Name`. -/
def AToken.name : AToken → Str
  | .mk n _ _ => n

/-- `asts/token.go:35-37`, `Match`, and `asts/linematch.go:44-46`, `Matches`. -/
def AToken.matchList : AToken → List AMatch
  | .mk _ _ l => l

/-- `asts/result.go` with `patterns/discoveries.go:32-39`: the text of the discoveries. -/
def AResult.content (r : AResult) : Str := (r.discoveries.map Discovery.content).flatten

mutual
/-- `asts/token.go:57-77`, `Discovery`. -/
def AToken.discovery : AToken → Str
  | .mk _ _ l => matchesDiscovery l
/-- `asts/token.go:57-77`: the loop over the matches. -/
def matchesDiscovery : List AMatch → Str
  | [] => []
  | m :: ms => m.discovery ++ matchesDiscovery ms
/-- `asts/token.go:57-77`: one match, a token or a rule. -/
def AMatch.discovery : AMatch → Str
  | .token _ l => aTokensDiscovery l
  | .rule _ r => r.content
/-- `asts/tokenmatch.go:26-33`, `Discoveries`, and the loop of `asts/token.go:57-77` over the tokens of a match. -/
def aTokensDiscovery : List AToken → Str
  | [] => []
  | t :: ts => t.discovery ++ aTokensDiscovery ts
end

/-- The loop of `asts/adapter.go:246-264`: the discoveries and `firstIndex`. -/
def resultsLoop : List RuleResult → List Discovery → Nat → Out (List Discovery × Nat)
  | [], acc, first => .ok (acc, first)
  | r :: rs, acc, first =>
    match r.results with
    | none => .ok (acc, first)
    | some [] => resultsLoop rs acc first
    | some (m :: ms) => do
      let i ← m.index
      resultsLoop rs (acc ++ ((m :: ms).map Result.discoveries).flatten) i

/-- `asts/adapter.go:241-287`, `ruleResult`, with `asts/result_builder.go:57-79`; `input` is the code of the rule. The suffix is
`input[:contentWithPrefixLength]` (not the text behind it). -/
def aRuleResult (r : RuleMatch) : Out (Option AResult) :=
  match r.results with
  | [] => .ok none
  | rs => do
    let x ← resultsLoop rs [] 0
    if x.1 = [] then return none
    else
      let input := r.rule.code
      let len := x.2 + r.discoveries.length
      if x.2 > input.length then .panic
      else if input = [] then .err
      else return some ⟨input, x.1, if x.2 > 0 then input.take x.2 else [],
        if len < input.length then input.take len else []⟩

/-- `asts/adapter.go:225-239`, `ruleMatch`, with `asts/rulematch_builder.go:37-47`. -/
def aRuleMatch (r : RuleMatch) : Out (Option AMatch) := do
  let x ← aRuleResult r
  match x with
  | none => return none
  | some x => if r.rule.name = [] then .err else return some (.rule r.rule.name x)

mutual
/-- `asts/adapter.go:82-91`, `toToken`, with `lineMatch` (`93-102`) and `asts/token_builder.go:39-49`; a token without content
would panic. -/
def Token.toA : Token → Out AToken
  | .mk _ none => .panic
  | .mk name (some (.mk (.mk i l) _)) => do
    let ms ← blocksToA l
    if name = [] then .err else return .mk name i ms
/-- `asts/adapter.go:104-121`, `matches` and `blockMatches`. -/
def blocksToA : List BlockMatch → Out (List AMatch)
  | [] => .ok []
  | b :: bs => do
    let x ← b.toA
    let xs ← blocksToA bs
    return x ++ xs
/-- `asts/adapter.go:123-164`, `blockMatch`. -/
def BlockMatch.toA : BlockMatch → Out (List AMatch)
  | .mk none c => c.toA
  | .mk (some (.mk _ p)) c => do
    let x ← blocksToA p
    let y ← c.toA
    return x ++ y
/-- `asts/adapter.go:123-164`: the content of a block match. -/
def BlockContent.toA : BlockContent → Out (List AMatch)
  | .next _ => .err
  | .container m => do
    let x ← m.toA
    return x.toList
  | .block b => b.toA
/-- `asts/adapter.go:166-202`, `match`, with `asts/match_builder.go:37-47`. -/
def Match.toA : Match → Out (Option AMatch)
  | .token t => t.toA
  | .rule r => aRuleMatch r
  | .skipToken _ => .ok none
  | .skipRule _ => .ok none
  | .line _ => .err
/-- `asts/adapter.go:204-223`, `tokenMatch`, with `asts/tokenmatch_builder.go:37-51`. -/
def TokenMatch.toA : TokenMatch → Out (Option AMatch)
  | .mk name (.mk _ _ l) _ => match l with
    | [] => .ok none
    | t :: ts => do
      let x ← t.toA
      let xs ← tokensToA ts
      if name = [] then .err else return some (.token name (x :: xs))
/-- `asts/adapter.go:204-223`: the loop over the tokens. -/
def tokensToA : List Token → Out (List AToken)
  | [] => .ok []
  | t :: ts => do
    let x ← t.toA
    let xs ← tokensToA ts
    return x :: xs
end

/-- `asts/ast.go`: a mistake or a success (`asts/builder.go:41-51`). -/
inductive AST where
  | mistake (m : Mistake)
  | success (t : AToken)

/-- `asts/adapter.go:58-80`, `ToAST`; `canPrefix` is the constant field of the adapter, which is also the initial value of the
mutable field of the token adapter (`asts/adapter_builder.go:159-161`). -/
def toAST (env : Env) (canPrefix : Bool) (fuel : Nat) (script : Str) : M AST := do
  let t ← toToken env fuel script
  let m ← M.lift (toMistake canPrefix t)
  match m with
  | some m => pure (.mistake m)
  | none => do
    let a ← M.lift t.toA
    pure (.success a)

end Verif.Lexer
