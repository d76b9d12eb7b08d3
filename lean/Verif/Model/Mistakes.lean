import Verif.Model.Lexer
import Verif.Model.Strings

/-!
# Model of `domain/languages/lexers/asts/mistakes`

The adapter keeps the text `currentScript` while it walks through a token: here it is threaded through the calls.
-/

namespace Verif.Lexer
open Verif.Patterns Verif.Cardinality

/-- `mistakes/content.go:3-10`: exactly one is set by the builder. -/
inductive MistakeContent where
  | tokenHasNoMatch
  | containsValidNotMatch (line : Nat)
  | specifierDoNotMatch (name : Str) (card : Specific) (amount : Nat)
  | containsNextElement (n : NextElement)
  | cardinalityIsInvalid (card : Card) (amount : Nat)
  | containsPrefix (p : Str)
  deriving DecidableEq, Repr

/-- `mistakes/pathcontainer.go:3-6`. -/
inductive PathContainer where
  | rule (name : Str)
  | token (name : Str)
  deriving DecidableEq, Repr

/-- `mistakes/mistake.go:3-7`, `mistakes/index.go:3-7`, `mistakes/path.go:3-6` (`parents = []` is nil, `mistakes/path_builder.go:59-61`). -/
structure Mistake where
  index : Nat
  line : Nat
  column : Nat
  container : PathContainer
  parents : List Str
  content : MistakeContent
  deriving DecidableEq, Repr

/-- `mistakes/adapter.go:448-462`, `getCurrentPosition`, for the new line character "\n" (`mistakes/sdk.go:19`). -/
def currentPosition (content : Str) : Nat × Nat × Nat :=
  let lines := splitSep 10 [] content
  match lines.getLast? with
  | none => (0, 0, 0)
  | some lastLine =>
    if lastLine.length = 0 then (content.length, lines.length - 1, 0)
    else (content.length, lines.length - 1, lastLine.length - 1)

/-- `mistakes/path_builder.go:45-68`, `Now`: the name is mandatory. -/
def pathNow (c : PathContainer) : Out PathContainer :=
  match c with
  | .rule [] => .err
  | .token [] => .err
  | c => .ok c

/-- `mistakes/adapter.go:416-446`, `buildMistakeFromToken`, `buildMistakeFromRule` and `buildMistakeFromPath`. -/
def buildMistake (c : PathContainer) (parents : List Str) (script : Str) (content : MistakeContent) : Out Mistake := do
  let c ← pathNow c
  let p := currentPosition script
  return ⟨p.1, p.2.1, p.2.2, c, parents, content⟩

/-- A mistake and the current script behind the call; the mistake ends the walk, so that the script does not matter then. `mistakes/adapter.go:179-184` and the other calls of `buildMistakeFromToken`. -/
def failWith (c : PathContainer) (parents : List Str) (script : Str) (content : MistakeContent) :
    Out (Option Mistake × Str) := do
  let m ← buildMistake c parents script content
  return (some m, script)

/-- `mistakes/adapter.go:386-414`, `patternResult`, with `mistakes/containsprefix_builder.go:29-35`; a slice `input[:index]` beyond the
end of the input panics. -/
def patternMistake (parents : List Str) (ruleName : Str) (canPrefix : Bool) (r : Result) (cur : Str) :
    Out (Option Mistake × Str) := do
  let cur := cur ++ r.content
  let i ← r.index
  if !canPrefix && decide (i > 0) then
    if i > r.input.length then .panic
    else if r.input.take i = [] then .err
    else failWith (.rule ruleName) parents cur (.containsPrefix (r.input.take i))
  else return (none, cur)

/-- `mistakes/adapter.go:371-384`, `patternResults`. -/
def patternsMistake (parents : List Str) (ruleName : Str) (canPrefix : Bool) : List Result → Str →
    Out (Option Mistake × Str)
  | [], cur => .ok (none, cur)
  | r :: rs, cur => do
    let x ← patternMistake parents ruleName canPrefix r cur
    match x.1 with
    | some m => return (some m, x.2)
    | none => patternsMistake parents ruleName canPrefix rs x.2

/-- `mistakes/adapter.go:321-369`, `ruleMatch` and `ruleResult`: only the first result is looked at. -/
def ruleMistake (parents : List Str) (canPrefix : Bool) (r : RuleMatch) (cur : Str) : Out (Option Mistake × Str) :=
  if !r.card.isValid (UInt64.ofNat r.amount) then
    failWith (.rule r.rule.name) parents cur (.cardinalityIsInvalid r.card r.amount)
  else match r.results with
    | [] => .ok (none, cur)
    | x :: _ => match x.results with
      | none => .ok (none, cur)
      | some l => patternsMistake parents r.rule.name canPrefix l cur

/-- `mistakes/adapter.go:228-256`, `tokenSpecifiers`, with `mistakes/specifierdonotmatch_builder.go:49-63`. -/
def specifiersMistake (parents : List Str) (tokenName : Str) (list : List Token) : List Spec → Str →
    Out (Option Mistake × Str)
  | [], cur => .ok (none, cur)
  | s :: ss, cur =>
    if s.card.isValid (UInt64.ofNat (tokensCount s.containerName list)) then specifiersMistake parents tokenName list ss cur
    else if s.containerName = [] then .err
    else failWith (.token tokenName) parents cur
      (.specifierDoNotMatch s.containerName s.card (tokensCount s.containerName list))

mutual
/-- `mistakes/adapter.go:61-120`, `token` and `rootTokenNotFound`. -/
def Token.mistake (canPrefix : Bool) (parents : List Str) : Token → Str → Out (Option Mistake × Str)
  | .mk name none, cur => do
    let m ← buildMistake (.token name) parents [] .tokenHasNoMatch
    return (some m, cur)
  | .mk name (some c), _ => c.mistake canPrefix parents name

/-- `mistakes/adapter.go:66-104`: the not part and then the must part, both with a new current script. -/
def TokenContent.mistake (canPrefix : Bool) (parents : List Str) (name : Str) : TokenContent → Out (Option Mistake × Str)
  | .mk must none => must.mistake canPrefix parents name []
  | .mk must (some nt) => do
    let x ← nt.mistake canPrefix parents name []
    match x.1 with
    | none => failWith (.token name) parents x.2 (.containsValidNotMatch nt.index)
    | some _ => must.mistake canPrefix parents name []

/-- `mistakes/adapter.go:122-146`, `lineMatch` and `matches`. -/
def LineMatch.mistake (canPrefix : Bool) (parents : List Str) (name : Str) : LineMatch → Str → Out (Option Mistake × Str)
  | .mk _ l, cur => blocksMistake canPrefix parents name l cur

/-- `mistakes/adapter.go:132-146`, the loop of `matches`. -/
def blocksMistake (canPrefix : Bool) (parents : List Str) (name : Str) : List BlockMatch → Str → Out (Option Mistake × Str)
  | [], cur => .ok (none, cur)
  | b :: bs, cur => do
    let x ← b.mistake canPrefix parents name cur
    match x.1 with
    | some m => return (some m, x.2)
    | none => blocksMistake canPrefix parents name bs x.2

/-- `mistakes/adapter.go:148-185`, `blockMatch`; the discoveries of the matches of a line are those of the line. -/
def BlockMatch.mistake (canPrefix : Bool) (parents : List Str) (name : Str) : BlockMatch → Str → Out (Option Mistake × Str)
  | .mk none c, cur => c.mistake canPrefix parents name cur
  | .mk (some p) c, cur => c.mistake canPrefix parents name (cur ++ p.discoveries)

/-- `mistakes/adapter.go:157-184`. -/
def BlockContent.mistake (canPrefix : Bool) (parents : List Str) (name : Str) :
    BlockContent → Str → Out (Option Mistake × Str)
  | .container m, cur => m.mistake canPrefix parents name cur
  | .block b, cur => b.mistake canPrefix parents name cur
  | .next n, cur => failWith (.token name) parents cur (.containsNextElement n)

/-- `mistakes/adapter.go:187-205`, `match`. -/
def Match.mistake (canPrefix : Bool) (parents : List Str) (name : Str) : Match → Str → Out (Option Mistake × Str)
  | .token t, cur => t.mistake canPrefix parents name cur
  | .skipToken _, cur => .ok (none, cur)
  | .skipRule _, cur => .ok (none, cur)
  | .line l, cur => l.mistake canPrefix parents name cur
  | .rule r, cur => ruleMistake parents canPrefix r cur

/-- `mistakes/adapter.go:207-226`, `tokenMatch`. -/
def TokenMatch.mistake (canPrefix : Bool) (parents : List Str) (name : Str) : TokenMatch → Str → Out (Option Mistake × Str)
  | .mk _ r specs, cur => do
    let x ← r.mistake canPrefix parents name cur
    match x.1 with
    | some m => return (some m, x.2)
    | none => specifiersMistake parents name r.list specs x.2

/-- `mistakes/adapter.go:258-301`, `tokenResult`. -/
def TokenResult.mistake (canPrefix : Bool) (parents : List Str) (name : Str) :
    TokenResult → Str → Out (Option Mistake × Str)
  | .mk _ card [], cur =>
    if card.isValid 0 then .ok (none, cur) else failWith (.token name) parents cur .tokenHasNoMatch
  | .mk _ card (t :: ts), cur =>
    if !card.isValid (UInt64.ofNat (t :: ts).length) then
      failWith (.token name) parents cur (.cardinalityIsInvalid card (t :: ts).length)
    else tokensMistake canPrefix (parents ++ [name]) (t :: ts) cur

/-- `mistakes/adapter.go:303-319`, `tokenResultMatches`. -/
def tokensMistake (canPrefix : Bool) (parents : List Str) : List Token → Str → Out (Option Mistake × Str)
  | [], cur => .ok (none, cur)
  | t :: ts, cur => do
    let x ← t.mistake canPrefix parents cur
    match x.1 with
    | some m => return (some m, x.2)
    | none => tokensMistake canPrefix parents ts x.2
end

/-- `mistakes/adapter.go:56-59`, `ToMistake`. -/
def toMistake (canPrefix : Bool) (t : Token) : Out (Option Mistake) := do
  let x ← t.mistake canPrefix [] []
  return x.1

end Verif.Lexer
