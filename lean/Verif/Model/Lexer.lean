import Verif.Model.Patterns

/-!
# Model of `asts/paths` (the objects) and `asts/tokens` (the matcher)

All under `domain/languages/lexers/`.  The matcher mutates its adapter (`canContainPrefix`, `recursiveTokens`) and ranges
over a Go map (`channels`), whose order is chosen anew by every `range` statement.  It is modelled in the monad `M`: a
function from the mutable state to an outcome and a state, where `none` means that the given number of recursion and loop
steps did not suffice.  A run which is `none` for every number of steps does not terminate (or overflows the stack).
-/

namespace Verif.Lexer
open Verif.Patterns Verif.Cardinality

/-! ## Paths: the compiled grammar -/

/-- `asts/paths/specifier.go:5-8`. -/
structure Spec where
  containerName : Str
  card : Specific
  deriving DecidableEq, Repr

mutual
/-- `asts/paths/element.go:3-7`; `not = []` is the nil slice (`paths/element_builder.go:58-60` turns an empty slice into nil).
A line (`paths/line.go:3-5`) is the list of its instructions. -/
inductive Element where
  | mk (name : Str) (must : List (List Instruction)) (not : List (List Instruction))
/-- `asts/paths/instruction.go:3-6`. -/
inductive Instruction where
  | channelSwitch
  | container (c : PContainer)
/-- `asts/paths/container.go:5-10`: exactly one of the four fields is set by the builder (`paths/container_builder.go:53-75`).
A token is its path and its cardinality (`paths/token.go:5-8`), a token path is its element and its specifiers
(`paths/tokenpath.go:3-6`, `specs = []` is the nil slice), a rule is its base and its cardinality (`paths/rule.go:8-11`), and
`paths/recursivetoken.go:5-9`. -/
inductive PContainer where
  | token (element : Element) (specs : List Spec) (card : Card)
  | rule (base : Rule) (card : Card)
  | recursive (name : Str) (specs : List Spec) (card : Card)
  | lines (ls : List (List Instruction))
end

/-- `asts/paths/line.go:3-5`. -/
abbrev Line := List Instruction

/-- `asts/paths/element.go:39-41`, `Name`. -/
def Element.name : Element → Str
  | .mk n _ _ => n

/-- `asts/paths/element.go:44-46`, `Must`. -/
def Element.must : Element → List Line
  | .mk _ m _ => m

/-- `asts/paths/element.go:54-56`, `Not` (`HasNot`, 49-51, is that it is not empty). -/
def Element.not : Element → List Line
  | .mk _ _ n => n

/-- `asts/paths/container.go:53-63`, `Cardinality`: on a container of lines the nil recursive token is dereferenced. -/
def PContainer.cardinality : PContainer → Out Card
  | .token _ _ c => .ok c
  | .rule _ c => .ok c
  | .recursive _ _ c => .ok c
  | .lines _ => .panic

/-- `asts/paths/dependencies.go:36-43`, `Fetch`: the map holds the last element of every name
(`paths/dependencies_builder.go:34-38`). -/
def fetch (deps : List Element) (name : Str) : Out Element :=
  match deps.reverse.find? (fun e => e.name = name) with
  | some e => .ok e
  | none => .err

/-- `asts/paths/path.go:3-6`. -/
structure Path where
  element : Element
  deps : List Element

/-! ## Tokens: the result of the matcher -/

/-- `asts/tokens/nextelement.go:7-10`. -/
inductive NextElement where
  | constant (s : Str)
  | pattern (p : Pattern)
  deriving DecidableEq, Repr

/-- `asts/tokens/rulematch.go:7-11`, `tokens/rulematchresult.go:7-10` (its path is the same rule), `tokens/result.go:9-11`
(`results = []` is the nil list, `tokens/result_builder.go:30-32`). -/
structure RuleMatch where
  rule : Rule
  card : Card
  results : List RuleResult
  canHavePrefix : Bool
  deriving DecidableEq, Repr

mutual
/-- `asts/tokens/token.go:7-11`. The path (the element and the dependencies of the call) is left out. -/
inductive Token where
  | mk (name : Str) (content : Option TokenContent)
/-- `asts/tokens/tokencontent.go:3-6`. -/
inductive TokenContent where
  | mk (must : LineMatch) (not : Option LineMatch)
/-- `asts/tokens/linematch.go:3-6`; the matches (`tokens/matches.go:7-9`) are the list. -/
inductive LineMatch where
  | mk (index : Nat) (list : List BlockMatch)
/-- `asts/tokens/blockmatch.go:5-8`. -/
inductive BlockMatch where
  | mk (channelPrefix : Option LineMatch) (content : BlockContent)
/-- `asts/tokens/blockmatchcontent.go:3-7`: exactly one is set by the builder. -/
inductive BlockContent where
  | container (m : Match)
  | block (b : BlockMatch)
  | next (n : NextElement)
/-- `asts/tokens/match.go:3-5`, `tokens/matchcontent.go:3-8`, `tokens/skipmatch.go:3-5`, `tokens/skipmatchcontent.go:3-6`. -/
inductive Match where
  | token (t : TokenMatch)
  | rule (r : RuleMatch)
  | skipToken (t : TokenMatch)
  | skipRule (r : RuleMatch)
  | line (l : LineMatch)
/-- `asts/tokens/tokenmatch.go:5-9`: the name of the element of the path, the result and the specifiers (`[]` is nil). The
result in every specifier (`tokens/specifier.go:5-9`) is the result of the token match (`asts/tokens/adapter.go:653-667`). -/
inductive TokenMatch where
  | mk (name : Str) (result : TokenResult) (specs : List Spec)
/-- `asts/tokens/tokenresult.go:5-9`, `tokens/tokenresultmatches.go:7-9`; `list = []` is nil. -/
inductive TokenResult where
  | mk (input : Str) (card : Card) (list : List Token)
end

/-- `asts/tokens/token.go:43-45`, `Name`. -/
def Token.name : Token → Str
  | .mk n _ => n

/-- `asts/tokens/token.go:80-87`, `HasContent` and `Content`. -/
def Token.content : Token → Option TokenContent
  | .mk _ c => c

/-- `asts/tokens/tokencontent.go:61-63`, `Must`. -/
def TokenContent.must : TokenContent → LineMatch
  | .mk m _ => m

/-- `asts/tokens/tokencontent.go:66-73`, `HasNot` and `Not`. -/
def TokenContent.not : TokenContent → Option LineMatch
  | .mk _ n => n

/-- `asts/tokens/linematch.go:21-23`, `Index`. -/
def LineMatch.index : LineMatch → Nat
  | .mk i _ => i

/-- `asts/tokens/linematch.go:26-28`, `Matches`, and `tokens/matches.go:22-24`, `BlockMatches`. -/
def LineMatch.list : LineMatch → List BlockMatch
  | .mk _ l => l

/-- `asts/tokens/tokenmatch.go:59-61`, `Path`: the name of its element. -/
def TokenMatch.name : TokenMatch → Str
  | .mk n _ _ => n

/-- `asts/tokens/tokenmatch.go:64-66`, `Result`. -/
def TokenMatch.result : TokenMatch → TokenResult
  | .mk _ r _ => r

/-- `asts/tokens/tokenmatch.go:69-76`, `HasSpecifiers` and `Specifiers`. -/
def TokenMatch.specs : TokenMatch → List Spec
  | .mk _ _ s => s

/-- `asts/tokens/tokenresult.go:84-86`, `Input`. -/
def TokenResult.input : TokenResult → Str
  | .mk i _ _ => i

/-- `asts/tokens/tokenresult.go:47-49`, `Cardinality`. -/
def TokenResult.card : TokenResult → Card
  | .mk _ c _ => c

/-- `asts/tokens/tokenresult.go:98-105`, `HasMatches` and `Matches`, and `tokens/tokenresultmatches.go:22-24`, `All`. -/
def TokenResult.list : TokenResult → List Token
  | .mk _ _ l => l

/-- `tokens/rulematch.go:47-71`, `IsExact` (a result with an empty list of matches would panic; it cannot be built). -/
def RuleMatch.isExact (r : RuleMatch) : Bool :=
  match r.results with
  | [] => r.card.isValid 0
  | x :: _ =>
    if r.canHavePrefix then true
    else match x.results with
      | none => false
      | some [] => false
      | some (m :: _) => match m.discoveries with
        | [] => false
        | d :: _ => d.index = 0

/-- `tokens/result.go:34-40`, `Amount`. -/
def RuleMatch.amount (r : RuleMatch) : Nat := r.results.length

/-- `tokens/rulematch.go:36-44`, `IsValid`, with `tokens/rulematchresult.go:25-28`. -/
def RuleMatch.isValid (r : RuleMatch) : Bool :=
  r.card.isValid (UInt64.ofNat r.amount) && r.isExact

/-- `tokens/result.go:43-54`, `Discoveries`. -/
def RuleMatch.discoveries (r : RuleMatch) : Str := (r.results.map RuleResult.content).flatten

/-! `tokens/specifier.go:81-115`: the number of results of the named container in one block match; it does not recurse into the
token matches. -/
mutual
/-- `asts/tokens/specifier.go:81-94`. -/
def BlockMatch.countIn (name : Str) : BlockMatch → Nat
  | .mk _ c => c.countIn name
/-- `asts/tokens/specifier.go:81-115`. -/
def BlockContent.countIn (name : Str) : BlockContent → Nat
  | .container (.token (.mk n (.mk _ _ l) _)) => if n = name then l.length else 0
  | .container (.rule r) => if r.rule.name = name then r.amount else 0
  | .container _ => 0
  | .block b => b.countIn name
  | .next _ => 0
end

/-! `IsValid` of `asts/tokens/token.go:48-54`, `tokens/tokencontent.go:34-40`, `tokens/matches.go:37-45`, `tokens/blockmatch.go:57-69`, `tokens/match.go:45-56`,
`tokens/tokenmatch.go:41-51`, `tokens/specifier.go:41-79`, `tokens/tokenresult.go:61-72`, `tokens/tokenresultmatches.go:32-40`. -/
mutual
/-- `asts/tokens/token.go:48-54`, `IsValid`. -/
def Token.isValid : Token → Bool
  | .mk _ none => false
  | .mk _ (some c) => c.isValid
/-- `asts/tokens/tokencontent.go:34-40`, `IsValid`. -/
def TokenContent.isValid : TokenContent → Bool
  | .mk _ (some n) => !n.isValid
  | .mk m none => m.isValid
/-- `asts/tokens/matches.go:37-45`, `IsValid`. -/
def LineMatch.isValid : LineMatch → Bool
  | .mk _ l => blocksValid l
/-- `asts/tokens/matches.go:38-44`: the loop. -/
def blocksValid : List BlockMatch → Bool
  | [] => true
  | b :: bs => b.isValid && blocksValid bs
/-- `asts/tokens/blockmatch.go:57-69`, `IsValid`. -/
def BlockMatch.isValid : BlockMatch → Bool
  | .mk _ c => c.isValid
/-- `asts/tokens/blockmatch.go:58-68`: the three contents. -/
def BlockContent.isValid : BlockContent → Bool
  | .container m => m.isValid
  | .block b => b.isValid
  | .next _ => false
/-- `asts/tokens/match.go:45-56`, `IsValid`. -/
def Match.isValid : Match → Bool
  | .token t => t.isValid
  | .rule r => r.isValid
  | .skipToken _ => true
  | .skipRule _ => true
  | .line _ => true
/-- `asts/tokens/tokenmatch.go:41-51`, `IsValid`. -/
def TokenMatch.isValid : TokenMatch → Bool
  | .mk _ r specs => specsValid specs r && r.isValid
/-- `asts/tokens/tokenmatch.go:42-48` with `tokens/specifier.go:41-49`, `IsValid` and `Amount`. -/
def specsValid : List Spec → TokenResult → Bool
  | specs, .mk _ _ l => specs.all (fun s => s.card.isValid (UInt64.ofNat (tokensCount s.containerName l)))
/-- `asts/tokens/tokenresult.go:61-72`, `IsValid`. -/
def TokenResult.isValid : TokenResult → Bool
  | .mk _ c l => c.isValid (UInt64.ofNat l.length) && tokensValid l
/-- `asts/tokens/tokenresultmatches.go:32-40`, `IsValid`. -/
def tokensValid : List Token → Bool
  | [] => true
  | t :: ts => t.isValid && tokensValid ts
/-- `tokens/specifier.go:51-79`, `fetchAmountResultsFromContainerName`. -/
def tokensCount (name : Str) : List Token → Nat
  | [] => 0
  | t :: ts => (if t.isValid then t.mustCount name else 0) + tokensCount name ts
/-- `asts/tokens/specifier.go:51-79`: the inner loop, for one token. -/
def Token.mustCount (name : Str) : Token → Nat
  | .mk _ none => 0
  | .mk _ (some (.mk (.mk _ bs) _)) => blocksCount name bs
/-- `asts/tokens/specifier.go:51-79`: the inner loop over the block matches. -/
def blocksCount (name : Str) : List BlockMatch → Nat
  | [] => 0
  | b :: bs => (if b.isValid then b.countIn name else 0) + blocksCount name bs
end

/-! `Discoveries` of `asts/tokens/token.go:66-72`, `tokens/tokencontent.go:52-58`, `tokens/matches.go:59-70`, `tokens/blockmatch.go:87-109`,
`tokens/match.go:31-42`, `tokens/tokenresult.go:89-95`, `tokens/tokenresultmatches.go:54-61`. -/
mutual
/-- `asts/tokens/token.go:66-72`, `Discoveries`. -/
def Token.discoveries : Token → Str
  | .mk _ none => []
  | .mk _ (some c) => c.discoveries
/-- `asts/tokens/tokencontent.go:52-58`, `Discoveries`. -/
def TokenContent.discoveries : TokenContent → Str
  | .mk m (some n) => if n.isValid then [] else m.discoveries
  | .mk m none => m.discoveries
/-- `asts/tokens/matches.go:59-70`, `Discoveries`. -/
def LineMatch.discoveries : LineMatch → Str
  | .mk _ l => if blocksValid l then blocksDiscoveries l else []
/-- `asts/tokens/matches.go:64-69`: the loop. -/
def blocksDiscoveries : List BlockMatch → Str
  | [] => []
  | b :: bs => b.discoveries ++ blocksDiscoveries bs
/-- `asts/tokens/blockmatch.go:87-109`, `Discoveries`. -/
def BlockMatch.discoveries : BlockMatch → Str
  | .mk none c => c.discoveries
  | .mk (some p) c => p.discoveries ++ c.discoveries
/-- `asts/tokens/blockmatch.go:87-109`: the three contents. -/
def BlockContent.discoveries : BlockContent → Str
  | .container m => m.discoveries
  | .block b => b.discoveries
  | .next _ => []
/-- `asts/tokens/match.go:31-42`, `Discoveries`. -/
def Match.discoveries : Match → Str
  | .token t => t.discoveries
  | .rule r => r.discoveries
  | .skipToken _ => []
  | .skipRule _ => []
  | .line _ => []
/-- `asts/tokens/match.go:31-42`: the result of a token. -/
def TokenMatch.discoveries : TokenMatch → Str
  | .mk _ r _ => r.discoveries
/-- `asts/tokens/tokenresult.go:89-95`, `Discoveries`. -/
def TokenResult.discoveries : TokenResult → Str
  | .mk _ _ l => tokensDiscoveries l
/-- `asts/tokens/tokenresultmatches.go:54-61`, `Discoveries`. -/
def tokensDiscoveries : List Token → Str
  | [] => []
  | t :: ts => t.discoveries ++ tokensDiscoveries ts
end

/-! ## The monad of the matcher -/

/-- The mutable fields of the adapter (`asts/tokens/adapter.go:36,38`) and the number of `range` statements over the channels which
have been executed. -/
structure St where
  canPrefix : Bool
  recursive : Str → Option Str
  ranges : Nat

/-- The constant fields of the adapter: `rootPath` and `channels` (`asts/tokens/adapter.go:34-35`); `channels k` is the map in the
order of the `k`-th `range` statement. -/
structure Env where
  root : Path
  channels : Nat → List Path

/-- The methods of `asts/tokens/adapter.go`: they read and write the fields of the adapter; `none` is that there are not enough steps. -/
def M (α : Type) := St → Option (Out α × St)

namespace M

/-- `x, err := app.f(…); if err != nil { return nil, err }` of `asts/tokens/adapter.go`, for example 226-229. -/
def bind {α β} (x : M α) (f : α → M β) : M β := fun s =>
  match x s with
  | none => none
  | some (.ok a, s') => f a s'
  | some (.err, s') => some (.err, s')
  | some (.panic, s') => some (.panic, s')

instance : Monad M where
  pure a := fun s => some (.ok a, s)
  bind := bind

/-- Not enough steps. No Go counterpart: `asts/tokens/adapter.go` has no bound on the steps. -/
def outOfFuel {α} : M α := fun _ => none

/-- A call of `asts/tokens/adapter.go` which does not use the fields of the adapter. -/
def lift {α} (o : Out α) : M α := fun s => some (o, s)
/-- Reading the fields `asts/tokens/adapter.go:36,38`. -/
def get : M St := fun s => some (.ok s, s)
/-- Writing the fields `asts/tokens/adapter.go:36,38`. -/
def set (s : St) : M Unit := fun _ => some (.ok (), s)

end M

/-- `strings.Replace(s, old, "", 1)`. Go library; called at `asts/tokens/adapter.go:352,497,714`. -/
def replaceFirst (s old : Str) : Str :=
  match strIndex old s with
  | some i => s.take i ++ s.drop (i + old.length)
  | none => s

/-! ## The loops of the matcher -/

/-- The variables of `bestLineToMatches` (`asts/tokens/adapter.go:253-258`); `biggestAmountOfInvalidMatches` is never changed. -/
structure Best where
  biggest : Nat
  invalid : Option LineMatch
  valid : Option LineMatch

/-- `asts/tokens/adapter.go:269-284`. -/
def Best.step (b : Best) (index : Nat) (m : List BlockMatch) : Best :=
  if !blocksValid m then
    if m.length > 0 then { b with invalid := some (.mk index m) } else b
  else
    let d := (LineMatch.mk index m).discoveries.length
    if d > b.biggest then { b with valid := some (.mk index m), biggest := d } else b

/-- `asts/tokens/adapter.go:259-285`, the loop of `bestLineToMatches`. -/
def bestLoop (f : Line → M (Option (List BlockMatch))) : List Line → Nat → Best → M Best
  | [], _, b => pure b
  | l :: ls, index, b => do
    let r ← f l
    match r with
    | none => bestLoop f ls (index + 1) b
    | some m => bestLoop f ls (index + 1) (b.step index m)

/-- `asts/tokens/adapter.go:287-295`. -/
def Best.result (b : Best) : Option LineMatch :=
  match b.valid with
  | some l => some l
  | none => b.invalid

/-- `asts/tokens/adapter.go:298-315`, the loop of `findMatchesInChannels`. A valid token has content, see `Token.isValid`. -/
def channelLoop (f : Path → M Token) : List Path → M (Option LineMatch)
  | [] => pure none
  | p :: ps => do
    let t ← f p
    if !t.isValid then channelLoop f ps
    else match t.content with
      | some c => pure (some c.must)
      | none => M.lift .panic

/-- `asts/tokens/adapter.go:317-365`, the loop of `lineToMatches`. -/
def lineLoop (f : PContainer → Str → Bool → Bool → M (Option BlockMatch)) :
    List Instruction → Bool → Bool → Str → List BlockMatch → M (Option (List BlockMatch))
  | [], _, _, _, acc => pure (if acc.isEmpty then none else some acc)
  | .channelSwitch :: is, chans, next, rem, acc => lineLoop f is chans (!next) rem acc
  | .container c :: is, chans, next, rem, acc => do
    let m ← f c rem chans next
    match m with
    | none => pure (if acc.isEmpty then none else some acc)
    | some b =>
      if !b.isValid then pure (some [b])
      else if !(b.discoveries.isPrefixOf rem) then pure none
      else lineLoop f is (if next then chans else false) next (replaceFirst rem b.discoveries) (acc ++ [b])

/-- `asts/tokens/adapter.go:717-723`: `uint(len(results)) >= *pMax`. -/
def reachedMax (card : Card) (len : Nat) : Bool :=
  match card.delimiter.2 with
  | none => false
  | some m => decide (UInt64.ofNat len ≥ m)

/-- `asts/tokens/adapter.go:695-724`, the loop of `tokenPathToTokenResultMatches`. -/
def tokenLoop (f : Str → M Token) (card : Card) : Nat → Str → List Token → M (List Token)
  | 0, _, _ => M.outOfFuel
  | fuel + 1, rem, acc => do
    let t ← f rem
    if !t.isValid then pure acc
    else match t.content with
      | none => M.lift .panic
      | some c =>
        let d := c.must.discoveries
        if !(d.isPrefixOf rem) then pure (acc ++ [t])
        else if reachedMax card (acc.length + 1) then pure (acc ++ [t])
        else tokenLoop f card fuel (replaceFirst rem d) (acc ++ [t])

/-- `asts/tokens/adapter.go:756-758`: after a match which is not at the front no further prefix is allowed. -/
def notePrefix (i : Nat) : M Unit := fun s => some (.ok (), if i > 0 then { s with canPrefix := false } else s)

/-- `asts/tokens/adapter.go:740-774`, the loop of `ruleToRuleMatch`; `canPrefix` is the local variable, `scriptLen` the length of the
whole script. A slice beyond the end of `remaining` would panic. -/
def ruleLoop (rule : Rule) (card : Card) (canPrefix : Bool) (scriptLen : Nat) :
    Nat → Str → List RuleResult → M (List RuleResult)
  | 0, _, _ => M.outOfFuel
  | fuel + 1, rem, acc =>
    match toResult rule rem with
    | .panic => M.lift .panic
    | .err => pure acc
    | .ok res =>
      match res.results with
      | none => pure acc
      | some [] => M.lift .panic
      | some (m :: _) => do
        let i ← M.lift m.index
        notePrefix i
        if i > 0 && !canPrefix then pure (acc ++ [res])
        else if scriptLen ≤ res.content.length then pure (acc ++ [res])
        else if rem.length < res.content.length then M.lift .panic
        else if reachedMax card (acc.length + 1) then pure (acc ++ [res])
        else ruleLoop rule card canPrefix scriptLen fuel (rem.drop res.content.length) (acc ++ [res])

/-! ## Next elements -/

/-- `asts/tokens/adapter.go:455-464`, `fetchFirstContainerFromLine`: nil when the line has channel switches only. -/
def firstContainer : Line → Option PContainer
  | [] => none
  | .channelSwitch :: is => firstContainer is
  | .container c :: _ => some c

/-- `asts/tokens/adapter.go:430-454`, `fetchFirstRuleFromTokenName`. -/
def fetchFirstRule (deps : List Element) : Nat → Str → M Rule
  | 0, _ => M.outOfFuel
  | fuel + 1, name => do
    let e ← M.lift (fetch deps name)
    match e.must with
    | [] => M.lift .panic
    | l :: _ =>
      match firstContainer l with
      | none => M.lift .panic
      | some (.token e' _ _) => fetchFirstRule deps fuel e'.name
      | some (.rule r _) => pure r
      | some (.recursive n _ _) => fetchFirstRule deps fuel n
      | some (.lines _) => M.lift .panic

/-- `asts/tokens/adapter.go:466-480`, `buildNextElementFromRule`, with `patterns/patterns.go:26-28` (`First` panics on an empty list). -/
def nextFromRule (r : Rule) : Out NextElement :=
  match r.content with
  | .constant s => if s = [] then .err else .ok (.constant s)
  | .pattern (p :: _) _ => .ok (.pattern p)
  | .pattern [] _ => .panic

/-- `asts/tokens/adapter.go:406-428`, `buildNextElement`. -/
def buildNextElement (deps : List Element) (fuel : Nat) : PContainer → M NextElement
  | .rule r _ => M.lift (nextFromRule r)
  | .token e _ _ => do
    let r ← fetchFirstRule deps fuel e.name
    M.lift (nextFromRule r)
  | .recursive n _ _ => do
    let r ← fetchFirstRule deps fuel n
    M.lift (nextFromRule r)
  | .lines _ => M.lift .panic

/-! ## The matcher -/

/-- `asts/tokens/adapter.go:733-793`, `ruleToRuleMatch`. -/
def ruleToRuleMatch (fuel : Nat) (base : Rule) (card : Card) (script : Str) (chans : Bool) : M RuleMatch := do
  let s ← M.get
  let list ← ruleLoop base card (s.canPrefix && chans) script.length fuel script []
  let s' ← M.get
  pure ⟨base, card, list, s'.canPrefix && chans⟩

/-- `asts/tokens/adapter.go:534-546` and `612-624`: an invalid token whose cardinality allows 0 is a skip. -/
def wrapToken (t : TokenMatch) : Match :=
  if t.result.card.isValid 0 && !t.isValid then .skipToken t else .token t

/-- `asts/tokens/adapter.go:557-569`: the same for a rule. -/
def wrapRule (r : RuleMatch) : Match :=
  if r.card.isValid 0 && !r.isValid then .skipRule r else .rule r

/-- `tokens/tokenresult_builder.go:49-63` and `tokens/specifier_builder.go:49-63`, as used by `asts/tokens/adapter.go:632-683`. -/
def tokenMatchNow (name : Str) (specs : List Spec) (card : Card) (script : Str) (list : List Token) : Out TokenMatch :=
  if script = [] then .err
  else if specs.any (fun s => s.containerName.isEmpty) then .err
  else .ok (.mk name (.mk script card list) specs)

mutual
/-- `asts/tokens/adapter.go:205-223`, `elementToToken`. -/
def elementToToken (env : Env) : Nat → Element → List Element → Str → Bool → M Token
  | 0, _, _, _, _ => M.outOfFuel
  | n + 1, e, deps, script, chans => do
    let c ← elementToTokenContent env n e deps script chans
    if e.name = [] then M.lift .err else pure (.mk e.name c)

/-- `asts/tokens/adapter.go:225-250`, `elementToTokenContent`. -/
def elementToTokenContent (env : Env) : Nat → Element → List Element → Str → Bool → M (Option TokenContent)
  | 0, _, _, _, _ => M.outOfFuel
  | n + 1, e, deps, script, chans => do
    let must ← bestLineToMatches env n e.must deps script chans
    match must with
    | none => pure none
    | some m =>
      if e.not.isEmpty then pure (some (.mk m none))
      else do
        let not ← bestLineToMatches env n e.not deps script chans
        pure (some (.mk m not))

/-- `asts/tokens/adapter.go:252-296`, `bestLineToMatches`. -/
def bestLineToMatches (env : Env) : Nat → List Line → List Element → Str → Bool → M (Option LineMatch)
  | 0, _, _, _, _ => M.outOfFuel
  | n + 1, lines, deps, script, chans => do
    let b ← bestLoop (fun l => lineToMatches env n l deps script chans) lines 0 ⟨0, none, none⟩
    pure b.result

/-- `asts/tokens/adapter.go:317-365`, `lineToMatches`. -/
def lineToMatches (env : Env) : Nat → Line → List Element → Str → Bool → M (Option (List BlockMatch))
  | 0, _, _, _, _ => M.outOfFuel
  | n + 1, line, deps, script, chans =>
    lineLoop (fun c rem ch next => containerToBlockMatch env n c deps rem ch next) line chans chans script []

/-- `asts/tokens/adapter.go:367-404`, `containerToBlockMatch`. -/
def containerToBlockMatch (env : Env) : Nat → PContainer → List Element → Str → Bool → Bool → M (Option BlockMatch)
  | 0, _, _, _, _, _ => M.outOfFuel
  | n + 1, c, deps, script, chans, next =>
    if script = [] then do
      let card ← M.lift c.cardinality
      if card.isValid 0 then pure none
      else do
        let x ← buildNextElement deps n c
        pure (some (.mk none (.next x)))
    else do
      let ch ← (if chans then findChannelBlockMatch env n c deps script next else pure none)
      match ch with
      | some b => pure (some b)
      | none => do
        let m ← containerToMatch env n c deps script next
        match m with
        | none => pure none
        | some x => pure (some (.mk none (.container x)))

/-- `asts/tokens/adapter.go:482-508`, `findChannelBlockMatch`, with `findMatchesInChannels` (`asts/tokens/adapter.go:298-315`). -/
def findChannelBlockMatch (env : Env) : Nat → PContainer → List Element → Str → Bool → M (Option BlockMatch)
  | 0, _, _, _, _ => M.outOfFuel
  | n + 1, c, deps, script, next => do
    let s ← M.get
    M.set { s with ranges := s.ranges + 1 }
    let p ← channelLoop (fun p => elementToToken env n p.element p.deps script false) (env.channels s.ranges)
    match p with
    | none => pure none
    | some l =>
      if !(l.discoveries.isPrefixOf script) then pure none
      else do
        let b ← containerToBlockMatch env n c deps (replaceFirst script l.discoveries) next next
        match b with
        | none => pure none
        | some b => pure (some (.mk (some l) (.block b)))

/-- `asts/tokens/adapter.go:510-630`, `containerToMatch`. -/
def containerToMatch (env : Env) : Nat → PContainer → List Element → Str → Bool → M (Option Match)
  | 0, _, _, _, _ => M.outOfFuel
  | n + 1, .lines ls, deps, script, chans => do
    let l ← bestLineToMatches env n ls deps script chans
    match l with
    | none => pure none
    | some l => pure (some (.line l))
  | n + 1, .token e specs card, deps, script, chans => do
    let t ← tokenToTokenMatch env n e specs card deps script chans
    pure (some (wrapToken t))
  | n + 1, .rule r card, _, script, chans => do
    let x ← ruleToRuleMatch n r card script chans
    pure (some (wrapRule x))
  | n + 1, .recursive name specs card, deps, script, chans => do
    let s ← M.get
    if s.recursive name = some script then do
      M.set { s with recursive := Function.update s.recursive name none }
      pure none
    else do
      M.set { s with recursive := Function.update s.recursive name (some script) }
      let e ← M.lift (fetch deps name)
      let t ← tokenToTokenMatch env n e specs card deps script chans
      pure (some (wrapToken t))

/-- `asts/tokens/adapter.go:632-651`, `tokenToTokenMatch`, with `tokenToTokenResult` (`asts/tokens/adapter.go:669-683`) and
`tokenPathToTokenResultMatches` (`asts/tokens/adapter.go:685-731`). -/
def tokenToTokenMatch (env : Env) : Nat → Element → List Spec → Card → List Element → Str → Bool → M TokenMatch
  | 0, _, _, _, _, _, _ => M.outOfFuel
  | n + 1, e, specs, card, deps, script, chans => do
    let list ← tokenLoop (fun rem => elementToToken env n e deps rem chans) card n script []
    M.lift (tokenMatchNow e.name specs card script list)
end

/-- `asts/tokens/adapter.go:200-203`, `ToToken`: the recursive tokens are reset, `canContainPrefix` is not. -/
def toToken (env : Env) (fuel : Nat) (script : Str) : M Token := do
  let s ← M.get
  M.set { s with recursive := fun _ => none }
  elementToToken env fuel env.root.element env.root.deps script true

end Verif.Lexer
