import Verif.Model.Cardinality

/-!
# Model of `domain/languages/lexers/containers/patterns`, `containers/rules` (the objects) and `asts/results`

Indices and amounts are natural numbers: they are bounded by the length of a Go string, so the conversions between
`int` and `uint` in the code do not change them (the one conversion of a number that is not bounded in this way,
`int(*pMaxAmount)` of `asts/results/adapter.go:65`, is modelled, see `maxReached`).
-/

namespace Verif.Patterns
open Verif.Cardinality

/-- `patterns/group.go:3-6`, `patterns/groupcontent.go:5-7`. -/
structure Group where
  name : Str
  list : List Str
  deriving DecidableEq, Repr

/-- `patterns/serie.go:3-6`. -/
structure Serie where
  name : Str
  groups : List Group
  deriving DecidableEq, Repr

/-- `patterns/choice.go:3-6`. -/
structure Choice where
  serie : Serie
  isReverse : Bool
  deriving DecidableEq, Repr

/-- `patterns/pattern.go:3-6`. -/
structure Pattern where
  name : Str
  choices : List Choice
  deriving DecidableEq, Repr

/-- `patterns/container.go:3-6`. -/
inductive Container where
  | reverse (s : Serie)
  | group (g : Group)
  deriving DecidableEq, Repr

/-- `patterns/container.go:33-39`, `Name`. -/
def Container.name : Container → Str
  | .reverse s => s.name
  | .group g => g.name

/-- `patterns/discovery.go:3-7`. -/
structure Discovery where
  index : Nat
  content : Str
  container : Container
  deriving DecidableEq, Repr

/-- `patterns/next.go:3-6`. -/
structure Next where
  isReverse : Bool
  group : Group
  deriving DecidableEq, Repr

/-- `patterns/result.go:3-8`; the discoveries (`patterns/discoveries.go:9-12`) are the list. -/
structure Result where
  input : Str
  discoveries : List Discovery
  remaining : Str
  next : Option Next
  deriving DecidableEq, Repr

/-! ## Builders -/

/-- `patterns/group_builder.go:37-52`, `Now`. -/
def groupNow (name : Str) (list : Option (List Str)) : Out Group :=
  if name = [] then .err
  else match list with
    | none => .err
    | some [] => .err
    | some l => .ok ⟨name, l⟩

/-- `patterns/serie_builder.go:37-52`, `Now`. -/
def serieNow (name : Str) (list : Option (List Group)) : Out Serie :=
  if name = [] then .err
  else match list with
    | none => .err
    | some [] => .err
    | some l => .ok ⟨name, l⟩

/-- `patterns/pattern_builder.go:37-52`, `Now`. -/
def patternNow (name : Str) (list : Option (List Choice)) : Out Pattern :=
  if name = [] then .err
  else match list with
    | none => .err
    | some [] => .err
    | some l => .ok ⟨name, l⟩

/-- `patterns/discovery_builder.go:45-59`, `Now` (index and container are always given by the callers). -/
def discoveryNow (index : Nat) (content : Str) (container : Container) : Out Discovery :=
  if content = [] then .err else .ok ⟨index, content, container⟩

/-- `patterns/discoveries_builder.go:29-45` and `patterns/result_builder.go:53-75`, `Now`. -/
def resultNow (input : Str) (discoveries : List Discovery) (remaining : Str) (next : Option Next) : Out Result :=
  match discoveries with
  | [] => .err
  | d :: ds => if input = [] then .err else .ok ⟨input, d :: ds, remaining, next⟩

/-! ## Observers -/

/-- `patterns/discoveries.go:32-39`, `Content`. -/
def Result.content (r : Result) : Str := (r.discoveries.map Discovery.content).flatten

/-- `patterns/discoveries.go:27-29`, `Index`: an empty list would panic. -/
def Result.index (r : Result) : Out Nat :=
  match r.discoveries with
  | [] => .panic
  | d :: _ => .ok d.index

/-- `patterns/discoveries.go:57-60`, `Amount`. -/
def Result.amount (r : Result) : Nat := r.content.length

/-- `patterns/discoveries.go:42-49`, `Find`: the map holds, for every name, the last discovery with this name
(`patterns/discoveries_builder.go:38-42`). -/
def findDiscovery (l : List Discovery) (name : Str) : Out Discovery :=
  match l.reverse.find? (fun d => d.container.name = name) with
  | some d => .ok d
  | none => .err

/-- `patterns/groups.go:31-38`, `Find`: the last declared group with the name. -/
def findGroup (l : List Group) (name : Str) : Out Group :=
  match l.reverse.find? (fun d => d.name = name) with
  | some d => .ok d
  | none => .err

/-- `patterns/patterns.go:36-43`, `Find`: the last declared pattern with the name. -/
def findPattern (l : List Pattern) (name : Str) : Out Pattern :=
  match l.reverse.find? (fun d => d.name = name) with
  | some d => .ok d
  | none => .err

/-! ## Matching -/

/-- `patterns/groupcontent.go:35-47`, `Contains`. -/
def contains (list : List Str) (content : Str) : Nat :=
  list.foldl (fun longest e =>
    if e <+: content then (if e.length ≥ longest then e.length else longest) else longest) 0

/-- `patterns/adapter.go:339-358`, the reverse loop of `matchesGroup`: the number of bytes before the first position where an
element of the group begins. -/
def reverseAmount (list : List Str) : Str → Nat
  | [] => 0
  | c :: cs => if contains list (c :: cs) = 0 then reverseAmount list cs + 1 else 0

/-- `patterns/adapter.go:333-359`, `matchesGroup`. -/
def matchesGroup (g : Group) (content : Str) (isReverse : Bool) : Nat :=
  if isReverse then reverseAmount g.list content else contains g.list content

/-- `patterns/adapter.go:103-148`, `FromGroupToResult`, from index `i` on; `rest` is `content[i:]`. -/
def fromGroupAt (g : Group) (content : Str) (i : Nat) : Str → Out Result
  | [] => .err
  | c :: cs =>
    let m := matchesGroup g (c :: cs) false
    if m = 0 then fromGroupAt g content (i + 1) cs
    else do
      let d ← discoveryNow i ((c :: cs).take m) (.group g)
      resultNow content [d] (if m < content.length then content.drop m else []) none

/-- `patterns/adapter.go:103-148`, `FromGroupToResult`. -/
def fromGroup (g : Group) (content : Str) : Out Result := fromGroupAt g content 0 content

/-- The four results of `matchChoice`: is it a match, the discoveries, the next group, the remaining content. `containers/patterns/adapter.go:261`. -/
structure ChoiceMatch where
  isMatch : Bool
  list : List Discovery
  next : Option Group
  remaining : Str

/-- `patterns/adapter.go:270-304`, the loop of `matchSerie` (`acc` is the list of discoveries so far). -/
def matchSerie (index : Nat) (acc : List Discovery) : List Group → Str → ChoiceMatch
  | [], remaining => ⟨true, acc, none, remaining⟩
  | g :: gs, remaining =>
    if remaining = [] then ⟨false, acc, some g, []⟩
    else
      let amount := matchesGroup g remaining false
      if amount = 0 then ⟨false, acc, some g, remaining⟩
      else match discoveryNow index (remaining.take amount) (.group g) with
        | .ok d => matchSerie index (acc ++ [d]) gs (remaining.drop amount)
        | _ => ⟨false, [], none, []⟩

/-- `patterns/adapter.go:306-331`, `matchReversedSerie`; `groups[0]` panics on a serie without groups. -/
def matchReversedSerie (serie : Serie) (content : Str) (index : Nat) : Out ChoiceMatch :=
  match serie.groups with
  | [] => .panic
  | g :: _ =>
    let amount := matchesGroup g content true
    if amount = 0 then .ok ⟨false, [], none, []⟩
    else do
      let d ← discoveryNow index (content.take amount) (.reverse serie)
      return ⟨true, [d], some g, content.drop amount⟩

/-- `patterns/adapter.go:261-268`, `matchChoice`. -/
def matchChoice (c : Choice) (content : Str) (index : Nat) : Out ChoiceMatch :=
  if c.isReverse then matchReversedSerie c.serie content index
  else .ok (matchSerie index [] c.serie.groups content)

/-- `patterns/adapter.go:201-233`, the loop of `matchPattern`: discoveries, next and remaining content. The first choice gets the
index, the others get 0. -/
def matchChoices (acc : List Discovery) (index : Nat) : List Choice → Str → Out (List Discovery × Option Next × Str)
  | [], remaining => .ok (acc, none, remaining)
  | c :: cs, remaining => do
    let m ← matchChoice c remaining index
    if m.isMatch then matchChoices (acc ++ m.list) 0 cs m.remaining
    else match m.next with
      | some g => return (acc, some ⟨c.isReverse, g⟩, m.remaining)
      | none => return (acc, none, m.remaining)

/-- `patterns/adapter.go:196-259`, `matchPattern` (`none` is the nil result). -/
def matchPattern (p : Pattern) (content : Str) (index : Nat) : Out (Option Result) := do
  let r ← matchChoices [] index p.choices content
  if r.1 = [] then return none
  else do
    let x ← resultNow content r.1 r.2.2 r.2.1
    return some x

/-- `patterns/adapter.go:151-168`, `FromPatternToResult`, from index `i` on. -/
def fromPatternAt (p : Pattern) (i : Nat) : Str → Out Result
  | [] => .err
  | c :: cs => do
    let r ← matchPattern p (c :: cs) i
    match r with
    | some x => return x
    | none => fromPatternAt p (i + 1) cs

/-- `patterns/adapter.go:151-168`, `FromPatternToResult`. -/
def fromPattern (p : Pattern) (content : Str) : Out Result := fromPatternAt p 0 content

/-- `patterns/adapter.go:175-187`, the loop of `FromPatternsToResult`; `best` is `(index, res)`.  The initial index
`int(^uint(0) >> 1)` is larger than every index, which is modelled by `none`. -/
def fromPatternsLoop (content : Str) : List Pattern → Option (Nat × Result) → Out (Option (Nat × Result))
  | [], best => .ok best
  | p :: ps, best =>
    match fromPattern p content with
    | .panic => .panic
    | .err => fromPatternsLoop content ps best
    | .ok r => do
      let i ← r.index
      match best with
      | none => fromPatternsLoop content ps (some (i, r))
      | some (j, r') => if i < j then fromPatternsLoop content ps (some (i, r)) else fromPatternsLoop content ps (some (j, r'))

/-- `patterns/adapter.go:171-194`, `FromPatternsToResult`. -/
def fromPatterns (ps : List Pattern) (content : Str) : Out Result := do
  let b ← fromPatternsLoop content ps none
  match b with
  | some (_, r) => return r
  | none => .err

/-! ## Rules (`containers/rules`) -/

/-- `rules/content.go:3-6`, `rules/pattern.go:8-11`: `constant []` is the content which is neither a constant nor a
pattern (`IsConstant` is `constant != ""`). -/
inductive RuleContent where
  | constant (s : Str)
  | pattern (subPatterns : List Pattern) (card : Card)
  deriving DecidableEq, Repr

/-- `rules/rule.go:3-7`, `rules/element.go:3-6`. -/
structure Rule where
  name : Str
  code : Str
  content : RuleContent
  elementCode : Str
  deriving DecidableEq, Repr

/-- `rules/rule_builder.go:45-59` and `rules/element_builder.go:37-47` (`Now`): name and codes are mandatory. -/
def ruleNow (name code : Str) (content : Option RuleContent) (elementCode : Str) : Out Rule :=
  match content with
  | none => .err
  | some c => if elementCode = [] then .err else if name = [] then .err else if code = [] then .err
      else .ok ⟨name, code, c, elementCode⟩

/-! ## Results (`asts/results`) -/

/-- `asts/results/result.go:5-8`, `results/matches.go:9-11`: `matches = none` is the nil value. -/
structure RuleResult where
  input : Rule
  results : Option (List Result)
  deriving DecidableEq, Repr

/-- `asts/results/result.go:41-47` and `results/matches.go:24-31`, `Content`. -/
def RuleResult.content (r : RuleResult) : Str :=
  match r.results with
  | some l => (l.map Result.content).flatten
  | none => []

/-- `asts/results/result.go:50-56` and `results/matches.go:34-36`, `Amount`. -/
def RuleResult.amount (r : RuleResult) : Nat :=
  match r.results with
  | some l => l.length
  | none => 0

/-- `asts/results/adapter.go:65`: `pMaxAmount != nil && len(list) >= int(*pMaxAmount)`; `int` of a number from 2^63 on is
negative. -/
def maxReached (pMax : Option UInt64) (len : Nat) : Bool :=
  match pMax with
  | none => false
  | some m => decide ((len : Int) ≥ (m.toInt64).toInt)

/-- `asts/results/adapter.go:59-82`, the loop; every round consumes at least one byte, so `fuel` = length of the script
suffices (`RuleResult.loop_fuel`). -/
def resultLoop (ps : List Pattern) (pMax : Option UInt64) : Nat → List Result → Str → Out (List Result)
  | 0, list, _ => .ok list
  | fuel + 1, list, remaining =>
    if remaining = [] then .ok list
    else if maxReached pMax list.length then .ok list
    else match fromPatterns ps remaining with
      | .panic => .panic
      | .err => .ok list
      | .ok r => do
        let i ← r.index
        if i > 0 then return list
        else resultLoop ps pMax fuel (list ++ [r]) (remaining.drop r.amount)

/-- `asts/results/adapter.go:29-90`, `ToResult`. -/
def toResult (rule : Rule) (script : Str) : Out RuleResult :=
  match rule.content with
  | .constant s =>
    if s = [] then .ok ⟨rule, none⟩
    else do
      let g ← groupNow s (some [s])
      match fromGroup g script with
      | .panic => .panic
      | .ok r => return ⟨rule, some [r]⟩
      | .err => return ⟨rule, none⟩
  | .pattern ps card => do
    let l ← resultLoop ps card.delimiter.2 script.length [] script
    if l = [] then return ⟨rule, none⟩ else return ⟨rule, some l⟩

end Verif.Patterns
