import Verif.Model.Ast

/-!
# Model of `containers/tokens` (the grammar objects and their builders), of the containers `rules`, `tokens`, `patterns` and
`links`, and of the compiler of grammars, `asts/paths/adapter.go`

All under `domain/languages/lexers/`.  The text of the elements (`containers/tokens/element.go:7`, `code`) is kept because the builder asks
for it; it is used nowhere else.
-/

namespace Verif.Lexer
open Verif.Patterns Verif.Cardinality

/-! ## Go maps -/

/-- A Go map with string keys. For example `containers/rules/builder.go:41`. -/
abbrev GoMap (α : Type) := Str → Option α

/-- `map[string]T{}`. For example `containers/rules/builder.go:41`. -/
def GoMap.empty {α : Type} : GoMap α := fun _ => none

/-- `mp[key] = value`. For example `containers/rules/builder.go:49`. -/
def GoMap.set {α : Type} (m : GoMap α) (key : Str) (value : α) : GoMap α := fun k => if k = key then some value else m k

/-- The `Find` of all the containers: `if ins, ok := mp[name]; ok { return ins, nil }`, an error otherwise. For example `containers/rules/rules.go`, `containers/tokens/tokens.go`. -/
def GoMap.find {α : Type} (m : GoMap α) (key : Str) : Out α :=
  match m key with
  | some v => .ok v
  | none => .err

/-- The loops `for _, one := range list { mp[one.Name()] = one }`. For example `containers/tokens/builder.go:41-49`. -/
def mapByName {α : Type} (name : α → Str) : List α → GoMap α → GoMap α
  | [], m => m
  | a :: l, m => mapByName name l (m.set (name a) a)

/-- The loops of `containers/rules/builder.go:41-51` and `containers/tokens/builder.go:42-50`: a name which is already in the
map is an error. -/
def mapUnique {α : Type} (name : α → Str) : List α → GoMap α → Out (GoMap α)
  | [], m => .ok m
  | a :: l, m => if (m (name a)).isSome then .err else mapUnique name l (m.set (name a) a)

/-- A container: the list and the map (`rules/rules.go:8-11`, `tokens/tokens.go:8-11`, `patterns/patterns.go:8-11`, `groups.go`). -/
structure Named (α : Type) where
  list : List α
  mp : GoMap α

/-- `containers/rules/builder.go:32-53` and `containers/tokens/builder.go:32-52`, `Now`; the nil list is `[]`. -/
def uniqueNow {α : Type} (name : α → Str) (list : List α) : Out (Named α) :=
  match list with
  | [] => .err
  | l => do
    let m ← mapUnique name l GoMap.empty
    return ⟨l, m⟩

/-- `containers/patterns/builder.go:29-45` and `patterns/groups_builder.go:29-45`, `Now`: the names are not checked. -/
def lastNow {α : Type} (name : α → Str) (list : List α) : Out (Named α) :=
  match list with
  | [] => .err
  | l => .ok ⟨l, mapByName name l GoMap.empty⟩

/-- `rules/rules.go:31-38`, `tokens/tokens.go:31-38`, `patterns/patterns.go:36-43`, `patterns/groups.go:31-38`: `Find`. -/
def Named.find {α : Type} (c : Named α) (name : Str) : Out α := c.mp.find name

/-- `containers/rules`: a `Rules` instance. `containers/rules/rules.go`. -/
abbrev RuleSet := Named Rule
/-- `containers/rules/builder.go:32-53`, `Now`. -/
def rulesNow (l : List Rule) : Out RuleSet := uniqueNow Rule.name l
/-- `containers/patterns`: a `Patterns` instance. `containers/patterns/patterns.go`. -/
abbrev PatternSet := Named Pattern
/-- `containers/patterns/builder.go:29-45`, `Now`. -/
def patternsNow (l : List Pattern) : Out PatternSet := lastNow Pattern.name l
/-- `containers/patterns`: a `Groups` instance. `containers/patterns/groups.go`. -/
abbrev GroupSet := Named Group
/-- `containers/patterns/groups_builder.go:29-45`, `Now`. -/
def groupsNow (l : List Group) : Out GroupSet := lastNow Group.name l

/-- `references/links/link.go`: a link of a local token to a token of an included file. -/
structure Link where
  includeName : Str
  localToken : Str
  refToken : Str
  deriving DecidableEq, Repr

/-- `references/links/links.go:8-12`. -/
structure Links where
  list : List Link
  mpLocal : GoMap Link
  mpRef : GoMap (GoMap Link)

/-- `references/links/builder.go:44-53`: the second loop. -/
def refLoop : List Link → GoMap (GoMap Link) → GoMap (GoMap Link)
  | [], m => m
  | a :: l, m =>
    let m := if (m a.includeName).isSome then m else m.set a.includeName GoMap.empty
    match m a.includeName with
    | some inner => refLoop l (m.set a.includeName (inner.set a.refToken a))
    | none => refLoop l m

/-- `references/links/builder.go:29-56`, `Now`. -/
def linksNow (list : List Link) : Out Links :=
  match list with
  | [] => .err
  | l => .ok ⟨l, mapByName Link.localToken l GoMap.empty, refLoop l GoMap.empty⟩

/-- `references/links/links.go:34-41`, `FetchByLocalToken`. -/
def Links.fetchByLocalToken (l : Links) (name : Str) : Out Link := l.mpLocal.find name

/-- `references/links/links.go:44-56`, `FetchByReferenceToken`. -/
def Links.fetchByReferenceToken (l : Links) (includeName refToken : Str) : Out Link :=
  match l.mpRef includeName with
  | some inner => inner.find refToken
  | none => .err

/-! ## The objects of a grammar -/

/-- `containers/tokens/tokenspecifiercontent.go:5-8`: exactly one of the two is set by the builder. -/
inductive GSpecContent where
  | token (name : Str)
  | rule (r : Rule)
  deriving DecidableEq, Repr

/-- `tokens/tokenspecifiercontent.go:35-41`, `Name`. -/
def GSpecContent.name : GSpecContent → Str
  | .token n => n
  | .rule r => r.name

/-- `tokens/tokenspecifier.go:5-8`. -/
structure GSpec where
  content : GSpecContent
  card : Specific
  deriving DecidableEq, Repr

/-- `tokens/content.go:5-8` and `tokens/tokenreference.go:3-6`; the nil specifiers are `[]` (the builder of the specifiers refuses an empty
list). -/
inductive GContent where
  | token (name : Str) (specs : List GSpec)
  | rule (r : Rule)
  deriving DecidableEq, Repr

/-- `containers/tokens/element.go:5-9`. -/
structure GElement where
  content : GContent
  code : Str
  card : Option Card
  deriving DecidableEq, Repr

/-- `containers/tokens/instruction.go:3-6`. -/
inductive GInstr where
  | channelSwitch
  | element (e : GElement)
  deriving DecidableEq, Repr

/-- `containers/tokens/line.go:3-5`. -/
abbrev GLine := List GInstr

/-- `containers/tokens/token.go:3-7`, `tokens/block.go:3-6`, `lines.go`, `tokens/testsuite.go:3-5`. -/
structure GToken where
  name : Str
  must : List GLine
  not : Option (List GLine)
  tests : Option (List Str)
  deriving DecidableEq, Repr

/-- `containers/tokens`: a `Tokens` instance. `containers/tokens/tokens.go`. -/
abbrev TokenSet := Named GToken
/-- `containers/tokens/builder.go:32-52`, `Now`. -/
def tokensNow (l : List GToken) : Out TokenSet := uniqueNow GToken.name l

/-! ### Builders -/

/-- `tokens/tokenspecifiercontent_builder.go:41-51`, `Now` (the nil rule is `none`). -/
def gspecContentNow (token : Str) (rule : Option Rule) : Out GSpecContent :=
  match rule with
  | some r => .ok (.rule r)
  | none => if token ≠ [] then .ok (.token token) else .err

/-- `tokens/tokenspecifier_builder.go:41-51`, `Now`. -/
def gspecNow (content : Option GSpecContent) (card : Option Specific) : Out GSpec :=
  match content with
  | none => .err
  | some c => match card with
    | none => .err
    | some k => .ok ⟨c, k⟩

/-- `tokens/tokenreference_builder.go:37-47`, `Now`, and `tokens/tokenspecifiers_builder.go:29-45`, whose list is given when there are
specifiers. -/
def gtokenRefNow (name : Str) (specs : Option (List GSpec)) : Out GContent :=
  if name = [] then .err
  else match specs with
    | none => .ok (.token name [])
    | some [] => .err
    | some l => .ok (.token name l)

/-- `containers/tokens/element_builder.go:49-63`, `Now`. -/
def gelementNow (content : Option GContent) (code : Str) (card : Option Card) : Out GElement :=
  match content with
  | none => .err
  | some c => if code = [] then .err else .ok ⟨c, code, card⟩

/-- `containers/tokens/instruction_builder.go:37-47`, `Now`. -/
def ginstrNow (isSwitch : Bool) (element : Option GElement) : Out GInstr :=
  match element with
  | some e => .ok (.element e)
  | none => if isSwitch then .ok .channelSwitch else .err

/-- `containers/tokens/line_builder.go:29-39`, `tokens/lines_builder.go:29-39` and `tokens/testsuite_builder.go:29-39`, `Now`: not empty. -/
def gnonEmptyNow {α : Type} (l : List α) : Out (List α) := if l = [] then .err else .ok l

/-- `containers/tokens/token_builder.go:45-59` and `tokens/block_builder.go:37-47`, `Now`. -/
def gtokenNow (name : Str) (must : Option (List GLine)) (not : Option (List GLine)) (tests : Option (List Str)) : Out GToken :=
  match must with
  | none => .err
  | some m => if name = [] then .err else .ok ⟨name, m, not, tests⟩

/-! ## The compiler: `asts/paths/adapter.go` -/

/-- The fields of the adapter which are set by its builder (`paths/adapter.go:24-26`); a nil function is the one that always
returns nil (the calls, lines 467-491, do the same for both: without `tokenNotFoundFn` and without a path from it
an error is returned). -/
structure PathEnv where
  tokens : TokenSet
  notFound : Str → Option Path := fun _ => none
  replace : Str → Option (Element × List Element) := fun _ => none

/-- `asts/paths/specifier_builder.go:41-51`, `Now`. -/
def specifierNow (name : Str) (card : Specific) : Out Spec := if name = [] then .err else .ok ⟨name, card⟩

/-- `paths/adapter.go:526-541`, `buildSpecifiers`. -/
def buildSpecifiers (l : List GSpec) : Out (List Spec) := mapOut (fun s => specifierNow s.content.name s.card) l

/-- `asts/paths/element_builder.go:45-67`, `Now`. -/
def elementNow (name : Str) (must not : List Line) : Out Element :=
  if name = [] then .err else if must = [] then .err else .ok (.mk name must not)

/-- `paths/adapter.go:460-524`, `tokenReferenceToTokenPath`: the element of the reference and the elements it needs. `rec` is
`toElementEncapsulated` (289-298). `CombinedElements` (`asts/paths/path.go:31-34`) lists the dependencies in the order of a Go map; they
have different names, so that the order is of no consequence for `fetch`. -/
def tokenReferenceToTokenPath (g : PathEnv) (rec : GToken → Out (Element × List Element)) (name : Str) :
    Out (Element × List Element) :=
  match g.replace name with
  | some (e, ext) => .ok (e, ext)
  | none =>
    match g.tokens.find name with
    | .ok t => rec t
    | .panic => .panic
    | .err =>
      match g.notFound name with
      | some p => .ok (p.element, p.deps ++ [p.element])
      | none => .err

/-- `paths/adapter.go:371-458`, `elementToContainer`; `stack` are the names in `currentTokenStack`, `amount` the number of elements
in the line. The parameters `lineIndex` and `blockLines` are not used by the code. -/
def elementToContainer (g : PathEnv) (rec : GToken → Out (Element × List Element)) (stack : List Str) (parent : Str)
    (amount : Nat) (e : GElement) : Out (PContainer × List Element) :=
  let card := e.card.getD .mandatory
  match e.content with
  | .token name specs =>
    if name ∈ stack then
      if parent = name ∧ amount ≤ 1 then .err
      else do
        let sp ← buildSpecifiers specs
        if name = [] then .err else return (.recursive name sp card, [])
    else do
      let (el, ext) ← tokenReferenceToTokenPath g rec name
      let sp ← buildSpecifiers specs
      return (.token el sp card, ext)
  | .rule r => .ok (.rule r card, [])

/-- `paths/adapter.go:331-361`: the loop over the instructions of a line. -/
def processInstructions (g : PathEnv) (rec : GToken → Out (Element × List Element)) (stack : List Str) (parent : Str)
    (amount : Nat) : GLine → Out (Line × List Element)
  | [] => .ok ([], [])
  | .channelSwitch :: is => do
    let (l, ext) ← processInstructions g rec stack parent amount is
    return (.channelSwitch :: l, ext)
  | .element e :: is => do
    let (c, ext) ← elementToContainer g rec stack parent amount e
    let (l, ext') ← processInstructions g rec stack parent amount is
    return (.container c :: l, ext ++ ext')

/-- `paths/adapter.go:321-329`: the number of the elements in a line. -/
def elementsIn (l : GLine) : Nat := (l.filter (fun i => i ≠ .channelSwitch)).length

/-- `paths/adapter.go:320-369`, `processLine`, with `asts/paths/line_builder.go:29-39`. -/
def processLine (g : PathEnv) (rec : GToken → Out (Element × List Element)) (stack : List Str) (parent : Str) (l : GLine) :
    Out (Line × List Element) := do
  let (is, ext) ← processInstructions g rec stack parent (elementsIn l) l
  if is = [] then .err else return (is, ext)

/-- `paths/adapter.go:300-318`, `processLines`. -/
def processLines (g : PathEnv) (rec : GToken → Out (Element × List Element)) (stack : List Str) (parent : Str) :
    List GLine → Out (List Line × List Element)
  | [] => .ok ([], [])
  | l :: ls => do
    let (x, ext) ← processLine g rec stack parent l
    let (xs, ext') ← processLines g rec stack parent ls
    return (x :: xs, ext ++ ext')

/-- `paths/adapter.go:258-287`, `toElement`, and `toElementEncapsulated` (289-298), which puts the name on the stack during the
call. A depth which is not sufficient is a stack overflow. -/
def toElement (g : PathEnv) : Nat → List Str → GToken → Out (Element × List Element)
  | 0, _, _ => .panic
  | d + 1, stack, t => do
    let rec' := fun u : GToken => toElement g d (u.name :: stack) u
    let (must, ext) ← processLines g rec' stack t.name t.must
    match t.not with
    | none => do
      let e ← elementNow t.name must []
      return (e, ext)
    | some ls => do
      let (not, ext') ← processLines g rec' stack t.name ls
      let e ← elementNow t.name must not
      return (e, ext ++ ext')

/-- `paths/adapter.go:242-256`, `buildDependencies`. -/
def buildDependencies (g : PathEnv) (d : Nat) : List GToken → Out (List Element)
  | [] => .ok []
  | t :: ts => do
    let (e, ext) ← toElement g d [] t
    let l ← buildDependencies g d ts
    return e :: ext ++ l

/-- `paths/adapter.go:212-240`, `ToPath`: the dependencies are built by the first call and kept; they do not depend on the token.
`d` is the depth of the stack. -/
def toPath (g : PathEnv) (d : Nat) (t : GToken) : Out Path := do
  let deps ← buildDependencies g d g.tokens.list
  let (e, ext) ← toElement g d [] t
  return ⟨e, deps ++ ext ++ [e]⟩

/-- `paths/adapter.go:212-240`, `ToPath` with the field `dependencies` of the adapter (27): nil (`none`) until a call has built
them. (The stack is empty again after each call, line 292-295 and 222.) -/
def toPathSt (g : PathEnv) (d : Nat) (t : GToken) (cache : Option (List Element)) : Out Path × Option (List Element) :=
  let deps : Out (List Element) := match cache with
    | some l => .ok l
    | none => buildDependencies g d g.tokens.list
  match deps with
  | .ok l => (do
      let (e, ext) ← toElement g d [] t
      return ⟨e, l ++ ext ++ [e]⟩, some l)
  | .err => (.err, cache)
  | .panic => (.panic, cache)

/-- A history of calls of one adapter: the results, and the cache in the end. The method is `ToPath` of `asts/paths/adapter.go`. -/
def toPathCalls (g : PathEnv) (d : Nat) : List GToken → Option (List Element) → List (Out Path) × Option (List Element)
  | [], c => ([], c)
  | t :: ts, c =>
    let (r, c') := toPathSt g d t c
    let (rs, c'') := toPathCalls g d ts c'
    (r :: rs, c'')

/-- `asts/tokens/adapter_builder.go:193-204`: the loop over the channels. -/
def channelPaths (g : PathEnv) (d : Nat) : List GToken → Out (List Path)
  | [] => .ok []
  | t :: ts => do
    let p ← toPath g d t
    let ps ← channelPaths g d ts
    return p :: ps

/-- `asts/tokens/adapter_builder.go:165-257` and `asts/adapter_builder.go:137-185`, `Now`: the root path and the paths of the
channels (the channels are a `Tokens` instance, so that their names are different and the map has one entry for each). -/
def matcherNow (g : PathEnv) (d : Nat) (root : GToken) (channels : Option TokenSet) : Out (Path × List Path) := do
  let p ← toPath g d root
  match channels with
  | none => return (p, [])
  | some cs => do
    let ps ← channelPaths g d cs.list
    return (p, ps)

end Verif.Lexer
