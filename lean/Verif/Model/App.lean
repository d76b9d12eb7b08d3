import Verif.Model.Suites
import Verif.Model.Roots

/-!
# Model of `applications/languages/lexers`: the application of the lexer

The adapters which read the texts of the patterns, the rules, the tokens and the references are fields of `Frontend`: the
theorems hold for all of them.
-/

namespace Verif.Lexer
open Verif.Patterns Verif.Cardinality

/-- `domain/languages/lexers/paths/paths.go:3-7`, without the channels. -/
structure FilePaths where
  rules : Str
  tokens : Str
  deriving DecidableEq, Repr

/-- `references/links/link.go`, `include.go`: a link to a token of an included grammar. -/
structure RLink where
  includeName : Str
  paths : FilePaths
  localToken : Str
  refToken : Str
  deriving DecidableEq, Repr

/-- `references/references.go:5-8`; the nil links are `none`. -/
structure References where
  references : Option (List RLink)
  replacements : Option (List RLink)
  deriving DecidableEq, Repr

/-- `resources/containers/container.go:3-7`. -/
structure ResContainer where
  patterns : Str
  rules : Str
  tokens : Str
  deriving DecidableEq, Repr

/-- `resources/containers/builder.go:45-59`, `Now`. -/
def resContainerNow (patterns rules tokens : Str) : Out ResContainer :=
  if patterns = [] then .err else if rules = [] then .err else if tokens = [] then .err else .ok ⟨patterns, rules, tokens⟩

/-- The parts of the application which are not modelled here: the four text adapters, the files (`filepath.Join` and
`ioutil.ReadFile`, given the base path and the path of the include), and what follows in `linkToPathFromFile` once a container
is built (`lexers/application.go:448-459`, `replacePathElementName` is 462-482). -/
structure Frontend where
  toPatterns : Str → Out PatternSet
  toRules : Str → PatternSet → Out RuleSet
  toTokens : RuleSet → Str → Out TokenSet
  toReferences : Str → Out References
  read : Str → Str → Out Str
  includePath : ResContainer → RLink → Out Path

/-- `lexers/application.go:297-328`, `createTokens`. -/
def createTokens (fe : Frontend) (c : ResContainer) (channels : Str) : Out (TokenSet × Option TokenSet) := do
  let ps ← fe.toPatterns c.patterns
  let rs ← fe.toRules c.rules ps
  let ts ← fe.toTokens rs c.tokens
  if channels ≠ [] then
    let cs ← fe.toTokens rs channels
    return (ts, some cs)
  else return (ts, none)

/-- `lexers/application.go:283-295`, `createRootToken`. -/
def createRootToken (fe : Frontend) (root : Str) (c : ResContainer) (channels : Str) :
    Out (GToken × TokenSet × Option TokenSet) := do
  let (ts, cs) ← createTokens fe c channels
  let t ← ts.find root
  return (t, ts, cs)

/-- `lexers/application.go:416-460`, `linkToPathFromFile`: the container is built without patterns (443). -/
def linkToPathFromFile (fe : Frontend) (base : FilePaths) (l : RLink) : Out Path := do
  let rules ← fe.read base.rules l.paths.rules
  let tokens ← fe.read base.tokens l.paths.tokens
  let c ← resContainerNow [] rules tokens
  fe.includePath c l

/-- `lexers/application.go:392-414`, `fetchNotFoundPaths`: the loop. -/
def notFoundLoop (fe : Frontend) (base : FilePaths) : List RLink → GoMap Path → Out (GoMap Path)
  | [], m => .ok m
  | l :: ls, m => do
    let p ← linkToPathFromFile fe base l
    notFoundLoop fe base ls (m.set l.localToken p)

/-- `lexers/application.go:392-414`, `fetchNotFoundPaths`. -/
def fetchNotFoundPaths (fe : Frontend) (base : FilePaths) (r : References) : Out (GoMap Path) :=
  match r.references with
  | none => .ok GoMap.empty
  | some l => notFoundLoop fe base l GoMap.empty

/-- `lexers/application.go:350-360` and `484-506`: the compiler for the tokens with the two functions (a nil function and one
which always returns nil behave in the same way). -/
def appEnv (ts : TokenSet) (notFound replacement : GoMap Path) : PathEnv :=
  { tokens := ts, notFound := notFound, replace := fun n => (replacement n).map (fun p => (p.element, p.deps)) }

/-- `lexers/application.go:165-201`, `path` with `skipReplacement`; `d` is the depth of the stack. -/
def pathSkip (fe : Frontend) (base : FilePaths) (d : Nat) (root : Str) (c : ResContainer) (m : GoMap Path) : Out Path := do
  let (t, ts, _) ← createRootToken fe root c []
  let r ← fe.toReferences c.tokens
  let nf ← fetchNotFoundPaths fe base r
  toPath (appEnv ts nf m) d t

/-- `resources/paths/builder.go:41-51`, `Now`: the root token has a name. -/
def resPathNow (root : Str) (c : ResContainer) : Out (Str × ResContainer) := if root = [] then .err else .ok (root, c)

/-- `lexers/application.go:372-387`: the loop of `fetchReplacementPaths`. The map is changed in place, also if an error follows. -/
def replacementLoop (fe : Frontend) (base : FilePaths) (d : Nat) (c : ResContainer) : List RLink → GoMap Path → Out Unit × GoMap Path
  | [], m => (.ok (), m)
  | l :: ls, m =>
    match (do let (root, c) ← resPathNow l.localToken c; pathSkip fe base d root c m) with
    | .err => (.err, m)
    | .panic => (.panic, m)
    | .ok p => replacementLoop fe base d c ls (m.set l.refToken p)

/-- `lexers/application.go:363-390`, `fetchReplacementPaths`. -/
def fetchReplacementPaths (fe : Frontend) (base : FilePaths) (d : Nat) (c : ResContainer) (r : References) (m : GoMap Path) :
    Out Unit × GoMap Path :=
  match r.replacements with
  | none => (.ok (), m)
  | some l => replacementLoop fe base d c l m

/-- `lexers/application.go:330-361`, `createNotFoundAndReplacementFuncs` without `skipReplacement`, and the map of the application
afterwards. -/
def createFuncs (fe : Frontend) (base : FilePaths) (d : Nat) (c : ResContainer) (r : References) (ts : TokenSet) (m : GoMap Path) :
    Out PathEnv × GoMap Path :=
  match fetchReplacementPaths fe base d c r m with
  | (.err, m') => (.err, m')
  | (.panic, m') => (.panic, m')
  | (.ok _, m') => (do
      let nf ← fetchNotFoundPaths fe base r
      return appEnv ts nf m', m')

/-- `lexers/application.go:103-158` (`AST`), `161-201` (`Path`), `227-271` (`Tests`): what they have in common, up to the call of the
path adapter, the AST adapter or the suites. -/
def appCall {α : Type} (fe : Frontend) (base : FilePaths) (d : Nat) (c : ResContainer) (tokens : Out (α × TokenSet)) (m : GoMap Path) :
    Out (α × PathEnv) × GoMap Path :=
  match tokens with
  | .err => (.err, m)
  | .panic => (.panic, m)
  | .ok (a, ts) =>
    match fe.toReferences c.tokens with
    | .err => (.err, m)
    | .panic => (.panic, m)
    | .ok r =>
      match createFuncs fe base d c r ts m with
      | (.ok g, m') => (.ok (a, g), m')
      | (.err, m') => (.err, m')
      | (.panic, m') => (.panic, m')

/-- `lexers/application.go:161-201`, `Path`. -/
def appPath (fe : Frontend) (base : FilePaths) (d : Nat) (root : Str) (c : ResContainer) (m : GoMap Path) : Out Path × GoMap Path :=
  let x := appCall fe base d c (do let (t, ts, _) ← createRootToken fe root c []; return (t, ts)) m
  (do let (t, g) ← x.1; toPath g d t, x.2)

/-- `contents/content.go`. -/
structure Content where
  content : Str
  isPrefixLegal : Bool
  isSuffixLegal : Bool
  deriving DecidableEq, Repr

/-- `contents/builder.go:45-63`, `Now`. -/
def contentNow (content : Str) (isPrefixLegal isSuffixLegal : Bool) : Out Content :=
  if content = [] then .err else .ok ⟨content, isPrefixLegal, isSuffixLegal⟩

/-- `lexers/application.go:103-158`, `AST`; `order` is the order of the channels, `fuel` the number of steps of the matcher. The flag
for suffixes is given to the adapter of the tokens (`asts/tokens/adapter_builder.go`), which does not use it. -/
def appAST (fe : Frontend) (base : FilePaths) (d : Nat) (order : List Path → Nat → List Path) (fuel : Nat) (root : Str)
    (c : ResContainer) (channels : Str) (content : Content) (m : GoMap Path) : Option (Out AST) × GoMap Path :=
  let x := appCall fe base d c (do let (t, ts, cs) ← createRootToken fe root c channels; return ((t, cs), ts)) m
  (match x.1 with
    | .err => some .err
    | .panic => some .panic
    | .ok ((t, cs), g) =>
      match matcherNow g d t cs with
      | .err => some .err
      | .panic => some .panic
      | .ok (p, ps) => (toAST ⟨p, order ps⟩ content.isPrefixLegal fuel content.content ⟨content.isPrefixLegal, fun _ => none, 0⟩).map (·.1),
   x.2)

/-- `lexers/application.go:82-100`, `Root`: the root (nil: `none`) or the mistake. -/
def appRoot (fe : Frontend) (base : FilePaths) (d : Nat) (order : List Path → Nat → List Path) (fuel : Nat) (root : Str)
    (c : ResContainer) (channels : Str) (content : Content) (m : GoMap Path) : Option (Out (Option Root ⊕ Mistake)) × GoMap Path :=
  let x := appAST fe base d order fuel root c channels content m
  (match x.1 with
    | none => none
    | some .err => some .err
    | some .panic => some .panic
    | some (.ok (.mistake mk)) => some (.ok (.inr mk))
    | some (.ok (.success t)) => some (do let r ← toRoot t; return .inl r),
   x.2)

/-- `lexers/application.go:227-271`, `Tests`. -/
def appTests (fe : Frontend) (base : FilePaths) (d : Nat) (order : Str → Nat → List Path → Nat → List Path) (fuel : Nat)
    (c : ResContainer) (channels : Str) (m : GoMap Path) : Option (Out (List Suite)) × GoMap Path :=
  let x := appCall fe base d c (do let (ts, cs) ← createTokens fe c channels; return (cs, ts)) m
  (match x.1 with
    | .err => some .err
    | .panic => some .panic
    | .ok (cs, g) => execute g cs d order fuel,
   x.2)

/-- `lexers/application.go:204-224`, `Tokens`. -/
def appTokens (fe : Frontend) (c : ResContainer) : Out TokenSet := do
  let ps ← fe.toPatterns c.patterns
  let rs ← fe.toRules c.rules ps
  fe.toTokens rs c.tokens

/-- `lexers/builder.go:101-127`, `Now`: the base paths are mandatory, a nil map is replaced by a new one. -/
def appNow (base : Option FilePaths) (m : Option (GoMap Path)) : Out (FilePaths × GoMap Path) :=
  match base with
  | none => .err
  | some b => .ok (b, m.getD GoMap.empty)

end Verif.Lexer
