import Verif.Model.Regex
import Verif.Model.App

/-!
# Model of the text adapters of the lexer

`references/adapter.go`, `containers/patterns/adapter.go` (`ToPatterns`), `containers/rules/adapter.go` and
`containers/tokens/adapter.go`, with the character classes and delimiters which the `sdk.go` files of these packages pass.
-/

namespace Verif.Text
open Verif.Regex Verif.Patterns Verif.Cardinality Verif.Lexer

/-- `strings.Replace(s, c :: old, new, -1)` for a non-empty old text. Go library; called at `containers/patterns/adapter.go:487`, `containers/rules/adapter.go:137,162,168`. -/
def replaceAll (c : UInt8) (old new s : Str) : Str := List.flatten ((splitSep c old s).intersperse new)

/-- `strings.Replace(s, old, "", 1)`. Go library; called at `containers/rules/adapter.go:185`. -/
def removeFirst (old s : Str) : Str :=
  match strIndex old s with
  | none => s
  | some i => s.take i ++ s.drop (i + old.length)

/-! ## Classes of characters -/

/-- `[ \t\r\n]`: `references/sdk.go:21`, `patterns/sdk.go:26`, `rules/sdk.go:22`, `containers/tokens/sdk.go:39`. -/
def ws : Cls := oneOf [32, 9, 13, 10]
/-- `[a-z]`: `containers/tokens/sdk.go:29`, `containers/patterns/sdk.go:19`. -/
def lower : Cls := range 97 122
/-- `[A-Z]`: `containers/patterns/sdk.go:17`. -/
def upper : Cls := range 65 90
/-- `[a-zA-Z]` `containers/tokens/sdk.go:29`. -/
def letter : Cls := Cls.or lower upper
/-- `[A-Z_]`, `[A-Z\_]` `containers/patterns/sdk.go:16-17`, `containers/rules/sdk.go:9`. -/
def upperU : Cls := Cls.or upper (oneOf [95])
/-- `[a-z_]` `containers/patterns/sdk.go:19`. -/
def lowerU : Cls := Cls.or lower (oneOf [95])
/-- `:`: `containers/tokens/sdk.go:31`, `containers/patterns/sdk.go:21`. -/
def colonC : UInt8 := 58
/-- `;`: `containers/tokens/sdk.go:33`, `containers/patterns/sdk.go:22`. -/
def semiC : UInt8 := 59
/-- `"`: `containers/patterns/sdk.go:23`. -/
def quoteC : UInt8 := 34
/-- `$`: `containers/patterns/sdk.go:16`. -/
def dollarC : UInt8 := 36
/-- `@`: `containers/patterns/sdk.go:18`. -/
def atC : UInt8 := 64
/-- `#`: `containers/tokens/sdk.go:48`. -/
def hashC : UInt8 := 35
/-- `|`: `containers/tokens/sdk.go:32`. -/
def pipeC : UInt8 := 124
/-- `\`: `containers/patterns/adapter.go:486`, `containers/rules/adapter.go:136`. -/
def backslashC : UInt8 := 92
/-- `-`: `containers/tokens/sdk.go:34`. -/
def dashC : UInt8 := 45
/-- `[`: `containers/rules/sdk.go`. -/
def openSq : UInt8 := 91
/-- `]`: `containers/rules/sdk.go`. -/
def closeSq : UInt8 := 93
/-- `"###"`: `rules/sdk.go:33`, `patterns/sdk.go:28`, `containers/tokens/sdk.go:37`. -/
def hashes : Str := [hashC, hashC, hashC]

/-- `[a-z]{1}[a-zA-Z]*`: `references/sdk.go:19`, `containers/tokens/sdk.go:28`. -/
def reToken : Re := .seq (.chr lower) (.star letter)
/-- `[A-Z\_]+`: `rules/sdk.go:9`. -/
def reRule : Re := .plus upperU
/-- One character of a pattern of `containers/tokens/adapter.go:227-512` and of the other readers. -/
def reC (c : UInt8) : Re := .chr (· = c)

/-! ## `references/adapter.go` -/

/-- `references/adapter.go:90-102`: `[ \t\r\n]*?include[ \t\r\n]*(token)[ \t\r\n]*"([^"]*)"[ \t\r\n]*?`. -/
def reInclude : Re := .all [.lazy ws, .text (lit "include"), .star ws, .grp 1 reToken, .star ws, reC quoteC,
  .grp 2 (.star (noneOf [quoteC])), reC quoteC, .lazy ws]

/-- `references/adapter.go:139-150`: `[ \t\r\n]*?reference[ \t\r\n]*(token)[ \t\r\n]*(token).(token)[ \t\r\n]*`; the dot is not
escaped: it is every character except the newline. -/
def reReference : Re := .all [.lazy ws, .text (lit "reference"), .star ws, .grp 1 reToken, .star ws, .grp 2 reToken,
  .chr (noneOf [10]), .grp 3 reToken, .star ws]

/-- `references/adapter.go:177-188`: `[ \t\r\n]*?replace[ \t\r\n]*(token).(token)[ \t\r\n]*(token)[ \t\r\n]*`. -/
def reReplace : Re := .all [.lazy ws, .text (lit "replace"), .star ws, .grp 1 reToken, .chr (noneOf [10]), .grp 2 reToken,
  .star ws, .grp 3 reToken, .star ws]

/-- `domain/languages/lexers/paths/builder.go:45-59`, `Now`; the channels are not kept by the model. -/
def filePathsNow (rules tokens : Str) : Out FilePaths :=
  if rules = [] then .err else if tokens = [] then .err else .ok ⟨rules, tokens⟩

/-- `references/adapter.go:108-132`: one round of the loop over the includes. With one path the index 1 is out of range. -/
def includeOf (m : M) : Out (Str × FilePaths) := do
  let ps := splitSep semiC [] (m.group 2)
  if ps.length > 3 then .err
  else do
    let r ← index ps 0
    let t ← index ps 1
    let p ← filePathsNow r t
    if m.group 1 = [] then .err else .ok (m.group 1, p)

/-- `references/adapter.go:104-133`: the loop over the includes; a later include replaces an earlier one of the same name. -/
def includeLoop : List M → GoMap FilePaths → Out (GoMap FilePaths)
  | [], mp => .ok mp
  | m :: ms, mp => do
    let x ← includeOf m
    includeLoop ms (mp.set x.1 x.2)

/-- `references/adapter.go:89-136`, `includes`. -/
def includes (content : Str) : Out (GoMap FilePaths) := includeLoop (findAll reInclude content) GoMap.empty

/-- `references/links/link_builder.go:47-61`, `Now`. -/
def linkNow (includes : GoMap FilePaths) (includeName localToken refToken : Str) : Out RLink :=
  if localToken = [] then .err
  else if refToken = [] then .err
  else match includes includeName with
    | none => .err
    | some p => .ok ⟨includeName, p, localToken, refToken⟩

/-- `references/adapter.go:138-174`, `references`. -/
def refLinks (inc : GoMap FilePaths) (content : Str) : Out (Option (List RLink)) := do
  let l ← mapOut (fun m => linkNow inc (m.group 2) (m.group 1) (m.group 3)) (findAll reReference content)
  return if l = [] then none else some l

/-- `references/adapter.go:176-212`, `replacements`. -/
def replLinks (inc : GoMap FilePaths) (content : Str) : Out (Option (List RLink)) := do
  let l ← mapOut (fun m => linkNow inc (m.group 1) (m.group 3) (m.group 2)) (findAll reReplace content)
  return if l = [] then none else some l

/-- `references/adapter.go:67-87`, `ToReferences`. -/
def toReferences (content : Str) : Out References := do
  let inc ← includes content
  let refs ← refLinks inc content
  let repls ← replLinks inc content
  return ⟨refs, repls⟩

/-! ## `containers/patterns/adapter.go` -/

/-- `patterns/sdk.go:16`: `[\$]{1}[A-Z_]+`. -/
def reGroupName : Re := .seq (reC dollarC) (.plus upperU)
/-- `patterns/sdk.go:17`: `[A-Z]{1}[A-Z_]*`. -/
def reSerieName : Re := .seq (.chr upper) (.star upperU)
/-- `patterns/sdk.go:19`: `[a-z]{1}[a-z_]*`. -/
def rePatternName : Re := .seq (.chr lower) (.star lowerU)

/-- `patterns/adapter.go:472-484`: `([\$]{1}[A-Z_]+)[ws]*?:[ws]*?"([^;]*)"[ws]*?;`. -/
def reGroup : Re := .all [.grp 1 reGroupName, .lazy ws, reC colonC, .lazy ws, reC quoteC, .grp 2 (.star (noneOf [semiC])),
  reC quoteC, .lazy ws, reC semiC]
/-- `patterns/adapter.go:426-436` and `362-372`: `(name)[ws]*?:[ws]*?([^;]*)[ws]*?;`. -/
def reEntry (name : Re) : Re := .all [.grp 1 name, .lazy ws, reC colonC, .lazy ws, .grp 2 (.star (noneOf [semiC])),
  .lazy ws, reC semiC]
/-- `patterns/adapter.go:378`: `(@)?[A-Z]{1}[A-Z_]*`. -/
def reChoice : Re := .seq (.opt (.grp 1 (reC atC))) reSerieName

/-- `patterns/adapter.go:493-509`: one group. -/
def groupOf (m : M) : Out Group :=
  groupNow (m.group 1) (some ((splitSep commaC [] (m.group 2)).map (fun o => if o = hashes then [quoteC] else o)))

/-- `patterns/adapter.go:471-513`, `findGroups`. -/
def findGroups (content : Str) : Out GroupSet := do
  let content := replaceAll backslashC [quoteC] hashes content
  let l ← mapOut groupOf (findAll reGroup content)
  groupsNow l

/-- `patterns/adapter.go:441-466`: the loop over the series; entries without the name of a group are skipped. -/
def serieLoop (groups : GroupSet) : List M → GoMap Serie → Out (GoMap Serie)
  | [], mp => .ok mp
  | m :: ms, mp =>
    match findAll reGroupName (m.group 2) with
    | [] => serieLoop groups ms mp
    | names => do
      let l ← mapOut (fun n => groups.find n.text) names
      let s ← serieNow (m.group 1) (some l)
      serieLoop groups ms (mp.set s.name s)

/-- `patterns/adapter.go:425-469`, `findSeries`. -/
def findSeries (groups : GroupSet) (content : Str) : Out (GoMap Serie) :=
  serieLoop groups (findAll (reEntry reSerieName) content) GoMap.empty

/-- `patterns/adapter.go:387-411`: one choice (`patterns/choice_builder.go:37-43`). -/
def choiceOf (series : GoMap Serie) (name : Str) : Out Choice :=
  match name with
  | c :: n => if c = atC then (match series n with | some s => .ok ⟨s, true⟩ | none => .err)
      else (match series (c :: n) with | some s => .ok ⟨s, false⟩ | none => .err)
  | [] => .err

/-- `patterns/adapter.go:377-420`: the loop over the patterns. -/
def patternLoop (series : GoMap Serie) : List M → Out (List Pattern)
  | [] => .ok []
  | m :: ms =>
    match findAll reChoice (m.group 2) with
    | [] => patternLoop series ms
    | names => do
      let l ← mapOut (fun n => choiceOf series n.text) names
      let p ← patternNow (m.group 1) (some l)
      let rest ← patternLoop series ms
      return p :: rest

/-- `patterns/adapter.go:361-423`, `findPatterns`. -/
def findPatterns (series : GoMap Serie) (content : Str) : Out PatternSet := do
  let l ← patternLoop series (findAll (reEntry rePatternName) content)
  patternsNow l

/-- `patterns/adapter.go:88-100`, `ToPatterns`. -/
def toPatterns (content : Str) : Out PatternSet := do
  let groups ← findGroups content
  let series ← findSeries groups content
  findPatterns series content

/-! ## `containers/rules/adapter.go` -/

/-- `rules/adapter.go:96-103`: `([A-Z\_]+):([^;]*);`. -/
def reRuleEntry : Re := .all [.grp 1 reRule, reC colonC, .grp 2 (.star (noneOf [semiC])), reC semiC]
/-- `rules/adapter.go:127-134`: `([^"]*)?("([^"]*)")?`. -/
def reRuleElement : Re := .all [.opt (.grp 1 (.star (noneOf [quoteC]))),
  .opt (.grp 2 (.all [reC quoteC, .grp 3 (.star (noneOf [quoteC])), reC quoteC]))]
/-- `rules/adapter.go:173-181`: `\[[ws]*([^\]]*)[ws]*\]`. -/
def reRulePattern : Re := .all [reC openSq, .star ws, .grp 1 (.star (noneOf [closeSq])), .star ws, reC closeSq]

/-- `rules/adapter.go:172-213`, `pattern`; `FindStringSubmatch` returns nil if nothing is found, and `matches[0]` panics.
The name of the rule is only used for the message. -/
def rulePattern (content : Str) (ps : PatternSet) : Out RuleContent :=
  match find reRulePattern content with
  | none => .panic
  | some (_, m) => do
    let card ← toCardinality (removeFirst m.text content)
    let l ← mapOut ps.find (splitSep 32 [] (m.group 1))
    let s ← patternsNow l
    return .pattern s.list card

/-- `rules/adapter.go:126-170`, `element`: the content and the code (`rules/content_builder.go:35-41`, `rules/element_builder.go:37-47`). -/
def ruleElement (content : Str) (ps : PatternSet) : Out (RuleContent × Str) :=
  let content := replaceAll backslashC [quoteC] hashes content
  match find reRuleElement content with
  | none => .panic
  | some (_, m) =>
    let p := trimSpace (m.group 1)
    if p ≠ [] then do
      let c ← rulePattern p ps
      if m.text = [] then .err else .ok (c, m.text)
    else
      let constant := replaceAll hashC [hashC, hashC] [quoteC] (m.group 3)
      let code := replaceAll hashC [hashC, hashC] [quoteC] m.text
      if code = [] then .err else .ok (.constant constant, code)

/-- `rules/adapter.go:108-121`: one rule. -/
def ruleOf (ps : PatternSet) (m : M) : Out Rule := do
  let name := trimSpace (m.group 1)
  let (c, code) ← ruleElement (m.group 2) ps
  ruleNow name m.text (some c) code

/-- `rules/adapter.go:85-124`, `Rules` and `rulesList`. -/
def toRules (content : Str) (ps : PatternSet) : Out RuleSet := do
  let l ← mapOut (ruleOf ps) (findAll reRuleEntry content)
  rulesNow l

/-! ## `containers/tokens/adapter.go` -/

/-- `containers/tokens/adapter.go:227-237`: `([ws]*(token)[ws]*:[ws]*([^;]+);)`. -/
def reTokenEntry : Re := .grp 1 (.all [.star ws, .grp 2 reToken, .star ws, reC colonC, .star ws,
  .grp 3 (.plus (noneOf [semiC])), reC semiC])

/-- `containers/tokens/adapter.go:579-587`, `cardinalityRangePattern`: `{([^}]+)}`, its group has the number `n`. -/
def reRange (n : Nat) : Re := .all [reC openC, .grp n (.plus (noneOf [closeC])), reC closeC]
/-- `containers/tokens/adapter.go:362-368`: `({([^}]+)})?([\+]{1})?([\*]{1})?([\?]{1})?`, the groups are numbered from `n`. -/
def reCard (n : Nat) : Re := .all [.opt (.grp n (reRange (n + 1))), .opt (.grp (n + 2) (reC plusC)),
  .opt (.grp (n + 3) (reC starC)), .opt (.grp (n + 4) (reC optC))]
/-- `containers/tokens/adapter.go:370-376`: `->([^<-]+)<-`. -/
def reSub (n : Nat) : Re := .all [.text (lit "->"), .grp n (.plus (noneOf (lit "<-"))), .text (lit "<-")]
/-- `containers/tokens/adapter.go:378-397`: `(name)[ws]*((card)?(sub)?)`; the groups are numbered from `n`. -/
def reElement (n : Nat) (name : Re) : Re := .all [.grp n name, .star ws,
  .grp (n + 1) (.seq (.opt (.grp (n + 2) (reCard (n + 3)))) (.opt (.grp (n + 8) (reSub (n + 9)))))]
/-- `containers/tokens/adapter.go:398-403`: `(token…)?(rule…)?(#)?` with 23 groups. -/
def reInstr : Re := .all [.opt (.grp 1 (reElement 2 reToken)), .opt (.grp 12 (reElement 13 reRule)), .opt (.grp 23 (reC hashC))]
/-- `containers/tokens/adapter.go:506-512`: `(token)?(rule)?[ws]*({([^}]+)})`. -/
def reSpec : Re := .all [.opt (.grp 1 reToken), .opt (.grp 2 reRule), .star ws, .grp 3 (reRange 4)]

/-- `containers/tokens/adapter.go:518-559`: one specifier; a rule overrides a token. -/
def specOf (rules : RuleSet) (m : M) : Out GSpec := do
  let c ← (if m.group 1 ≠ [] then some <$> gspecContentNow (m.group 1) none else .ok none)
  let c ← (if m.group 2 ≠ [] then do
    let r ← rules.find (m.group 2)
    some <$> gspecContentNow [] (some r) else .ok c)
  let t := trimSpace (m.group 4)
  let k ← (if t ≠ [] then some <$> toSpecific t else .ok none)
  gspecNow c k

/-- `containers/tokens/adapter.go:500-563`, `tokenSpecifiers`; nil is `none`. -/
def tokenSpecifiers (rules : RuleSet) (content : Str) : Out (Option (List GSpec)) :=
  let t := trimSpace content
  if t = [] then .ok none
  else do
    let l ← mapOut (specOf rules) (findAll reSpec t)
    if l = [] then .err else .ok (some l)

/-- `containers/tokens/adapter.go:565-577`, `buildElement`: the groups of the element are numbered from `n`. -/
def buildElement (c : GContent) (n : Nat) (m : M) : Out GElement := do
  let k ← (if m.group (n + 3) ≠ [] then some <$> toCardinality (m.group (n + 3)) else .ok none)
  gelementNow (some c) (m.group n) k

/-- `containers/tokens/adapter.go:458-470` and `486-498`, `tokenElement` and `tokenReference`: group 10 is the specifiers with their
delimiters. -/
def tokenElement (rules : RuleSet) (m : M) : Out GElement := do
  let specs ← tokenSpecifiers rules (m.group 10)
  let c ← gtokenRefNow (m.group 2) specs
  buildElement c 1 m

/-- `containers/tokens/adapter.go:472-484`, `ruleElement`. -/
def tokenRuleElement (rules : RuleSet) (m : M) : Out GElement := do
  let r ← rules.find (m.group 13)
  buildElement (.rule r) 12 m

/-- `containers/tokens/adapter.go:410-451`: the instructions of one match. -/
def instrOf (rules : RuleSet) (m : M) : Out (List GInstr) := do
  let a ← (if m.text = [hashC] then do
    let i ← ginstrNow true none
    return [i] else .ok [])
  let b ← (if m.group 1 ≠ [] then do
    let e ← tokenElement rules m
    let i ← ginstrNow false (some e)
    return [i] else .ok [])
  let c ← (if m.group 12 ≠ [] then do
    let e ← tokenRuleElement rules m
    let i ← ginstrNow false (some e)
    return [i] else .ok [])
  return a ++ b ++ c

/-- `containers/tokens/adapter.go:360-456`, `instructions`. -/
def instructions (rules : RuleSet) (content : Str) : Out (List GInstr) := do
  let l ← mapOut (instrOf rules) (findAll reInstr (trimSpace content))
  return l.flatten

/-- `containers/tokens/adapter.go:351-358`, `line`. -/
def line (rules : RuleSet) (content : Str) : Out GLine := do
  let l ← instructions rules content
  gnonEmptyNow l

/-- `containers/tokens/adapter.go:336-349`, `lines`. -/
def lines (rules : RuleSet) (content : Str) : Out (List GLine) := do
  let l ← mapOut (line rules) (splitSep pipeC [] content)
  gnonEmptyNow l

/-- `containers/tokens/adapter.go:305-334`, `block`: only the first two sections are read. -/
def block (rules : RuleSet) (content : Str) : Out (List GLine × Option (List GLine)) :=
  match splitSep dashC [dashC, dashC] content with
  | [] => .err
  | [a] => do
    let must ← lines rules a
    return (must, none)
  | a :: b :: _ => do
    let must ← lines rules a
    match trimSpace b with
    | c :: t => if c = colonC then do
        let not ← lines rules t
        return (must, some not) else .err
    | [] => .err

/-- `containers/tokens/adapter.go:270-303`, `testSuite`: the tests and the rest of the content. Only the first two sections are read. -/
def testSuite (content : Str) : Out (Option (List Str) × Str) :=
  match splitSep plusC [plusC, plusC] content with
  | [] => .panic
  | [a] => .ok (none, a)
  | a :: b :: _ =>
    match trimSpace b with
    | c :: t => if c = colonC then do
        let l ← gnonEmptyNow ((splitSep hashC [hashC, hashC] t).filter (· ≠ []))
        return (some l, a) else .err
    | [] => .err

/-- `containers/tokens/adapter.go:243-264`: one token. -/
def tokenOf (rules : RuleSet) (m : M) : Out GToken := do
  let (tests, code) ← testSuite (m.group 3)
  let (must, not) ← block rules code
  gtokenNow (m.group 2) (some must) not tests

/-- `containers/tokens/adapter.go:216-268`, `ToTokens` and `tokens`. -/
def toTokens (rules : RuleSet) (content : Str) : Out TokenSet := do
  let l ← mapOut (tokenOf rules) (findAll reTokenEntry content)
  tokensNow l

end Verif.Text
