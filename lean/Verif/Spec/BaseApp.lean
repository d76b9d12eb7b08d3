import Verif.Model.App
import Verif.Model.BaseText
import Verif.Model.Text
import Verif.Model.BaseGrammar

/-!
# The application of the lexer on the shipped texts
-/

namespace Verif.Base
open Verif.Lexer

/-- The application with the adapters of the texts (`Model/Text*`), and whatever reads the files and what is included. -/
def textFrontend (read : Str → Str → Out Str) (includePath : ResContainer → RLink → Out Path) : Frontend where
  toPatterns := Text.toPatterns
  toRules := Text.toRules
  toTokens := Text.toTokens
  toReferences := Text.toReferences
  read := read
  includePath := includePath

/-- The shipped texts `patterns.alex`, `rules.alex` and `tokens.alex`. -/
def baseContainer : ResContainer := ⟨patternsAlex, rulesAlex, tokensAlex⟩

/-- Where the application runs: what reads its files, its base paths, and the depth of its stack. -/
structure Setting where
  read : Str → Str → Out Str
  includePath : ResContainer → RLink → Out Path
  base : FilePaths
  depth : Nat
  enough : 64 ≤ depth

/-- A Go map with these paths may be read in this order at its `k`-th use. -/
def AnyOrder (order : List Path → Nat → List Path) : Prop := ∀ l k, (order l k).Perm l

/-- The result of `AST` for the texts `c` and `channels`, a token and a script, when neither prefixes nor suffixes are allowed. -/
def Setting.astOf (x : Setting) (c : ResContainer) (channels : Str) (order : List Path → Nat → List Path) (fuel : Nat) (root script : Str) :
    Option (Out AST) :=
  (appAST (textFrontend x.read x.includePath) x.base x.depth order fuel root c channels ⟨script, false, false⟩ GoMap.empty).1

/-- The result of `Root`. -/
def Setting.rootOf (x : Setting) (c : ResContainer) (channels : Str) (order : List Path → Nat → List Path) (fuel : Nat) (root script : Str) :
    Option (Out (Option Root ⊕ Mistake)) :=
  (appRoot (textFrontend x.read x.includePath) x.base x.depth order fuel root c channels ⟨script, false, false⟩ GoMap.empty).1

/-- `AST` with the shipped texts. -/
def Setting.ast (x : Setting) : (List Path → Nat → List Path) → Nat → Str → Str → Option (Out AST) := x.astOf baseContainer channelsAlex

/-- `Root` with the shipped texts. -/
def Setting.root (x : Setting) : (List Path → Nat → List Path) → Nat → Str → Str → Option (Out (Option Root ⊕ Mistake)) :=
  x.rootOf baseContainer channelsAlex

end Verif.Base
