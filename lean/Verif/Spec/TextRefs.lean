import Verif.Spec.TextTokens
import Verif.Model.App

/-!
# How the references of a grammar are written

`include name "rules;tokens"` (or with a third path), `reference localToken name.token` and `replace name.token localToken`, in any order and
with any blanks, between other texts.
-/

namespace Verif.Text
open Verif.Lexer

/-- The text contains none of the three keywords. -/
def NoKeyword (t : Str) : Prop := ¬ lit "include" <:+: t ∧ ¬ lit "reference" <:+: t ∧ ¬ lit "replace" <:+: t

/-- The paths with a semicolon between them. -/
def withSemicolons : List Str → Str
  | [] => []
  | [p] => p
  | p :: l => p ++ lit ";" ++ withSemicolons l

/-- A statement with the blanks in it. -/
inductive StmtT where
  | incl (g1 name g2 : Str) (paths : List Str)
  | refr (g1 localToken g2 inc token : Str)
  | repl (g1 inc token g2 localToken : Str)

/-- The text of a statement, with the given character between the name of the include and its token. -/
def StmtT.textWith (dot : UInt8) : StmtT → Str
  | .incl g1 name g2 paths => lit "include" ++ g1 ++ name ++ g2 ++ lit "\"" ++ withSemicolons paths ++ lit "\""
  | .refr g1 loc g2 inc tok => lit "reference" ++ g1 ++ loc ++ g2 ++ inc ++ [dot] ++ tok
  | .repl g1 inc tok g2 loc => lit "replace" ++ g1 ++ inc ++ [dot] ++ tok ++ g2 ++ loc

/-- As it should be written: the character is a dot (46). -/
def StmtT.text : StmtT → Str := StmtT.textWith 46

def Name (n : Str) : Prop := TokenName n ∧ NoKeyword n

/-- The statements which can be written. -/
def StmtT.Ok : StmtT → Prop
  | .incl g1 name g2 paths => Blank g1 ∧ g1 ≠ [] ∧ Name name ∧ Blank g2 ∧ paths ≠ [] ∧ ∀ p ∈ paths, 34 ∉ p ∧ 59 ∉ p ∧ NoKeyword p
  | .refr g1 loc g2 inc tok => Blank g1 ∧ g1 ≠ [] ∧ Name loc ∧ Blank g2 ∧ g2 ≠ [] ∧ Name inc ∧ Name tok
  | .repl g1 inc tok g2 loc => Blank g1 ∧ g1 ≠ [] ∧ Name inc ∧ Name tok ∧ Blank g2 ∧ g2 ≠ [] ∧ Name loc

/-- What may stand behind a statement: any text without the keywords which begins and ends with a blank. -/
def GapT (g : Str) : Prop := NoKeyword g ∧ (∃ c, g.head? = some c ∧ Blank [c]) ∧ ∃ c, g.getLast? = some c ∧ Blank [c]

/-- The statements with what follows each of them. -/
abbrev StmtsT := List (StmtT × Str)
def stmtsTextWith (dot : UInt8) (l : StmtsT) : Str := (l.map (fun x => x.1.textWith dot ++ x.2)).flatten
def stmtsText (l : StmtsT) : Str := stmtsTextWith 46 l
def StmtsT.Ok (l : StmtsT) : Prop := ∀ x ∈ l, x.1.Ok ∧ GapT x.2

/-- What may stand in front of the statements: any text without the keywords, ending with a blank if it is not empty. -/
def LeadT (g : Str) : Prop := NoKeyword g ∧ ∀ c, g.getLast? = some c → Blank [c]

/-- The last include of this name has these paths. -/
def LastInclude (l : StmtsT) (name : Str) (paths : List Str) : Prop :=
  ∃ a g1 g2 g b, l = a ++ (.incl g1 name g2 paths, g) :: b ∧ ∀ x ∈ b, ∀ k1 k2 ps, x.1 ≠ .incl k1 name k2 ps

/-- Includes with two or three paths, the first two of which are not empty. -/
def IncludesFine (l : StmtsT) : Prop :=
  ∀ x ∈ l, ∀ g1 n g2 ps, x.1 = .incl g1 n g2 ps → ∃ r t o, ps = r :: t :: o ∧ o.length ≤ 1 ∧ r ≠ [] ∧ t ≠ []

/-- What a link is expected to say. -/
def LinkIs (l : StmtsT) (inc loc tok : Str) (r : RLink) : Prop :=
  r.includeName = inc ∧ r.localToken = loc ∧ r.refToken = tok ∧ ∃ o, LastInclude l inc (r.paths.rules :: r.paths.tokens :: o)

/-- The links which are written as references (include, local token, token) and as replacements. -/
def refsOf (l : StmtsT) : List (Str × Str × Str) := l.filterMap (fun x => match x.1 with | .refr _ loc _ inc tok => some (inc, loc, tok) | _ => none)
def replsOf (l : StmtsT) : List (Str × Str × Str) := l.filterMap (fun x => match x.1 with | .repl _ inc tok _ loc => some (inc, loc, tok) | _ => none)

/-- An optional list of links shows the expected ones: without any there is no list. -/
def LinksShow (l : StmtsT) (want : List (Str × Str × Str)) : Option (List RLink) → Prop
  | none => want = []
  | some rs => want ≠ [] ∧ List.Forall₂ (fun w r => LinkIs l w.1 w.2.1 w.2.2 r) want rs

/-- There is an include of this name. -/
def Declared (l : StmtsT) (name : Str) : Prop := ∃ x ∈ l, ∃ g1 g2 ps, x.1 = .incl g1 name g2 ps

end Verif.Text
