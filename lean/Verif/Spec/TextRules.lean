import Verif.Spec.TextTokens

/-!
# How rules are written

`NAME: "constant";` or `NAME: [pattern pattern]cardinality;`, with arbitrary white space around the parts.
-/

namespace Verif.Text
open Verif.Patterns Verif.Cardinality Verif.Lexer

/-- The constant with a backslash in front of every quote. -/
def escape : Str → Str
  | [] => []
  | c :: s => (if c = 34 then [92, 34] else [c]) ++ escape s

/-- The name of a pattern: small letters and underscores, a letter first. -/
def PatternName (n : Str) : Prop := ∃ c u, n = c :: u ∧ LowerLetter c ∧ ∀ d ∈ u, LowerLetter d ∨ d = 95

/-- The words with one blank between them. -/
def words : List Str → Str
  | [] => []
  | [n] => n
  | n :: l => n ++ lit " " ++ words l

/-- The body of a rule with the blanks in it: in front of it, behind the opening bracket, in front of the cardinality, behind it. -/
inductive BodyT where
  | constant (pre c post : Str)
  | pattern (pre inner : Str) (names : List Str) (gap : Str) (card : Card) (post : Str)

def BodyT.text : BodyT → Str
  | .constant pre c post => pre ++ lit "\"" ++ escape c ++ lit "\"" ++ post
  | .pattern pre inner names gap card post => pre ++ (lit "[" ++ inner ++ words names ++ lit "]" ++ gap ++ cardText (some card)) ++ post

/-- The bodies which can be written: a constant contains none of `;`, `#` and the backslash; the patterns exist. -/
def BodyT.Ok (ps : PatternSet) : BodyT → Prop
  | .constant pre c post => Blank pre ∧ Blank post ∧ 59 ∉ c ∧ 35 ∉ c ∧ 92 ∉ c
  | .pattern pre inner names gap card post => Blank pre ∧ Blank inner ∧ Blank gap ∧ Blank post ∧ names ≠ [] ∧
      (∀ n ∈ names, PatternName n ∧ ∃ p, ps.find n = .ok p) ∧ CardOk (some card)

/-- A rule, with the blanks in front of it. -/
structure RuleT where
  pre : Str
  name : Str
  body : BodyT

def RuleT.code (r : RuleT) : Str := r.name ++ lit ":" ++ r.body.text ++ lit ";"
def RuleT.text (r : RuleT) : Str := r.pre ++ r.code
def RuleT.Ok (ps : PatternSet) (r : RuleT) : Prop := Blank r.pre ∧ RuleName r.name ∧ r.body.Ok ps
def rulesText (l : List RuleT) : Str := (l.map RuleT.text).flatten

/-- What is expected for a body. -/
def BodyShows (ps : PatternSet) : BodyT → RuleContent → Prop
  | .constant _ c _, .constant d => d = c
  | .pattern _ _ names _ card _, .pattern l k => k = card ∧ List.Forall₂ (fun n p => ps.find n = .ok p) names l
  | _, _ => False

/-- The code which is kept for a body: what was written, with the quotes of a constant not escaped and nothing behind it. -/
def BodyT.code : BodyT → Str
  | .constant pre c _ => pre ++ lit "\"" ++ c ++ lit "\""
  | b => b.text

/-- What is expected for a rule. -/
def RuleShows (ps : PatternSet) (r : RuleT) (g : Rule) : Prop :=
  g.name = r.name ∧ g.code = r.code ∧ BodyShows ps r.body g.content ∧ g.elementCode = r.body.code

end Verif.Text
