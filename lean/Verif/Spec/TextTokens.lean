import Verif.Spec.Cardinality
import Verif.Model.Grammar

/-!
# How tokens are written

The text of the tokens of a grammar, written from the parts of the tokens with arbitrary white space, and what a reader expects
to get back from it. Nothing here uses the functions of the model of the text adapters.
-/

namespace Verif.Text
open Verif.Patterns Verif.Cardinality Verif.Lexer

/-- Blanks, tabs and line breaks. -/
def Blank (w : Str) : Prop := ∀ c ∈ w, c = 32 ∨ c = 9 ∨ c = 13 ∨ c = 10
def LowerLetter (c : UInt8) : Prop := 97 ≤ c.toNat ∧ c.toNat ≤ 122
def UpperLetter (c : UInt8) : Prop := 65 ≤ c.toNat ∧ c.toNat ≤ 90
/-- The name of a token: a small letter and any letters. -/
def TokenName (n : Str) : Prop := ∃ c u, n = c :: u ∧ LowerLetter c ∧ ∀ d ∈ u, LowerLetter d ∨ UpperLetter d
/-- The name of a rule: capital letters and underscores. -/
def RuleName (n : Str) : Prop := n ≠ [] ∧ ∀ c ∈ n, UpperLetter c ∨ c = 95

/-- How a cardinality is written; no cardinality is no text. -/
def cardText : Option Card → Str
  | none => []
  | some .mandatory => []
  | some .optional => lit "?"
  | some .nonZeroMultiple => lit "+"
  | some .zeroMultiple => lit "*"
  | some (.specific s) => specificStr s

/-- The cardinalities which can be written. -/
def CardOk (k : Option Card) : Prop := k ≠ some .mandatory ∧ ∀ c, k = some c → SpecNumbersFit c

/-- A specifier `name {…}` with the blanks in front of its name and behind it. -/
structure SpecT where
  pre : Str
  isRule : Bool
  name : Str
  mid : Str
  card : Specific

def SpecT.text (s : SpecT) : Str := s.pre ++ s.name ++ s.mid ++ specificStr s.card

/-- An item of a line: a token with cardinality and specifiers, a rule with cardinality or a channel switch. `gap` are the blanks
between the name and what follows it, `close` those in front of the end of the specifiers. -/
inductive Item where
  | token (name gap : Str) (card : Option Card) (specs : List SpecT) (close : Str)
  | rule (name gap : Str) (card : Option Card)
  | switch

/-- `->…<-`. -/
def specsText (specs : List SpecT) (close : Str) : Str :=
  if specs.isEmpty then [] else lit "->" ++ (specs.map SpecT.text).flatten ++ close ++ lit "<-"

/-- What is written behind the name. -/
def Item.suffix : Item → Str
  | .token _ _ k specs close => cardText k ++ specsText specs close
  | .rule _ _ k => cardText k
  | .switch => []

def Item.text : Item → Str
  | .token n gap k specs close => n ++ (if cardText k ++ specsText specs close = [] then [] else gap ++ (cardText k ++ specsText specs close))
  | .rule n gap k => n ++ (if cardText k = [] then [] else gap ++ cardText k)
  | .switch => lit "#"

/-- Elements of which only the name is written. -/
def Item.bare : Item → Bool
  | .token _ _ k specs close => cardText k ++ specsText specs close = []
  | .rule _ _ k => cardText k = []
  | .switch => false

/-- The specifier can be written, and its rule is known. -/
def SpecT.Ok (rules : RuleSet) (s : SpecT) : Prop :=
  Blank s.pre ∧ Blank s.mid ∧ SpecNumbersFit (.specific s.card) ∧
    (s.isRule = false → TokenName s.name) ∧ (s.isRule = true → RuleName s.name ∧ ∃ r, rules.find s.name = .ok r)

/-- The item can be written, and its rules are known. -/
def Item.Ok (rules : RuleSet) : Item → Prop
  | .token n gap k specs close => TokenName n ∧ Blank gap ∧ Blank close ∧ CardOk k ∧ ∀ s ∈ specs, s.Ok rules
  | .rule n gap k => RuleName n ∧ Blank gap ∧ CardOk k ∧ ∃ r, rules.find n = .ok r
  | .switch => True

/-- A line: the items, each behind blanks. -/
abbrev LineT := List (Str × Item)
def lineText (l : LineT) : Str := (l.map (fun x => x.1 ++ x.2.text)).flatten
/-- Blanks separate the items. -/
def LineT.Ok (rules : RuleSet) (l : LineT) : Prop :=
  l ≠ [] ∧ (∀ x ∈ l, Blank x.1 ∧ x.2.Ok rules) ∧ ∀ x ∈ l.tail, x.1 ≠ []

/-- What is read for a specifier. -/
def SpecShows (rules : RuleSet) (s : SpecT) (g : GSpec) : Prop :=
  g.card = s.card ∧ (s.isRule = false → g.content = .token s.name) ∧
    (s.isRule = true → ∃ r, rules.find s.name = .ok r ∧ g.content = .rule r)

/-- What a user expects to be read for an item: the element with its name, cardinality and specifiers (its code is
the text written, perhaps with blanks behind it), or the switch. -/
def Shows (rules : RuleSet) : Item → GInstr → Prop
  | .token n gap k specs close, .element e => (∃ gs, e.content = .token n gs ∧ List.Forall₂ (SpecShows rules) specs gs) ∧ e.card = k ∧
      ∃ w, Blank w ∧ e.code = (Item.token n gap k specs close).text ++ w
  | .rule n gap k, .element e => (∃ r, rules.find n = .ok r ∧ e.content = .rule r) ∧ e.card = k ∧
      ∃ w, Blank w ∧ e.code = (Item.rule n gap k).text ++ w
  | .switch, .channelSwitch => True
  | _, _ => False

/-- The items which survive the reading: a channel switch right behind an element of which only the name is written is lost. -/
def survivors : Bool → List Item → List Item
  | _, [] => []
  | behindBare, .switch :: l => if behindBare then survivors false l else .switch :: survivors false l
  | _, i :: l => i :: survivors i.bare l

/-- What is expected for a line (with the blanks behind it). -/
def LineShows (rules : RuleSet) (x : LineT × Str) (l : GLine) : Prop := List.Forall₂ (Shows rules) (survivors false (x.1.map Prod.snd)) l

/-- Lines with the blanks behind each of them; they are written with `|` between them. -/
abbrev LinesT := List (LineT × Str)
def linesText : LinesT → Str
  | [] => []
  | [x] => lineText x.1 ++ x.2
  | x :: l => lineText x.1 ++ x.2 ++ lit "|" ++ linesText l
def LinesT.Ok (rules : RuleSet) (l : LinesT) : Prop := l ≠ [] ∧ ∀ x ∈ l, x.1.Ok rules ∧ Blank x.2
/-- There are blanks behind the last line. -/
def LinesT.Spaced (l : LinesT) : Prop := ∀ x ∈ l.getLast?, x.2 ≠ []

/-- A test: not empty, it does not contain the delimiters `;` (of the tokens) and `+++`, and the first `###` is the one behind it. -/
def TestOk (t : Str) : Prop := t ≠ [] ∧ 59 ∉ t ∧ ¬ lit "+++" <:+: t ∧ ¬ lit "###" <:+: t ++ lit "##"

/-- The lines which must not match: `--- : lines`, with the blanks between the dashes and the colon. -/
structure NotT where
  gap : Str
  lines : LinesT
/-- The tests: `+++ : test ### test ###`, with the blanks in front of the colon and behind the last delimiter. -/
structure TestsT where
  gap : Str
  tests : List Str
  close : Str
/-- A token: `name : lines --- : lines +++ : tests ;`. -/
structure TokenT where
  pre : Str
  name : Str
  gap : Str
  must : LinesT
  not : Option NotT
  tests : Option TestsT

def NotT.text (n : NotT) : Str := lit "---" ++ n.gap ++ lit ":" ++ linesText n.lines
def TestsT.text (t : TestsT) : Str := lit "+++" ++ t.gap ++ lit ":" ++ (t.tests.map (· ++ lit "###")).flatten ++ t.close
def TokenT.block (t : TokenT) : Str := linesText t.must ++ ((t.not.map NotT.text).getD [])
def TokenT.text (t : TokenT) : Str :=
  t.pre ++ t.name ++ t.gap ++ lit ":" ++ (t.block ++ ((t.tests.map TestsT.text).getD [])) ++ lit ";"
def tokensText (l : List TokenT) : Str := (l.map TokenT.text).flatten

def TokenT.Ok (rules : RuleSet) (t : TokenT) : Prop :=
  Blank t.pre ∧ TokenName t.name ∧ Blank t.gap ∧ t.must.Ok rules ∧
    (∀ n, t.not = some n → Blank n.gap ∧ n.lines.Ok rules ∧ t.must.Spaced) ∧
    (∀ s, t.tests = some s → Blank s.gap ∧ Blank s.close ∧ s.tests ≠ [] ∧ (∀ x ∈ s.tests, TestOk x) ∧
      (t.not = none → t.must.Spaced) ∧ ∀ n, t.not = some n → n.lines.Spaced)

/-- What is expected for the lines which must not match. -/
def NotShows (rules : RuleSet) : Option NotT → Option (List GLine) → Prop
  | none, none => True
  | some n, some l => List.Forall₂ (LineShows rules) n.lines l
  | _, _ => False

/-- What is expected for a token. -/
def TokenShows (rules : RuleSet) (t : TokenT) (g : GToken) : Prop :=
  g.name = t.name ∧ List.Forall₂ (LineShows rules) t.must g.must ∧
    NotShows rules t.not g.not ∧
    g.tests = t.tests.map TestsT.tests

end Verif.Text
