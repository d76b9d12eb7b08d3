import Verif.Spec.TextRules
import Verif.Spec.Containers

/-!
# How patterns are written

Groups `$NAME: "a,b,\"";`, series `NAME: $GROUP $GROUP;` and patterns `name: SERIE @SERIE;`, in any order, with arbitrary white space around
the parts.
-/

namespace Verif.Text
open Verif.Patterns Verif.Lexer

/-- The name of a group: a dollar, capital letters and underscores. -/
def GroupName (n : Str) : Prop := ∃ u, n = 36 :: u ∧ u ≠ [] ∧ ∀ d ∈ u, UpperLetter d ∨ d = 95
/-- The name of a serie: capital letters and underscores, a letter first. -/
def SerieName (n : Str) : Prop := ∃ c u, n = c :: u ∧ UpperLetter c ∧ ∀ d ∈ u, UpperLetter d ∨ d = 95

/-- The options which can be written: without semicolon, comma and backslash; quote, colon and dollar only alone; not `###`. -/
def OptionOk (o : Str) : Prop :=
  59 ∉ o ∧ 44 ∉ o ∧ 92 ∉ o ∧ (34 ∈ o → o = [34]) ∧ (58 ∈ o → o = [58]) ∧ (36 ∈ o → o = [36]) ∧ o ≠ lit "###"

/-- How an option is written if `q` is written for a quote. -/
def optionText (q o : Str) : Str := if o = [34] then q else o
def optionsText (q : Str) : List Str → Str
  | [] => []
  | [o] => optionText q o
  | o :: l => optionText q o ++ lit "," ++ optionsText q l

/-- A group with the blanks in front of it, around the colon and in front of the semicolon. -/
structure GroupT where
  pre : Str
  name : Str
  g1 : Str
  g2 : Str
  options : List Str
  post : Str
def GroupT.text (q : Str) (g : GroupT) : Str :=
  g.pre ++ g.name ++ g.g1 ++ lit ":" ++ g.g2 ++ lit "\"" ++ optionsText q g.options ++ lit "\"" ++ g.post ++ lit ";"
def GroupT.Ok (g : GroupT) : Prop :=
  Blank g.pre ∧ GroupName g.name ∧ Blank g.g1 ∧ Blank g.g2 ∧ g.options ≠ [] ∧ (∀ o ∈ g.options, OptionOk o) ∧ Blank g.post

/-- A serie: its groups with the blanks in front of them. -/
structure SerieT where
  pre : Str
  name : Str
  g1 : Str
  refs : List (Str × Str)
  post : Str
def SerieT.body (s : SerieT) : Str := (s.refs.map (fun r => r.1 ++ r.2)).flatten ++ s.post
def SerieT.text (s : SerieT) : Str := s.pre ++ s.name ++ s.g1 ++ lit ":" ++ s.body ++ lit ";"
def SerieT.Ok (s : SerieT) : Prop :=
  Blank s.pre ∧ SerieName s.name ∧ Blank s.g1 ∧ s.refs ≠ [] ∧ (∀ r ∈ s.refs, Blank r.1 ∧ GroupName r.2) ∧ Blank s.post

/-- A choice: the blanks in front of it, whether it is reversed and the serie. -/
structure ChoiceT where
  pre : Str
  isReverse : Bool
  serie : Str
def ChoiceT.text (c : ChoiceT) : Str := c.pre ++ (if c.isReverse then lit "@" else []) ++ c.serie
/-- A pattern. -/
structure PatternT where
  pre : Str
  name : Str
  g1 : Str
  choices : List ChoiceT
  post : Str
def PatternT.body (p : PatternT) : Str := (p.choices.map ChoiceT.text).flatten ++ p.post
def PatternT.text (p : PatternT) : Str := p.pre ++ p.name ++ p.g1 ++ lit ":" ++ p.body ++ lit ";"
/-- Choices which are not reversed are separated by blanks from what is in front of them. -/
def PatternT.Ok (p : PatternT) : Prop :=
  Blank p.pre ∧ PatternName p.name ∧ Blank p.g1 ∧ p.choices ≠ [] ∧ (∀ c ∈ p.choices, Blank c.pre ∧ SerieName c.serie) ∧
    (∀ c ∈ p.choices.tail, c.isReverse = true ∨ c.pre ≠ []) ∧ Blank p.post

/-- An entry of a text of patterns. -/
inductive Entry where
  | group (g : GroupT)
  | serie (s : SerieT)
  | pattern (p : PatternT)

def Entry.text (q : Str) : Entry → Str
  | .group g => g.text q
  | .serie s => s.text
  | .pattern p => p.text
def Entry.Ok : Entry → Prop
  | .group g => g.Ok
  | .serie s => s.Ok
  | .pattern p => p.Ok

/-- The text: a quote is written with a backslash in front of it. -/
def entriesText (l : List Entry) : Str := (l.map (Entry.text [92, 34])).flatten

def groupsOf (l : List Entry) : List GroupT := l.filterMap (fun | .group g => some g | _ => none)
def seriesOf (l : List Entry) : List SerieT := l.filterMap (fun | .serie s => some s | _ => none)
def patternsOf (l : List Entry) : List PatternT := l.filterMap (fun | .pattern p => some p | _ => none)

/-- There are groups and patterns, and all the groups and series which are mentioned are written somewhere. -/
def Complete (l : List Entry) : Prop :=
  groupsOf l ≠ [] ∧ patternsOf l ≠ [] ∧ (∀ s ∈ seriesOf l, ∀ r ∈ s.refs, r.2 ∈ (groupsOf l).map GroupT.name) ∧
    ∀ p ∈ patternsOf l, ∀ c ∈ p.choices, c.serie ∈ (seriesOf l).map SerieT.name

/-- What is expected for the name of a group: the options of the last group of this name. -/
def GroupShows (l : List Entry) (n : Str) (g : Group) : Prop :=
  g.name = n ∧ ∃ t, LastNamed GroupT.name (groupsOf l) n t ∧ g.list = t.options
/-- What is expected for the name of a serie: the groups of the last serie of this name. -/
def SerieShows (l : List Entry) (n : Str) (s : Serie) : Prop :=
  s.name = n ∧ ∃ t, LastNamed SerieT.name (seriesOf l) n t ∧ List.Forall₂ (fun r g => GroupShows l r.2 g) t.refs s.groups
/-- What is expected for a pattern. -/
def PatternShows (l : List Entry) (p : PatternT) (g : Pattern) : Prop :=
  g.name = p.name ∧ List.Forall₂ (fun c k => k.isReverse = c.isReverse ∧ SerieShows l c.serie k.serie) p.choices g.choices

end Verif.Text
