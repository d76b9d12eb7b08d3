import Verif.Model.Grammar

/-! # Some recursive grammars -/

namespace Verif.Lexer
open Verif.Patterns Verif.Cardinality

/-- A mandatory rule and a mandatory token in a line. -/
def gRule (r : Rule) : GInstr := .element ⟨.rule r, lit "x", none⟩
def gTok (n : Str) : GInstr := .element ⟨.token n [], lit "x", none⟩

/-- `R := a R | b`. -/
def rightRec (name : Str) (a b : Rule) : GToken := ⟨name, [[gRule a, gTok name], [gRule b]], none, none⟩

/-- `R := R a | b`. -/
def leftRec (name : Str) (a b : Rule) : GToken := ⟨name, [[gTok name, gRule a], [gRule b]], none, none⟩

/-- `R := R a | R c | b`. -/
def leftRec2 (name : Str) (a c b : Rule) : GToken := ⟨name, [[gTok name, gRule a], [gTok name, gRule c], [gRule b]], none, none⟩

/-- `R := a R c | a R d | b`. -/
def nestedRec (name : Str) (a b c d : Rule) : GToken :=
  ⟨name, [[gRule a, gTok name, gRule c], [gRule a, gTok name, gRule d], [gRule b]], none, none⟩

/-- `S := R`. -/
def startAt (start name : Str) : GToken := ⟨start, [[gTok name]], none, none⟩

end Verif.Lexer
