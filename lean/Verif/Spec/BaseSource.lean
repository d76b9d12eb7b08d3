import Verif.Spec.BaseGrammar
import Verif.Spec.Roots

/-! # Specification notions: the abstract syntax trees of the base language -/

namespace Verif.Base
open Verif.Patterns Verif.Lexer

/-- The texts of the children of a name. -/
def texts (t : AToken) (name : Str) : List Str := (t.items.filter fun it => it.name = name).map Item.content

/-- The numbers in an integer, an index or a float are in the range of the bit size. -/
def LiteralsT (cfg : Cfg) : Kind → AToken → Prop
  | .intValue, t => ∀ s ∈ texts t (lit "INT_PATTERN"),
      if texts t (lit "MINUS") ≠ [] then ∃ z, parseNeg s cfg.bitSize = .ok z else ∃ z, parseUint s cfg.bitSize = .ok z
  | .indexValue, t => ∀ s ∈ texts t (lit "INT_PATTERN"), ∃ z, parseUint s cfg.bitSize = .ok z
  | .floatValue, t => ∀ a b, texts t (lit "INT_PATTERN") = [a, b] →
      ∃ x, cfg.parseFloat ((if texts t (lit "MINUS") ≠ [] then lit "-" else []) ++ a ++ lit "." ++ b) cfg.bitSize = .ok x
  | _, _ => True

/-- The specifier of `forStatement` (`tokens.alex:211`): there is a second name. -/
def SpecifierT : Kind → AToken → Prop
  | .forStatement, t => ∀ it ∈ t.items, it.name = lit "assigneeNames" → ∀ u, it.token = some u → ∃ jt ∈ u.items, jt.name = lit "commaAssigneeName"
  | _, _ => True

/-- An abstract syntax tree of the grammar: the token has the name, its children are those of one of the lines, as many as the line
allows, and any blanks and comments; rules are texts, and the trees of the tokens are trees of the grammar. The numbers are in range. -/
inductive ConfT (cfg : Cfg) : Kind → AToken → Prop where
  | mk {k : Kind} {t : AToken} {line : List (Sym × Card)} :
      line ∈ grammar k → t.name = k.name →
      (∀ it ∈ t.items, it.content ≠ [] ∧ ((∃ p ∈ line, it.name = p.1.name) ∨ (it.name ∈ channelNames ∧ it.token = none))) →
      (∀ p ∈ line, p.2.Allows (t.items.filter fun it => it.name = p.1.name).length) →
      (∀ s card, (Sym.rule s, card) ∈ line → ∀ it ∈ t.items, it.name = lit s → it.token = none) →
      (∀ k' card, (Sym.tok k', card) ∈ line → ∀ it ∈ t.items, it.name = k'.name → it.token ≠ none) →
      (∀ k' card, (Sym.tok k', card) ∈ line → ∀ it ∈ t.items, it.name = k'.name → ∀ u, it.token = some u → ConfT cfg k' u) →
      LiteralsT cfg k t → SpecifierT k t → ConfT cfg k t

/-- Equal texts are equally matched: for every child of every token of the tree, the last token with the text of the child inside its
parent has the name of the child, and its children have the same names. -/
def EqualTexts (t : AToken) : Prop :=
  ∀ u ∈ t.post, ∀ w ∈ u.children, ∀ v, lastWith w.discovery u.inside = some v → v.name = w.name ∧ v.items.map Item.name = w.items.map Item.name

/-- The numbers are in range everywhere in the tree. -/
def Lits (cfg : Cfg) (a : AToken) : Prop := ∀ u ∈ a.post, ∀ k : Kind, u.name = k.name → LiteralsT cfg k u

end Verif.Base
