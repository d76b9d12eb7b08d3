import Verif.Spec.BaseGrammar
import Mathlib.Data.Nat.Digits.Defs

/-! # Specification notions for the parser of the base language -/

namespace Verif.Base
open Verif.Patterns Verif.Lexer

/-- A text is a decimal number: it consists of digits only, at least one, and the digits are those of the number (leading zeros are
allowed). -/
def DecimalText (s : Str) (n : Nat) : Prop :=
  s ≠ [] ∧ (∀ c ∈ s, 48 ≤ c.toNat ∧ c.toNat ≤ 57) ∧ n = Nat.ofDigits 10 (s.reverse.map fun c => c.toNat - 48)

/-- The usual text of a number. -/
def decimalText (n : Nat) : Str := (if n = 0 then [0] else (Nat.digits 10 n).reverse).map fun d => UInt8.ofNat (d + 48)

/-- The number of bits for a bit size (0 stands for 64). -/
def bits (b : Nat) : Nat := if b = 0 then 64 else b

/-- A root whose nodes consist of texts only. -/
def Leaf (r : Root) : Prop :=
  (r.nodes.map Node.name).Nodup ∧ ∀ n ∈ r.nodes, n.containers ≠ [] ∧ ∀ c ∈ n.containers, c.root = none ∧ c.name = n.name

/-- The texts of the node of a name. -/
def Texts (r : Root) (name : Str) (l : List Str) : Prop := ∃ n ∈ r.nodes, n.name = name ∧ n.containers.map RContainer.content = l

/-- The only part of a name. -/
def Child (r : Root) (name : Str) (u : Root) : Prop := ∃ n ∈ r.nodes, n.name = name ∧ ∃ c, n.containers = [c] ∧ c.root = some u

/-- The parts of a name, in their order. -/
def Children (r : Root) (name : Str) (us : List Root) : Prop :=
  ∃ n ∈ r.nodes, n.name = name ∧ n.containers.map RContainer.root = us.map some

/-- The only part of a name in a root, or in the first part of a chain of parts with other names. -/
inductive FirstIn (name : Str) : Root → Root → Prop where
  | here {r u : Root} : Child r name u → FirstIn name r u
  | there {r v u : Root} {s : Str} {vs : List Root} : Children r s (v :: vs) → s ≠ name → FirstIn name v u → FirstIn name r u

/-- The parser reads a root as an instruction. -/
def ReadsInstruction (cfg : Cfg) (u : Root) (i : Instruction) : Prop := ExecuteRun (baseEvents cfg) u (.ok [.other (.instruction i)])

/-- A list of instructions is that of the part `instructions` of a root: each is the reading of the part at its place. -/
def BlockOf (cfg : Cfg) (r : Root) (l : List Instruction) : Prop :=
  ∃ u us, Child r (lit "instructions") u ∧ Children u (lit "instruction") us ∧ List.Forall₂ (ReadsInstruction cfg) us l

/-- The type written in a tree: the number of surrounding `list<…>` and the flag of the innermost type. -/
inductive TypeTree : Root → Nat → Nat → Prop where
  | bool {r u : Root} : Child r (lit "primitiveType") u → u.exists (lit "BOOL") = true → TypeTree r 0 boolFlag
  | string {r u : Root} : Child r (lit "primitiveType") u → u.exists (lit "STRING") = true → TypeTree r 0 stringFlag
  | float {r u : Root} : Child r (lit "computableType") u → u.exists (lit "FLOAT") = true → TypeTree r 0 floatFlag
  | uint {r u : Root} : Child r (lit "computableType") u → u.exists (lit "UINT") = true → TypeTree r 0 (integerFlag ||| unsignedFlag)
  | int {r u : Root} : Child r (lit "computableType") u → u.exists (lit "INT") = true → TypeTree r 0 integerFlag
  | list {r u v : Root} {d f : Nat} : Child r (lit "listType") u → Child u (lit "declarativeType") v → TypeTree v d f →
      TypeTree r (d + 1) f

/-- The operators of the language. -/
inductive Operator where
  | plus | minus | times | divide
  | less | lessOrEqual | more | moreOrEqual | equal | notEqual
  | and | or
deriving DecidableEq

/-- How an operator is written: the class, the rules present and the rules absent. -/
def Operator.written : Operator → String × List String × List String
  | .plus => ("operatorArithmetic", ["PLUS"], [])
  | .minus => ("operatorArithmetic", ["MINUS"], [])
  | .times => ("operatorArithmetic", ["STAR"], [])
  | .divide => ("operatorArithmetic", ["DIV"], [])
  | .less => ("operatorRelational", ["LESS"], ["EQUAL"])
  | .lessOrEqual => ("operatorRelational", ["LESS", "EQUAL"], [])
  | .more => ("operatorRelational", ["MORE"], ["EQUAL"])
  | .moreOrEqual => ("operatorRelational", ["MORE", "EQUAL"], [])
  | .equal => ("operatorRelational", ["EQUAL"], ["LESS", "MORE", "EXCLAMATION"])
  | .notEqual => ("operatorRelational", ["EXCLAMATION", "EQUAL"], [])
  | .and => ("operatorLogical", ["AND"], [])
  | .or => ("operatorLogical", ["PIPE"], [])

/-- The operator written in a tree. -/
def OperatorTree (u : Root) (op : Operator) : Prop :=
  ∃ w, Child u (lit op.written.1) w ∧ (∀ s ∈ op.written.2.1, w.exists (lit s) = true) ∧ (∀ s ∈ op.written.2.2, w.exists (lit s) = false)

/-- An operator, by the rules of its tree. -/
def OperatorRules (w : Root) (op : Operator) : Prop :=
  (∀ s ∈ op.written.2.1, w.exists (lit s) = true) ∧ (∀ s ∈ op.written.2.2, w.exists (lit s) = false)

/-- The number for an operator: 1 stands for arithmetic operators, 32 for logical ones, 256 for relational ones. -/
def Operator.number : Operator → Nat
  | .plus => 1 + 2
  | .minus => 1 + 4
  | .times => 1 + 8
  | .divide => 1 + 16
  | .and => 32 + 64
  | .or => 32 + 128
  | .notEqual => 256 + 512 + 1024
  | .equal => 256 + 1024
  | .less => 256 + 2048
  | .lessOrEqual => 256 + 2048 + 1024
  | .more => 256 + 4096
  | .moreOrEqual => 256 + 4096 + 1024

end Verif.Base
