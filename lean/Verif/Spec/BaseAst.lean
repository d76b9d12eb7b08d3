import Verif.Model.BaseAst

/-! # Specification notions for the AST of the base language -/

namespace Verif.Base
open Verif.Patterns Verif.Lexer

/-- A meaning of the leaves and operators of operations. -/
structure Meaning (D : Type) where
  bool : Bool → D
  var : Str → D
  value : Value → D
  isNull : D → D
  operator : Nat → D → D → D

mutual
/-- The value of an operation; an operation without a suffix is its element. -/
def Operation.eval {D : Type} (m : Meaning D) : Operation → D
  | .plain e => e.eval m
  | .suffixed e (.mk o x) => m.operator o (e.eval m) (x.eval m)
/-- The value of an element. -/
def OpElement.eval {D : Type} (m : Meaning D) : OpElement → D
  | .bool b => m.bool b
  | .var n => m.var n
  | .value v => m.value v
  | .call (.isNull o) => m.isNull (o.eval m)
  | .op o => o.eval m
end

/-! The operations, elements, suffixes and calls that can be made with the builders from booleans, names and values. -/
mutual
inductive MadeOperation : Operation → Prop where
  | mk {e : Option OpElement} {s : Option OpSuffix} {o : Operation} : (∀ x, e = some x → MadeElement x) →
      (∀ x, s = some x → MadeSuffix x) → operationNow e s = .ok o → MadeOperation o
inductive MadeElement : OpElement → Prop where
  | mk {b : Option Bool} {n : Option Str} {v : Option Value} {c : Option OpCall} {o : Option Operation} {e : OpElement} :
      (∀ x, c = some x → MadeCall x) → (∀ x, o = some x → MadeOperation x) → opElementNow b n v c o = .ok e → MadeElement e
inductive MadeSuffix : OpSuffix → Prop where
  | mk {o : Option Nat} {e : Option OpElement} {s : OpSuffix} : (∀ x, e = some x → MadeElement x) →
      opSuffixNow o e = .ok s → MadeSuffix s
inductive MadeCall : OpCall → Prop where
  | mk {o : Option Operation} {c : OpCall} : (∀ x, o = some x → MadeOperation x) → opCallNow o = .ok c → MadeCall c
end

/-! The nodes of an operation: the operations inside it, itself included. -/
mutual
inductive SubOperation : Operation → Operation → Prop where
  | self (o : Operation) : SubOperation o o
  | plain {e : OpElement} {p : Operation} : SubElement e p → SubOperation (.plain e) p
  | left {e : OpElement} {s : OpSuffix} {p : Operation} : SubElement e p → SubOperation (.suffixed e s) p
  | right {e x : OpElement} {o : Nat} {p : Operation} : SubElement x p → SubOperation (.suffixed e (.mk o x)) p
inductive SubElement : OpElement → Operation → Prop where
  | op {o p : Operation} : SubOperation o p → SubElement (.op o) p
  | call {o p : Operation} : SubOperation o p → SubElement (.call (.isNull o)) p
end

/-- A value fits its type: it is no list, and the flag is the one of the kind of the value. -/
def Value.Fits (v : Value) : Prop :=
  v.typ.dept = 0 ∧
    match v.element with
    | .uint _ => v.typ.flag = integerFlag ||| unsignedFlag
    | .int _ => v.typ.flag = integerFlag
    | .float _ => v.typ.flag = floatFlag
    | .bool _ => v.typ.flag = boolFlag
    | .str _ => v.typ.flag = stringFlag
    | .any _ => False

end Verif.Base
