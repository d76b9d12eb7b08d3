import Verif.Spec.BaseAst

/-! # The builders of the base language (C51, C71) -/

namespace Verif.Base
open Verif.Patterns Verif.Lexer

/-- C51: an operation with a suffix is kept, one without suffix around an operation is this operation, the others are kept;
without element there is an error. -/
theorem C51_build (e : Option OpElement) (s : Option OpSuffix) :
    (e = none → operationNow e s = .err) ∧
    (∀ x t, e = some x → s = some t → operationNow e s = .ok (.suffixed x t)) ∧
    (∀ o, e = some (.op o) → s = none → operationNow e s = .ok o) ∧
    (∀ x, e = some x → (∀ o, x ≠ .op o) → s = none → operationNow e s = .ok (.plain x)) := by
  refine ⟨?_, ?_, ?_, ?_⟩
  · rintro rfl; rfl
  · rintro x t rfl rfl; rfl
  · rintro o rfl rfl; rfl
  · rintro x rfl hx rfl
    cases x with
    | op o => exact absurd rfl (hx o)
    | _ => rfl

/-- C51: what is built has the value of its element, or of the operator applied to the two elements. -/
theorem C51_meaning {D : Type} (m : Meaning D) (e : OpElement) :
    (∃ o, operationNow (some e) none = .ok o ∧ o.eval m = e.eval m) ∧
    (∀ op x, ∃ o, operationNow (some e) (some (.mk op x)) = .ok o ∧ o.eval m = m.operator op (e.eval m) (x.eval m)) := by
  refine ⟨?_, fun op x => ⟨_, rfl, by rw [Operation.eval]⟩⟩
  cases e with
  | op o => exact ⟨o, rfl, by rw [OpElement.eval]⟩
  | bool b => exact ⟨_, rfl, by rw [Operation.optimize, Operation.eval]; simp⟩
  | var b => exact ⟨_, rfl, by rw [Operation.optimize, Operation.eval]; simp⟩
  | value b => exact ⟨_, rfl, by rw [Operation.optimize, Operation.eval]; simp⟩
  | call b => exact ⟨_, rfl, by rw [Operation.optimize, Operation.eval]; simp⟩

/-- C51: in an operation made with the builders, parentheses around an operation have left no trace: no operation inside it, at
any depth, is an element without suffix which is an operation. -/
theorem C51_normal (o : Operation) (h : MadeOperation o) (p q : Operation) (hp : SubOperation o p) : p ≠ .plain (.op q) := by
  have key : ∀ p, SubOperation o p → ∀ q, p ≠ .plain (.op q) := by
    refine MadeOperation.rec (motive_1 := fun o _ => ∀ p, SubOperation o p → ∀ q, p ≠ .plain (.op q))
      (motive_2 := fun e _ => ∀ p, SubElement e p → ∀ q, p ≠ .plain (.op q))
      (motive_3 := fun s _ => ∀ o x, s = .mk o x → ∀ p, SubElement x p → ∀ q, p ≠ .plain (.op q))
      (motive_4 := fun c _ => ∀ o, c = .isNull o → ∀ p, SubOperation o p → ∀ q, p ≠ .plain (.op q)) ?_ ?_ ?_ ?_ h
    · intro e s o _ _ hn he hs p hp q
      match e, hn with
      | none, hn => simp [operationNow] at hn
      | some e, hn =>
        match s, hn with
        | some t, hn =>
          simp only [operationNow, Out.ok.injEq] at hn
          subst hn
          cases hp with
          | self => simp
          | left hp => exact he e rfl p hp q
          | right hp => exact hs _ rfl _ _ rfl p hp q
        | none, hn =>
          simp only [operationNow, Out.ok.injEq] at hn
          cases e with
          | op o' =>
            simp only [Operation.optimize] at hn
            subst hn
            exact he _ rfl p (.op hp) q
          | _ =>
            simp only [Operation.optimize] at hn
            subst hn
            cases hp with
            | self => simp
            | plain hp => exact he _ rfl p hp q
    · intro b n v c o e _ _ hn hc ho p hp q
      cases hp with
      | @op o' _ hp =>
        match b, n, v, c, o, hn with
        | none, none, none, none, some o, hn =>
          simp only [opElementNow, Out.ok.injEq, OpElement.op.injEq] at hn
          subst hn
          exact ho _ rfl p hp q
        | some _, _, _, _, _, hn => simp [opElementNow] at hn
        | none, some _, _, _, _, hn => simp [opElementNow] at hn
        | none, none, some _, _, _, hn => simp [opElementNow] at hn
        | none, none, none, some _, _, hn => simp [opElementNow] at hn
        | none, none, none, none, none, hn => simp [opElementNow] at hn
      | @call o' _ hp =>
        match b, n, v, c, o, hn with
        | none, none, none, some c, _, hn =>
          simp only [opElementNow, Out.ok.injEq, OpElement.call.injEq] at hn
          exact hc _ rfl _ hn p hp q
        | some _, _, _, _, _, hn => simp [opElementNow] at hn
        | none, some _, _, _, _, hn => simp [opElementNow] at hn
        | none, none, some _, _, _, hn => simp [opElementNow] at hn
        | none, none, none, none, some _, hn => simp [opElementNow] at hn
        | none, none, none, none, none, hn => simp [opElementNow] at hn
    · intro o e s _ hn he o' x hs p hp q
      match o, e, hn with
      | some _, some e, hn =>
        simp only [opSuffixNow, Out.ok.injEq] at hn
        subst hn
        simp only [OpSuffix.mk.injEq] at hs
        exact he e rfl p (hs.2 ▸ hp) q
      | none, _, hn => simp [opSuffixNow] at hn
      | some _, none, hn => simp [opSuffixNow] at hn
    · intro o c _ hn ho o' hc p hp q
      match o, hn with
      | some o, hn =>
        simp only [opCallNow, Out.ok.injEq] at hn
        subst hn
        simp only [OpCall.isNull.injEq] at hc
        exact ho o rfl p (hc ▸ hp) q
      | none, hn => simp [opCallNow] at hn
  exact key p hp q

/-- `((ab)) - true` made with the builders. -/
example : MadeOperation (.suffixed (.op (.plain (.var (lit "ab")))) (.mk 5 (.bool true))) ∧
    SubOperation (.suffixed (.op (.plain (.var (lit "ab")))) (.mk 5 (.bool true))) (.plain (.var (lit "ab"))) := by
  have h1 : MadeElement (.var (lit "ab")) :=
    .mk (b := none) (n := some (lit "ab")) (v := none) (c := none) (o := none) (by simp) (by simp) rfl
  have h2 : MadeOperation (.plain (.var (lit "ab"))) :=
    .mk (e := some (.var (lit "ab"))) (s := none) (by rintro x ⟨⟩; exact h1) (by simp) rfl
  have h3 : MadeElement (.op (.plain (.var (lit "ab")))) :=
    .mk (b := none) (n := none) (v := none) (c := none) (o := some _) (by simp) (by rintro x ⟨⟩; exact h2) rfl
  have h4 : MadeElement (.bool true) := .mk (b := some true) (n := none) (v := none) (c := none) (o := none) (by simp) (by simp) rfl
  have h5 : MadeSuffix (.mk 5 (.bool true)) := .mk (o := some 5) (e := some _) (by rintro x ⟨⟩; exact h4) rfl
  refine ⟨?_, .left (.op (.self _))⟩
  exact .mk (e := some _) (s := some _) (by rintro x ⟨⟩; exact h3) (by rintro x ⟨⟩; exact h5) rfl

/-! ## C71 -/

/-- C71: an instruction is built exactly if at least one of its alternatives is set; of several, the first in the order assignment,
declaration, if, for, call, direction, increment counts. -/
theorem C71_instruction (b : InstructionBuilder) (i : Instruction) :
    instructionNow b = .ok i ↔
      (∃ a, b.assignment = some a ∧ i = .assignment a) ∨
      (b.assignment = none ∧ ∃ d, b.declaration = some d ∧ i = .declaration d) ∨
      (b.assignment = none ∧ b.declaration = none ∧ ∃ c l, b.ifDecl = some (c, l) ∧ i = .ifDecl c l) ∨
      (b.assignment = none ∧ b.declaration = none ∧ b.ifDecl = none ∧ ∃ s l, b.forDecl = some (s, l) ∧ i = .forDecl s l) ∨
      (b.assignment = none ∧ b.declaration = none ∧ b.ifDecl = none ∧ b.forDecl = none ∧ ∃ c, b.call = some c ∧ i = .call c) ∨
      (b.assignment = none ∧ b.declaration = none ∧ b.ifDecl = none ∧ b.forDecl = none ∧ b.call = none ∧
        ∃ d, b.direction = some d ∧ i = .direction d) ∨
      (b.assignment = none ∧ b.declaration = none ∧ b.ifDecl = none ∧ b.forDecl = none ∧ b.call = none ∧ b.direction = none ∧
        ∃ d, b.increment = some d ∧ i = .increment d) := by
  obtain ⟨a, d, f, o, c, dir, inc⟩ := b
  match a, d, f, o, c, dir, inc with
  | some a, _, _, _, _, _, _ => simp [instructionNow, eq_comm]
  | none, some _, _, _, _, _, _ => simp [instructionNow, eq_comm]
  | none, none, some (_, _), _, _, _, _ => simp [instructionNow, eq_comm]
  | none, none, none, some (_, _), _, _, _ => simp [instructionNow, eq_comm]
  | none, none, none, none, some _, _, _ => simp [instructionNow, eq_comm]
  | none, none, none, none, none, some _, _ => simp [instructionNow, eq_comm]
  | none, none, none, none, none, none, some _ => simp [instructionNow, eq_comm]
  | none, none, none, none, none, none, none => simp [instructionNow]

/-- C71: the same for the elements of operations, with the order boolean, name, value, call, operation. -/
theorem C71_element (b : Option Bool) (n : Option Str) (v : Option Value) (c : Option OpCall) (o : Option Operation)
    (e : OpElement) :
    opElementNow b n v c o = .ok e ↔
      (∃ x, b = some x ∧ e = .bool x) ∨ (b = none ∧ ∃ x, n = some x ∧ e = .var x) ∨
      (b = none ∧ n = none ∧ ∃ x, v = some x ∧ e = .value x) ∨ (b = none ∧ n = none ∧ v = none ∧ ∃ x, c = some x ∧ e = .call x) ∨
      (b = none ∧ n = none ∧ v = none ∧ c = none ∧ ∃ x, o = some x ∧ e = .op x) := by
  match b, n, v, c, o with
  | some _, _, _, _, _ => simp [opElementNow, eq_comm]
  | none, some _, _, _, _ => simp [opElementNow, eq_comm]
  | none, none, some _, _, _ => simp [opElementNow, eq_comm]
  | none, none, none, some _, _ => simp [opElementNow, eq_comm]
  | none, none, none, none, some _ => simp [opElementNow, eq_comm]
  | none, none, none, none, none => simp [opElementNow]

/-- C71: the same for the assignable values. -/
theorem C71_single (v : Option Value) (o : Option Operation) (l : Option TotalListAssignable) (f : Option ListFetchElement)
    (s : SingleAssignable) :
    singleAssignableNow v o l f = .ok s ↔
      (∃ x, v = some x ∧ s = .value x) ∨ (v = none ∧ ∃ x, o = some x ∧ s = .op x) ∨
      (v = none ∧ o = none ∧ ∃ x, l = some x ∧ s = .extract x) ∨ (v = none ∧ o = none ∧ l = none ∧ ∃ x, f = some x ∧ s = .fetch x) := by
  match v, o, l, f with
  | some _, _, _, _ => simp [singleAssignableNow, eq_comm]
  | none, some _, _, _ => simp [singleAssignableNow, eq_comm]
  | none, none, some _, _ => simp [singleAssignableNow, eq_comm]
  | none, none, none, some _ => simp [singleAssignableNow, eq_comm]
  | none, none, none, none => simp [singleAssignableNow]

/-- C71: the same for assignables, lists, list values, indices, assignees and assignee names. -/
theorem C71_two (tl : Option TotalListAssignable) (si : Option SingleAssignable) (lv : Option ListValue) (sl : Option Slice)
    (ap : Option Append) (as : Option (List Assignable)) (v : Option Value) (name : Str) (fs : Option (List AssigneeNameFirst))
    (ns : Option (List AssigneeName)) (d : Option VarDecl) (an : Option AssigneeName) (skip : Bool) :
    (∀ a, assignableNow tl si = .ok a ↔ (∃ x, tl = some x ∧ a = .list x) ∨ (tl = none ∧ ∃ x, si = some x ∧ a = .single x)) ∧
    (∀ t, totalListAssignableNow lv sl ap = .ok t ↔ (∃ x, lv = some x ∧ t = .listValue x) ∨
      (lv = none ∧ ∃ x, sl = some x ∧ t = .slice x) ∨ (lv = none ∧ sl = none ∧ ∃ x, ap = some x ∧ t = .append x)) ∧
    (∀ t, totalListValueNow tl name = .ok t ↔ (∃ x, tl = some x ∧ t = .assignable x) ∨ (tl = none ∧ name ≠ [] ∧ t = .var name)) ∧
    (∀ t, listValueNow as name = .ok t ↔ (∃ x, as = some x ∧ t = .assignables x) ∨ (as = none ∧ name ≠ [] ∧ t = .var name)) ∧
    (∀ t, indexValueNow v name = .ok t ↔ (∃ x, v = some x ∧ t = .value x) ∨ (v = none ∧ name ≠ [] ∧ t = .var name)) ∧
    (∀ t, assigneeNow fs ns = .ok t ↔ (∃ x, fs = some x ∧ t = .first x) ∨ (fs = none ∧ ∃ x, ns = some x ∧ t = .name x)) ∧
    (∀ t, assigneeNameFirstNow d an = .ok t ↔ (∃ x, d = some x ∧ t = .declaration x) ∨ (d = none ∧ ∃ x, an = some x ∧ t = .name x)) ∧
    (∀ t, assigneeNameNow name skip = .ok t ↔ (name ≠ [] ∧ t = .var name) ∨ (name = [] ∧ skip = true ∧ t = .skip)) := by
  refine ⟨?_, ?_, ?_, ?_, ?_, ?_, ?_, ?_⟩
  · intro a; cases tl <;> cases si <;> simp [assignableNow, eq_comm]
  · intro a; cases lv <;> cases sl <;> cases ap <;> simp [totalListAssignableNow, eq_comm]
  · intro a; cases tl <;> by_cases h : name = [] <;> simp [totalListValueNow, h, eq_comm]
  · intro a; cases as <;> by_cases h : name = [] <;> simp [listValueNow, h, eq_comm]
  · intro a; cases v <;> by_cases h : name = [] <;> simp [indexValueNow, h, eq_comm]
  · intro a; cases fs <;> cases ns <;> simp [assigneeNow, eq_comm]
  · intro a; cases d <;> cases an <;> simp [assigneeNameFirstNow, eq_comm]
  · intro a; by_cases h : name = [] <;> cases skip <;> simp [assigneeNameNow, h, eq_comm]

/-- C71: the objects with mandatory parts are built exactly if all of these are set; the optional parts are kept. -/
theorem C71_mandatory (ins : Option (List Instruction)) (hs : Option (List HeaderVariable)) (d : Option VarDecl) (key : Str)
    (m io : Bool) (st : Option ForStatement) (op : Option Operation) (x y : Option AssigneeName) (tv : Option TotalListValue)
    (ae : Option Assignee) (as : Option (List Assignable)) (name : Str) (v : Option Value) (t : Option Typ) (lv : Option ListValue)
    (sd : Option SliceDelimiter) (si : Option SingleAssignable) (i j : Option IndexValue) (o : Option Nat) (e : Option OpElement) :
    (∀ p, programNow ins hs = .ok p ↔ ∃ l, ins = some l ∧ p = ⟨l, hs⟩) ∧
    (∀ p, headerVariableNow m io d key = .ok p ↔ key ≠ [] ∧ ∃ z, d = some z ∧ p = ⟨m, io, z, key⟩) ∧
    (∀ p, forDeclarationNow st ins = .ok p ↔ ∃ s, st = some s ∧ p = (s, ins)) ∧
    (∀ p, ifDeclarationNow op ins = .ok p ↔ ∃ s, op = some s ∧ p = (s, ins)) ∧
    (∀ p, forStatementNow x y tv = .ok p ↔ ∃ a b c, x = some a ∧ y = some b ∧ tv = some c ∧ p = ⟨a, b, c⟩) ∧
    (∀ p, assignmentNow ae as = .ok p ↔ ∃ a l, ae = some a ∧ as = some l ∧ p = ⟨a, l⟩) ∧
    (∀ p, intIncrementNow name v = .ok p ↔ name ≠ [] ∧ ∃ z, v = some z ∧ p = ⟨name, z⟩) ∧
    (∀ p, varDeclNow t name = .ok p ↔ name ≠ [] ∧ ∃ z, t = some z ∧ p = ⟨z, name⟩) ∧
    (∀ p, sliceNow lv sd = .ok p ↔ ∃ a b, lv = some a ∧ sd = some b ∧ p = .mk a b) ∧
    (∀ p, appendNow lv si = .ok p ↔ ∃ a b, lv = some a ∧ si = some b ∧ p = .mk a b) ∧
    (∀ p, listFetchElementNow tv i = .ok p ↔ ∃ a b, tv = some a ∧ i = some b ∧ p = .mk a b) ∧
    (∀ p, sliceDelimiterNow i j = .ok p ↔ ∃ a, i = some a ∧ p = ⟨a, j⟩) ∧
    (∀ p, opSuffixNow o e = .ok p ↔ ∃ a b, o = some a ∧ e = some b ∧ p = .mk a b) := by
  refine ⟨?_, ?_, ?_, ?_, ?_, ?_, ?_, ?_, ?_, ?_, ?_, ?_, ?_⟩
  · intro p; cases ins <;> cases hs <;> simp [programNow, eq_comm]
  · intro p; cases d <;> by_cases h : key = [] <;> simp [headerVariableNow, h, eq_comm]
  · intro p; cases st <;> cases ins <;> simp [forDeclarationNow, eq_comm]
  · intro p; cases op <;> cases ins <;> simp [ifDeclarationNow, eq_comm]
  · intro p; cases x <;> cases y <;> cases tv <;> simp [forStatementNow, eq_comm]
  · intro p; cases ae <;> cases as <;> simp [assignmentNow, eq_comm]
  · intro p; cases v <;> by_cases h : name = [] <;> simp [intIncrementNow, h, eq_comm]
  · intro p; cases t <;> by_cases h : name = [] <;> simp [varDeclNow, h, eq_comm]
  · intro p; cases lv <;> cases sd <;> simp [sliceNow, eq_comm]
  · intro p; cases lv <;> cases si <;> simp [appendNow, eq_comm]
  · intro p; cases tv <;> cases i <;> simp [listFetchElementNow, eq_comm]
  · intro p; cases i <;> cases j <;> simp [sliceDelimiterNow, eq_comm]
  · intro p; cases o <;> cases e <;> simp [opSuffixNow, eq_comm]

/-- C71: lists of instructions, header variables and assignees are built exactly if they are not empty, in their order. -/
theorem C71_lists {α : Type} (l : Option (List α)) (r : List α) : manyNow l = .ok r ↔ l = some r ∧ r ≠ [] := by
  match l with
  | none => simp [manyNow]
  | some [] => simp [manyNow]
  | some (a :: as) => simp only [manyNow, Out.ok.injEq, Option.some.injEq]; constructor
                      · rintro rfl; simp
                      · exact fun h => h.1

/-- C71 (violation): "at least 1" declaration is demanded, but an empty list of declarations is accepted. -/
theorem C71_empty_declarations : varDeclsNow (some []) = .ok [] ∧ varDeclsNow none = .err := ⟨rfl, rfl⟩

/-- C71: a value without given type and element fits the type it gets; there is one exactly if something is set, and of several
the last in the order uint, int, float, bool, text counts. -/
theorem C71_value (b : ValueBuilder) (ht : b.typ = none) (he : b.element = none) :
    (∀ v, valueNow b = .ok v → v.Fits) ∧
    (∀ s, b.str = some s → ∃ v, valueNow b = .ok v ∧ v.element = .str s) ∧
    (b.str = none → ∀ s, b.boolValue = some s → ∃ v, valueNow b = .ok v ∧ v.element = .bool s) ∧
    (b.str = none → b.boolValue = none → ∀ s, b.floatValue = some s → ∃ v, valueNow b = .ok v ∧ v.element = .float s) ∧
    (b.str = none → b.boolValue = none → b.floatValue = none → ∀ s, b.intValue = some s →
      ∃ v, valueNow b = .ok v ∧ v.element = .int s) ∧
    (b.str = none → b.boolValue = none → b.floatValue = none → b.intValue = none → ∀ s, b.uintValue = some s →
      ∃ v, valueNow b = .ok v ∧ v.element = .uint s) ∧
    (b.str = none → b.boolValue = none → b.floatValue = none → b.intValue = none → b.uintValue = none → valueNow b = .err) := by
  obtain ⟨t, e, u, i, f, bo, s⟩ := b
  simp only at ht he
  subst ht he
  cases u <;> cases i <;> cases f <;> cases bo <;> cases s <;>
    simp [valueNow, overwrite, typeNow, Value.Fits, bind, Out.bind, pure]

/-- C71: two types are equal exactly if `Compare` gives no error. -/
theorem C71_compare (t u : Typ) : t.compare u = true ↔ t = u := by
  obtain ⟨d, f⟩ := t
  obtain ⟨d', f'⟩ := u
  simp [Typ.compare]

example : instructionNow { direction := some .brk, call := none, increment := some ⟨lit "ab", ⟨⟨0, 2⟩, .int 1⟩⟩ } =
    .ok (.direction .brk) ∧ valueNow { uintValue := some 3, str := some (lit "x") } = .ok ⟨⟨0, 8⟩, .str (lit "x")⟩ := ⟨rfl, rfl⟩

end Verif.Base
