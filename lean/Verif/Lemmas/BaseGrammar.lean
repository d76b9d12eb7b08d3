import Verif.Spec.BaseGrammar
import Verif.Lemmas.Parsers
import Mathlib.Data.List.Nodup

/-! # Lemmas about the events of the base language -/

namespace Verif.Base
open Verif.Patterns Verif.Lexer

/-- All the tokens, in the order of the events. -/
def allKinds : List Kind :=
  [.program, .headerVariables, .headerVariable, .inputOutput, .instructions, .instruction, .voidFuncCalls, .logFuncCall, .direction,
   .forDeclaration, .forStatement, .ifDeclaration, .ifOperation, .assignment, .assignee, .assigneeNameFirsts, .commaAssigneeFirst,
   .assigneeNameFirst, .assigneeNames, .commaAssigneeName, .assigneeName, .slice, .assignables, .commaAssignable, .assignable,
   .singleAssignable, .listFetchElement, .listElementFetcher, .listAssignableToAssignables, .totalListValue, .totalListAssignable,
   .listAppend, .listValue, .listAssignable, .sliceDelimiter, .indexValue, .operation, .operationFuncCalls, .isNullFuncCall,
   .operationWithSuffix, .operationSuffix, .operationElement, .operator, .operatorArithmetic, .operatorRelational, .operatorLogical,
   .intIncrement, .intIncrementValue, .declarableValue, .computableValue, .primitiveValue, .stringValue, .boolValue, .intValue,
   .floatValue, .variableDeclarations, .commaVariableDeclaration, .variableDeclaration, .listType, .declarativeType, .primitiveType,
   .computableType, .variableName]

theorem events_eq (cfg : Cfg) : baseEvents cfg = allKinds.map (fun k => (k.name, [evOf cfg k])) := rfl
theorem mem_all (k : Kind) : k ∈ allKinds := by cases k <;> decide
theorem names_nodup : (allKinds.map Kind.name).Nodup := by decide +kernel
theorem name_inj {a b : Kind} (h : a.name = b.name) : a = b :=
  List.inj_on_of_nodup_map names_nodup (mem_all a) (mem_all b) h
theorem get_evOf (cfg : Cfg) (k : Kind) : (baseEvents cfg).get k.name = some [evOf cfg k] := by
  have key : ∀ l : List Kind, k ∈ l → (l.map (fun k => (k.name, [evOf cfg k]))).find? (fun p => p.1 = k.name) = some (k.name, [evOf cfg k]) := by
    intro l
    induction l with
    | nil => simp
    | cons a l ih =>
      intro h
      by_cases ha : a = k
      · subst ha; simp
      · rw [List.map_cons, List.find?_cons_of_neg (by simpa using fun hn => ha (name_inj hn))]
        exact ih (by simpa [Ne.symm ha] using h)
  rw [Events.get, events_eq, key _ (mem_all k)]
  rfl

theorem get_events (cfg : Cfg) (name : Str) (l : List (Event BVal)) (h : (baseEvents cfg).get name = some l) :
    ∃ k, name = Kind.name k ∧ l = [evOf cfg k] := by
  rw [Events.get, Option.map_eq_some_iff] at h
  obtain ⟨p, hp, rfl⟩ := h
  have hm := List.mem_of_find?_eq_some hp
  have hn := List.find?_some hp
  rw [events_eq, List.mem_map] at hm
  obtain ⟨k, _, rfl⟩ := hm
  exact ⟨k, (by simpa using hn : k.name = name).symm, rfl⟩

/-! ## The events stay inside their root -/

section stays
variable {α : Type} {r : Root}

theorem si_step {o : Out α} {k : α → P} (h : ∀ a, StaysInside r (k a)) : StaysInside r (step o k) := by
  cases o with
  | ok a => exact h a
  | err => exact .done _
  | panic => exact .done _

theorem si_ret {o : Out α} {mk : α → BVal} : StaysInside r (ret o mk) := si_step fun _ => .done _

theorem si_call {name : Str} {k : List V → P} (h : ∀ a, StaysInside r (k a)) : StaysInside r (call name r k) :=
  .trigger (.inl rfl) fun _ => si_step h

theorem si_need {name : Str} {f : V → Option α} {k : α → P} (h : ∀ a, StaysInside r (k a)) : StaysInside r (need name r f k) :=
  si_call fun _ => si_step h

theorem si_opt {name : Str} {f : V → Option α} {k : Option α → P} (h : ∀ a, StaysInside r (k a)) : StaysInside r (opt name r f k) := by
  unfold opt
  split
  · exact si_need fun _ => h _
  · exact h _

theorem si_pass {name : Str} : StaysInside r (pass name r) := si_call fun _ => .done _

theorem si_comma {name comma : Str} {f : V → Option α} {k : List α → P} (h : ∀ a, StaysInside r (k a)) :
    StaysInside r (commaList name comma f r k) := by
  refine si_need fun a => ?_
  split
  · exact si_call fun _ => si_step fun _ => h _
  · exact h _

theorem si_type {name : Str} {f : List V → TypeState → Out TypeState} {s : TypeState} {k : TypeState → P}
    (h : ∀ a, StaysInside r (k a)) : StaysInside r (typePart name r f s k) := by
  unfold typePart
  split
  · exact si_call fun _ => si_step h
  · exact h _

end stays

macro "ev_stay" : tactic => `(tactic| repeat' first
  | exact .done _
  | exact si_ret
  | exact si_pass
  | refine si_opt fun _ => ?_
  | refine si_need fun _ => ?_
  | refine si_comma fun _ => ?_
  | refine si_type fun _ => ?_
  | refine si_call fun _ => ?_
  | refine si_step fun _ => ?_
  | split)

theorem stays (cfg : Cfg) (k : Kind) (r : Root) : StaysInside r (evOf cfg k r) := by
  cases k <;> simp only [evOf, evProgram, evHeaderVariables, evHeaderVariable, evInputOutput, evInstructions, evInstruction, evVoidFuncCalls, evLogFuncCall, evDirection, evForDeclaration, evForStatement, evIfDeclaration, evIfOperation, evAssignment, evAssignee, evAssigneeNameFirsts, evCommaAssigneeFirst, evAssigneeNameFirst, evAssigneeNames, evCommaAssigneeName, evAssigneeName, evSlice, evAssignables, evCommaAssignable, evAssignable, evSingleAssignable, evListFetchElement, evListElementFetcher, evListAssignableToAssignables, evTotalListValue, evTotalListAssignable, evListAppend, evListValue, evListAssignable, evSliceDelimiter, evIndexValue, evOperation, evOperationFuncCalls, evIsNullFuncCall, evOperationWithSuffix, evOperationSuffix, evOperationElement, evOperator, evOperatorArithmetic, evOperatorRelational, evOperatorLogical, evIntIncrement, evIntIncrementValue, evDeclarableValue, evComputableValue, evPrimitiveValue, evStringValue, evBoolValue, evIntValue, evFloatValue, evVariableDeclarations, evCommaVariableDeclaration, evVariableDeclaration, evListType, evDeclarativeType, evPrimitiveType, evComputableType, evVariableName] <;> ev_stay

end Verif.Base
