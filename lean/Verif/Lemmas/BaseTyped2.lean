import Verif.Lemmas.BaseTyped

/-! # No event of the base language panics: event by event -/

namespace Verif.Base
open Verif.Patterns Verif.Lexer

variable {cfg : Cfg} {k ke : Kind} {r : Root}

/-! ## The builders do not panic -/

macro "builder" d:ident : tactic => `(tactic| (unfold $d:ident; repeat' split) <;> simp)

theorem typeNow_np (a b) : typeNow a b ≠ .panic := by builder typeNow
theorem bind_np {α β : Type} {x : Out α} {f : α → Out β} (hx : x ≠ .panic) (hf : ∀ a, f a ≠ .panic) : (x >>= f) ≠ .panic := by
  cases x with
  | panic => exact absurd rfl hx
  | err => simp [Bind.bind, Out.bind]
  | ok a => exact hf a

theorem valueNow_np (b) : valueNow b ≠ .panic := by
  unfold valueNow
  refine bind_np ?_ fun s => ?_
  · cases b.typ with
    | some t => simp
    | none => exact bind_np (typeNow_np _ _) fun t => by simp [Pure.pure]
  · cases s.2 <;> simp [Pure.pure]
theorem varDeclNow_np (a b) : varDeclNow a b ≠ .panic := by builder varDeclNow
theorem varDeclsNow_np (a) : varDeclsNow a ≠ .panic := by builder varDeclsNow
theorem manyNow_np {α : Type} (a : Option (List α)) : manyNow a ≠ .panic := by builder manyNow
theorem operationNow_np (a b) : operationNow a b ≠ .panic := by builder operationNow
theorem opElementNow_np (a b c d e) : opElementNow a b c d e ≠ .panic := by builder opElementNow
theorem opSuffixNow_np (a b) : opSuffixNow a b ≠ .panic := by builder opSuffixNow
theorem opCallNow_np (a) : opCallNow a ≠ .panic := by builder opCallNow
theorem indexValueNow_np (a b) : indexValueNow a b ≠ .panic := by builder indexValueNow
theorem sliceDelimiterNow_np (a b) : sliceDelimiterNow a b ≠ .panic := by builder sliceDelimiterNow
theorem assignablesNow_np (a) : assignablesNow a ≠ .panic := by builder assignablesNow
theorem assignableNow_np (a b) : assignableNow a b ≠ .panic := by builder assignableNow
theorem singleAssignableNow_np (a b c d) : singleAssignableNow a b c d ≠ .panic := by builder singleAssignableNow
theorem listFetchElementNow_np (a b) : listFetchElementNow a b ≠ .panic := by builder listFetchElementNow
theorem totalListValueNow_np (a b) : totalListValueNow a b ≠ .panic := by builder totalListValueNow
theorem totalListAssignableNow_np (a b c) : totalListAssignableNow a b c ≠ .panic := by builder totalListAssignableNow
theorem listValueNow_np (a b) : listValueNow a b ≠ .panic := by builder listValueNow
theorem appendNow_np (a b) : appendNow a b ≠ .panic := by builder appendNow
theorem sliceNow_np (a b) : sliceNow a b ≠ .panic := by builder sliceNow
theorem assigneeNameNow_np (a b) : assigneeNameNow a b ≠ .panic := by builder assigneeNameNow
theorem assigneeNameFirstNow_np (a b) : assigneeNameFirstNow a b ≠ .panic := by builder assigneeNameFirstNow
theorem assigneeNow_np (a b) : assigneeNow a b ≠ .panic := by builder assigneeNow
theorem assignmentNow_np (a b) : assignmentNow a b ≠ .panic := by builder assignmentNow
theorem intIncrementNow_np (a b) : intIncrementNow a b ≠ .panic := by builder intIncrementNow
theorem directionNow_np (a b) : directionNow a b ≠ .panic := by builder directionNow
theorem voidFuncCallNow_np (a) : voidFuncCallNow a ≠ .panic := by builder voidFuncCallNow
theorem forStatementNow_np (a b c) : forStatementNow a b c ≠ .panic := by builder forStatementNow
theorem ifDeclarationNow_np (a b) : ifDeclarationNow a b ≠ .panic := by builder ifDeclarationNow
theorem forDeclarationNow_np (a b) : forDeclarationNow a b ≠ .panic := by builder forDeclarationNow
theorem instructionNow_np (a) : instructionNow a ≠ .panic := by builder instructionNow
theorem headerVariableNow_np (a b c d) : headerVariableNow a b c d ≠ .panic := by builder headerVariableNow
theorem programNow_np (a b) : programNow a b ≠ .panic := by builder programNow

/-! ## The events -/

macro "fin" t:term : tactic => `(tactic| exact fine_ret $t (fun _ _ => goodAt (by decide) ⟨_, rfl⟩))
macro "got" : tactic => `(tactic| ((first | (rintro v ⟨x, hx⟩; subst hx) | (rintro v ⟨x, hx, hy⟩; subst hx)); refine ⟨_, rfl, ?_⟩))
macro "may" h:ident ih:ident k:term : tactic => `(tactic| (refine fine_opt $h $ih $k ?_ ?_ <;> [got; skip]))
macro "must" h:ident ih:ident k:term : tactic => `(tactic| (refine fine_need $h $ih $k ?_; got))
macro "through" h:ident ih:ident k:term : tactic => `(tactic| exact fine_pass $h $ih $k (by decide +kernel) (fun _ hv => goodAt (by decide) hv))

section
variable (h : BuiltAs k r) (ih : InsideFine cfg r)
include h ih

theorem fine_program : Ends cfg (evProgram r) (Fine .program r) := by
  unfold evProgram
  must h ih .instructions
  may h ih .headerVariables <;> fin (programNow_np _ _)

theorem fine_headerVariables : Ends cfg (evHeaderVariables r) (Fine .headerVariables r) := by
  unfold evHeaderVariables
  refine fine_call_tok h ih .headerVariable fun l hl hg => ?_
  obtain ⟨as, h1, h2⟩ := assertAll_ok (f := asHeader) (l := l) fun v hv => by obtain ⟨x, rfl⟩ := hg v hv; exact ⟨_, rfl⟩
  simp only [h1, step]
  fin (manyNow_np _)

theorem fine_instructions : Ends cfg (evInstructions r) (Fine .instructions r) := by
  unfold evInstructions
  refine fine_call_tok h ih .instruction fun l hl hg => ?_
  obtain ⟨as, h1, h2⟩ := assertAll_ok (f := asInstruction) (l := l) fun v hv => by obtain ⟨x, rfl⟩ := hg v hv; exact ⟨_, rfl⟩
  simp only [h1, step]
  fin (manyNow_np _)

theorem fine_headerVariable : Ends cfg (evHeaderVariable r) (Fine .headerVariable r) := by
  unfold evHeaderVariable
  refine fine_call_tok h ih .inputOutput fun l1 hl1 hg1 => ?_
  refine fine_call_tok h ih .variableDeclaration fun l2 hl2 hg2 => ?_
  refine fine_call fun x hx => ?_
  rcases trigger_texts h (by intro k; cases k <;> decide) hx with rfl | ⟨l, rfl, hl, ht⟩
  · exact .inl rfl
  refine .inr ⟨_, rfl, ?_⟩
  obtain ⟨x1, l1, rfl⟩ := List.exists_cons_of_ne_nil hl1
  obtain ⟨x2, l2, rfl⟩ := List.exists_cons_of_ne_nil hl2
  obtain ⟨x3, l3, rfl⟩ := List.exists_cons_of_ne_nil hl
  obtain ⟨y1, rfl⟩ := hg1 x1 (by simp)
  obtain ⟨y2, rfl⟩ := hg2 x2 (by simp)
  obtain ⟨y3, rfl⟩ := ht x3 (by simp)
  simp only [assertFirst, assert, asDecl, asText, asBool, step]
  fin (headerVariableNow_np _ _ _ _)

omit h ih in
theorem fine_inputOutput : Ends cfg (evInputOutput r) (Fine .inputOutput r) :=
  ends_done (.inr ⟨_, goodAt (by decide) ⟨_, rfl⟩, .inl rfl⟩)

theorem fine_instruction : Ends cfg (evInstruction r) (Fine .instruction r) := by
  unfold evInstruction
  may h ih .assignment <;> (may h ih .variableDeclaration) <;> (may h ih .ifDeclaration) <;> (may h ih .forDeclaration) <;>
    (may h ih .voidFuncCalls) <;> (may h ih .direction) <;> (may h ih .intIncrement) <;> fin (instructionNow_np _)

theorem fine_voidFuncCalls : Ends cfg (evVoidFuncCalls r) (Fine .voidFuncCalls r) := by
  unfold evVoidFuncCalls
  may h ih .logFuncCall <;> fin (voidFuncCallNow_np _)

theorem fine_logFuncCall : Ends cfg (evLogFuncCall r) (Fine .logFuncCall r) := by
  through h ih .assignable

omit h ih in
theorem fine_direction : Ends cfg (evDirection r) (Fine .direction r) := by
  unfold evDirection
  fin (directionNow_np _ _)

theorem fine_forDeclaration : Ends cfg (evForDeclaration r) (Fine .forDeclaration r) := by
  unfold evForDeclaration
  must h ih .forStatement
  may h ih .instructions <;> fin (forDeclarationNow_np _ _)

theorem fine_ifDeclaration : Ends cfg (evIfDeclaration r) (Fine .ifDeclaration r) := by
  unfold evIfDeclaration
  may h ih .ifOperation <;> (may h ih .instructions) <;> fin (ifDeclarationNow_np _ _)

theorem fine_ifOperation : Ends cfg (evIfOperation r) (Fine .ifOperation r) := by
  through h ih .operation

theorem fine_assignment : Ends cfg (evAssignment r) (Fine .assignment r) := by
  unfold evAssignment
  may h ih .assignee <;> (may h ih .assignables) <;> fin (assignmentNow_np _ _)

theorem fine_assignee : Ends cfg (evAssignee r) (Fine .assignee r) := by
  unfold evAssignee
  may h ih .assigneeNameFirsts <;> (may h ih .assigneeNames) <;> fin (assigneeNow_np _ _)

theorem fine_assigneeNameFirsts : Ends cfg (evAssigneeNameFirsts r) (Fine .assigneeNameFirsts r) := by
  unfold evAssigneeNameFirsts
  refine fine_comma h ih .assigneeNameFirst .commaAssigneeFirst ?_ ?_ fun a l _ => ?_
  · rintro v ⟨x, rfl⟩; exact ⟨_, rfl⟩
  · rintro v ⟨x, rfl⟩; exact ⟨_, rfl⟩
  · fin (manyNow_np _)

theorem fine_commaAssigneeFirst : Ends cfg (evCommaAssigneeFirst r) (Fine .commaAssigneeFirst r) := by
  through h ih .assigneeNameFirst

theorem fine_assigneeNameFirst : Ends cfg (evAssigneeNameFirst r) (Fine .assigneeNameFirst r) := by
  unfold evAssigneeNameFirst
  may h ih .variableDeclaration <;> (may h ih .assigneeName) <;> fin (assigneeNameFirstNow_np _ _)

theorem fine_assigneeNames : Ends cfg (evAssigneeNames r) (Fine .assigneeNames r) := by
  unfold evAssigneeNames
  refine fine_comma h ih .assigneeName .commaAssigneeName ?_ ?_ fun a l hl => ?_
  · rintro v ⟨x, rfl⟩; exact ⟨_, rfl⟩
  · rintro v ⟨x, rfl⟩; exact ⟨_, rfl⟩
  · refine fine_ret (manyNow_np _) fun as has => ⟨⟨_, rfl⟩, fun _ he => ?_⟩
    obtain ⟨b, l, rfl⟩ := List.exists_cons_of_ne_nil (hl he)
    simp only [manyNow, Out.ok.injEq] at has
    subst has
    exact ⟨_, _, _, rfl⟩

theorem fine_commaAssigneeName : Ends cfg (evCommaAssigneeName r) (Fine .commaAssigneeName r) := by
  through h ih .assigneeName

theorem fine_assigneeName : Ends cfg (evAssigneeName r) (Fine .assigneeName r) := by
  unfold evAssigneeName
  may h ih .variableName <;> fin (assigneeNameNow_np _ _)

theorem fine_slice : Ends cfg (evSlice r) (Fine .slice r) := by
  unfold evSlice
  refine fine_call_tok h ih .listValue fun l1 hl1 hg1 => ?_
  refine fine_call_tok h ih .sliceDelimiter fun l2 hl2 hg2 => ?_
  obtain ⟨x1, l1, rfl⟩ := List.exists_cons_of_ne_nil hl1
  obtain ⟨x2, l2, rfl⟩ := List.exists_cons_of_ne_nil hl2
  obtain ⟨y1, rfl⟩ := hg1 x1 (by simp)
  obtain ⟨y2, rfl⟩ := hg2 x2 (by simp)
  simp only [assertFirst, assert, asListValue, asDelimiter, asTotalValue, asIndex, asSingle, asTyp, asText, step]
  fin (sliceNow_np _ _)

theorem fine_assignables : Ends cfg (evAssignables r) (Fine .assignables r) := by
  unfold evAssignables
  refine fine_comma h ih .assignable .commaAssignable ?_ ?_ fun a l _ => ?_
  · rintro v ⟨x, rfl⟩; exact ⟨_, rfl⟩
  · rintro v ⟨x, rfl⟩; exact ⟨_, rfl⟩
  · fin (assignablesNow_np _)

theorem fine_commaAssignable : Ends cfg (evCommaAssignable r) (Fine .commaAssignable r) := by
  through h ih .assignable

theorem fine_assignable : Ends cfg (evAssignable r) (Fine .assignable r) := by
  unfold evAssignable
  may h ih .totalListAssignable <;> (may h ih .singleAssignable) <;> fin (assignableNow_np _ _)

theorem fine_singleAssignable : Ends cfg (evSingleAssignable r) (Fine .singleAssignable r) := by
  unfold evSingleAssignable
  may h ih .declarableValue <;> (may h ih .operation) <;> (may h ih .listAssignableToAssignables) <;> (may h ih .listFetchElement) <;>
    fin (singleAssignableNow_np _ _ _ _)

theorem fine_listFetchElement : Ends cfg (evListFetchElement r) (Fine .listFetchElement r) := by
  unfold evListFetchElement
  refine fine_call_tok h ih .totalListValue fun l1 hl1 hg1 => ?_
  refine fine_call_tok h ih .listElementFetcher fun l2 hl2 hg2 => ?_
  obtain ⟨x1, l1, rfl⟩ := List.exists_cons_of_ne_nil hl1
  obtain ⟨x2, l2, rfl⟩ := List.exists_cons_of_ne_nil hl2
  obtain ⟨y1, rfl⟩ := hg1 x1 (by simp)
  obtain ⟨y2, rfl⟩ := hg2 x2 (by simp)
  simp only [assertFirst, assert, asListValue, asDelimiter, asTotalValue, asIndex, asSingle, asTyp, asText, step]
  fin (listFetchElementNow_np _ _)

theorem fine_listAssignableToAssignables : Ends cfg (evListAssignableToAssignables r) (Fine .listAssignableToAssignables r) := by
  through h ih .totalListAssignable

theorem fine_totalListValue : Ends cfg (evTotalListValue r) (Fine .totalListValue r) := by
  unfold evTotalListValue
  may h ih .totalListAssignable <;> (may h ih .variableName) <;> fin (totalListValueNow_np _ _)

theorem fine_totalListAssignable : Ends cfg (evTotalListAssignable r) (Fine .totalListAssignable r) := by
  unfold evTotalListAssignable
  may h ih .listValue <;> (may h ih .slice) <;> (may h ih .listAppend) <;> fin (totalListAssignableNow_np _ _ _)

theorem fine_listAppend : Ends cfg (evListAppend r) (Fine .listAppend r) := by
  unfold evListAppend
  refine fine_call_tok h ih .listValue fun l1 hl1 hg1 => ?_
  refine fine_call_tok h ih .singleAssignable fun l2 hl2 hg2 => ?_
  obtain ⟨x1, l1, rfl⟩ := List.exists_cons_of_ne_nil hl1
  obtain ⟨x2, l2, rfl⟩ := List.exists_cons_of_ne_nil hl2
  obtain ⟨y1, rfl⟩ := hg1 x1 (by simp)
  obtain ⟨y2, rfl⟩ := hg2 x2 (by simp)
  simp only [assertFirst, assert, asListValue, asDelimiter, asTotalValue, asIndex, asSingle, asTyp, asText, step]
  fin (appendNow_np _ _)

theorem fine_listValue : Ends cfg (evListValue r) (Fine .listValue r) := by
  unfold evListValue
  may h ih .listAssignable <;> (may h ih .variableName) <;> fin (listValueNow_np _ _)

theorem fine_listAssignable : Ends cfg (evListAssignable r) (Fine .listAssignable r) := by
  unfold evListAssignable
  split
  · through h ih .assignables
  · fin (assignablesNow_np _)

theorem fine_sliceDelimiter : Ends cfg (evSliceDelimiter r) (Fine .sliceDelimiter r) := by
  unfold evSliceDelimiter
  refine fine_call_tok h ih .indexValue fun l hl hg => ?_
  obtain ⟨x, l, rfl⟩ := List.exists_cons_of_ne_nil hl
  obtain ⟨y, rfl⟩ := hg x (by simp)
  cases l with
  | nil =>
    simp only [assertFirst, assert, asIndex, step]
    fin (sliceDelimiterNow_np _ _)
  | cons x2 l =>
    obtain ⟨y2, rfl⟩ := hg x2 (by simp)
    simp only [assertFirst, assert, asIndex, step, Bind.bind, Out.bind, Pure.pure]
    fin (sliceDelimiterNow_np _ _)

theorem fine_indexValue : Ends cfg (evIndexValue cfg r) (Fine .indexValue r) := by
  unfold evIndexValue
  dsimp only
  split
  · refine fine_text h (not_kind (by decide)) fun s => ?_
    refine fine_step (parseUint_ne_panic _ _) fun n _ => fine_step (valueNow_np _) fun v _ => ?_
    may h ih .variableName <;> fin (indexValueNow_np _ _)
  · may h ih .variableName <;> fin (indexValueNow_np _ _)

theorem fine_operation : Ends cfg (evOperation r) (Fine .operation r) := by
  unfold evOperation
  split
  · through h ih .operationWithSuffix
  · split
    · must h ih .operationFuncCalls
      refine fine_step (opElementNow_np _ _ _ _ _) fun e _ => ?_
      fin (operationNow_np _ _)
    · through h ih .operation

theorem fine_operationFuncCalls : Ends cfg (evOperationFuncCalls r) (Fine .operationFuncCalls r) := by
  unfold evOperationFuncCalls
  may h ih .isNullFuncCall <;> fin (opCallNow_np _)

theorem fine_isNullFuncCall : Ends cfg (evIsNullFuncCall r) (Fine .isNullFuncCall r) := by
  through h ih .operation

theorem fine_operationWithSuffix : Ends cfg (evOperationWithSuffix r) (Fine .operationWithSuffix r) := by
  unfold evOperationWithSuffix
  may h ih .operationElement <;> (may h ih .operationSuffix) <;> fin (operationNow_np _ _)

theorem fine_operationSuffix : Ends cfg (evOperationSuffix r) (Fine .operationSuffix r) := by
  unfold evOperationSuffix
  may h ih .operator <;> (may h ih .operationElement) <;> fin (opSuffixNow_np _ _)

theorem fine_operationElement : Ends cfg (evOperationElement r) (Fine .operationElement r) := by
  unfold evOperationElement
  dsimp only
  have rest : ∀ b, Ends cfg (opt (lit "variableName") r asText fun n => opt (lit "computableValue") r asValue fun v => opt (lit "operation") r asOperation fun o =>
      ret (opElementNow b n v none o) .element) (Fine .operationElement r) := by
    intro b
    may h ih .variableName <;> (may h ih .computableValue) <;> (may h ih .operation) <;> fin (opElementNow_np _ _ _ _ _)
  split
  · must h ih .boolValue
    refine fine_step ?_ fun b _ => rest _
    unfold boolOf
    dsimp only
    split <;> simp
  · exact rest none

theorem fine_operator : Ends cfg (evOperator r) (Fine .operator r) := by
  unfold evOperator
  split
  · through h ih .operatorArithmetic
  · split
    · through h ih .operatorRelational
    · through h ih .operatorLogical

omit h ih in
theorem fine_operatorArithmetic : Ends cfg (evOperatorArithmetic r) (Fine .operatorArithmetic r) :=
  ends_done (.inr ⟨_, goodAt (by decide) ⟨_, rfl⟩, .inl rfl⟩)
omit h ih in
theorem fine_operatorRelational : Ends cfg (evOperatorRelational r) (Fine .operatorRelational r) :=
  ends_done (.inr ⟨_, goodAt (by decide) ⟨_, rfl⟩, .inl rfl⟩)
omit h ih in
theorem fine_operatorLogical : Ends cfg (evOperatorLogical r) (Fine .operatorLogical r) :=
  ends_done (.inr ⟨_, goodAt (by decide) ⟨_, rfl⟩, .inl rfl⟩)

theorem fine_intIncrement : Ends cfg (evIntIncrement r) (Fine .intIncrement r) := by
  unfold evIntIncrement
  must h ih .variableName
  must h ih .intIncrementValue
  fin (intIncrementNow_np _ _)

omit h ih in
theorem fine_intIncrementValue : Ends cfg (evIntIncrementValue r) (Fine .intIncrementValue r) := by
  unfold evIntIncrementValue
  fin (valueNow_np _)

theorem fine_declarableValue : Ends cfg (evDeclarableValue r) (Fine .declarableValue r) := by
  unfold evDeclarableValue
  split
  · through h ih .computableValue
  · through h ih .primitiveValue

theorem fine_computableValue : Ends cfg (evComputableValue r) (Fine .computableValue r) := by
  unfold evComputableValue
  split
  · through h ih .floatValue
  · through h ih .intValue

theorem fine_primitiveValue : Ends cfg (evPrimitiveValue r) (Fine .primitiveValue r) := by
  unfold evPrimitiveValue
  split
  · exact fine_pass h ih .boolValue (by decide +kernel) (fun _ ⟨_, hv⟩ => goodAt (by decide) ⟨_, hv⟩)
  · through h ih .stringValue

omit ih in
theorem fine_stringValue : Ends cfg (evStringValue r) (Fine .stringValue r) := by
  unfold evStringValue
  refine fine_text h (not_kind (by decide)) fun s => ?_
  fin (valueNow_np _)

omit h ih in
theorem fine_boolValue : Ends cfg (evBoolValue r) (Fine .boolValue r) := by
  unfold evBoolValue
  refine fine_ret (valueNow_np _) fun a ha => goodAt (by decide) ?_
  split at ha
  · cases ha; exact ⟨_, rfl⟩
  · split at ha
    · cases ha; exact ⟨_, rfl⟩
    · cases ha

omit ih in
theorem fine_intValue : Ends cfg (evIntValue cfg r) (Fine .intValue r) := by
  unfold evIntValue
  refine fine_text h (not_kind (by decide)) fun s => ?_
  split
  · exact fine_step (parseNeg_ne_panic _ _) fun n _ => by fin (valueNow_np _)
  · exact fine_step (parseUint_ne_panic _ _) fun n _ => by fin (valueNow_np _)

omit ih in
theorem fine_floatValue (hf : ∀ s n, cfg.parseFloat s n ≠ .panic) : Ends cfg (evFloatValue cfg r) (Fine .floatValue r) := by
  unfold evFloatValue
  refine fine_call fun x hx => ?_
  rcases trigger_texts h (not_kind (by decide)) hx with rfl | ⟨l, rfl, hl, ht⟩
  · exact .inl rfl
  refine .inr ⟨_, rfl, ?_⟩
  split
  · exact fine_step (hf _ _) fun n _ => by fin (valueNow_np _)
  · exact fine_done_err

theorem fine_variableDeclarations : Ends cfg (evVariableDeclarations r) (Fine .variableDeclarations r) := by
  unfold evVariableDeclarations
  refine fine_comma h ih .variableDeclaration .commaVariableDeclaration ?_ ?_ fun a l _ => ?_
  · rintro v ⟨x, rfl⟩; exact ⟨_, rfl⟩
  · rintro v ⟨x, rfl⟩; exact ⟨_, rfl⟩
  · fin (varDeclsNow_np _)

theorem fine_commaVariableDeclaration : Ends cfg (evCommaVariableDeclaration r) (Fine .commaVariableDeclaration r) := by
  through h ih .variableDeclaration

theorem fine_variableDeclaration : Ends cfg (evVariableDeclaration r) (Fine .variableDeclaration r) := by
  unfold evVariableDeclaration
  refine fine_call_tok h ih .declarativeType fun l1 hl1 hg1 => ?_
  refine fine_call_tok h ih .variableName fun l2 hl2 hg2 => ?_
  obtain ⟨x1, l1, rfl⟩ := List.exists_cons_of_ne_nil hl1
  obtain ⟨x2, l2, rfl⟩ := List.exists_cons_of_ne_nil hl2
  obtain ⟨y1, rfl⟩ := hg1 x1 (by simp)
  obtain ⟨y2, rfl, _⟩ := hg2 x2 (by simp)
  simp only [assertFirst, assert, asListValue, asDelimiter, asTotalValue, asIndex, asSingle, asTyp, asText, step]
  fin (varDeclNow_np _ _)

theorem fine_listType : Ends cfg (evListType r) (Fine .listType r) := by
  through h ih .declarativeType

theorem fine_type (k' : Kind) {f : List V → TypeState → Out TypeState} {s : TypeState} {p : TypeState → P} (hf : ∀ v l, f (v :: l) s ≠ .panic)
    (hk : ∀ s, Ends cfg (p s) (Fine ke r)) : Ends cfg (typePart k'.name r f s p) (Fine ke r) := by
  unfold typePart
  split
  · refine fine_call_tok h ih k' fun l hl hg => ?_
    obtain ⟨x, l, rfl⟩ := List.exists_cons_of_ne_nil hl
    exact fine_step (hf _ _) fun s _ => hk s
  · exact hk s

theorem fine_declarativeType : Ends cfg (evDeclarativeType r) (Fine .declarativeType r) := by
  unfold evDeclarativeType
  have hf : ∀ v l s, setFlag (v :: l) s ≠ .panic := by intro v l s; unfold setFlag; dsimp only; split <;> simp
  have hl : ∀ v l s, setList (v :: l) s ≠ .panic := by intro v l s; unfold setList; dsimp only; split <;> simp
  refine fine_type h ih .primitiveType (fun v l => hf v l _) fun s => ?_
  refine fine_type h ih .computableType (fun v l => hf v l _) fun s => ?_
  refine fine_type h ih .listType (fun v l => hl v l _) fun s => ?_
  fin (typeNow_np _ _)

omit h ih in
theorem fine_primitiveType : Ends cfg (evPrimitiveType r) (Fine .primitiveType r) :=
  ends_done (.inr ⟨_, goodAt (by decide) ⟨_, rfl⟩, .inl rfl⟩)
omit h ih in
theorem fine_computableType : Ends cfg (evComputableType r) (Fine .computableType r) :=
  ends_done (.inr ⟨_, goodAt (by decide) ⟨_, rfl⟩, .inl rfl⟩)

omit ih in
theorem fine_variableName : Ends cfg (evVariableName r) (Fine .variableName r) := by
  unfold evVariableName
  have np : ∀ name, r.fetch name ≠ .panic := by intro name; unfold Root.fetch; split <;> simp
  refine fine_step (np _) fun a ha => fine_step (np _) fun b hb => ?_
  refine ends_done (.inr ⟨_, goodAt (by decide) ⟨_, rfl, ?_⟩, .inl rfl⟩)
  have ham : a ∈ r.nodes := by
    unfold Root.fetch at ha
    cases hf : r.nodes.find? (fun n => n.name = lit "FIRST_LETTER") with
    | none => rw [hf] at ha; cases ha
    | some n => rw [hf] at ha; cases ha; exact List.mem_of_find?_eq_some hf
  obtain ⟨c, cs, hc⟩ := List.exists_cons_of_ne_nil (h.containers a ham).1
  have := ((h.containers a ham).2 c (by simp [hc])).2
  simp [Node.content, hc, this]

/-! ## The two events with conditions -/

theorem fine_listElementFetcher (ha : Reach .listElementFetcher k) : Ends cfg (evListElementFetcher r) (Fine .listElementFetcher r) := by
  refine fine_call fun x hx => ?_
  rcases trigger_fine (k' := .indexValue) h ih hx with rfl | ⟨n, l, r', k2, rfl, hl, hn, hm, hb, hre, hf⟩
  · exact .inl rfl
  refine .inr ⟨l, rfl, ends_done (.inr ?_)⟩
  have hk2 : k2 ≠ .sliceDelimiter := by
    have closed : ∀ k ∈ [Kind.listElementFetcher, .indexValue, .variableName], ∀ line ∈ grammar k, ∀ p ∈ line, ∀ k' ∈ allKinds, p.1 = .tok k' →
        k' ∈ [Kind.listElementFetcher, .indexValue, .variableName] := by decide +kernel
    have : ∀ k k', Reach k k' → k ∈ [Kind.listElementFetcher, .indexValue, .variableName] → k' ∈ [Kind.listElementFetcher, .indexValue, .variableName] := by
      intro k k' h
      induction h with
      | refl => exact id
      | tail h1 h2 _ ih => exact fun hk => ih (closed _ hk _ h1 _ h2 _ (mem_all _) rfl)
    have := this _ _ (ha.trans hre) (by decide)
    rintro rfl
    revert this
    decide
  have hlen : l.length ≤ 1 := hf.length_eq ▸ (hb.tokens n hm _ hn).2.2.1 hk2 rfl
  generalize n.containers = cs at hf
  cases hf with
  | nil => exact absurd rfl hl
  | cons h1 h2 =>
    cases h2 with
    | cons => simp at hlen
    | nil =>
      obtain ⟨u, _, _, _, h4⟩ := h1
      exact ⟨_, goodAt (by decide) h4.1, .inr rfl⟩

omit ih in
/-- Outside of the tokens with several names the names are not found. -/
theorem names_absent (hk : k ∈ noNames) (k' : Kind) (hno : k' ∉ noNames) (x : Out (List V))
    (hx : TriggerRun (baseEvents cfg) k'.name r x) : x = .err := by
  rcases trigger_any h hx with rfl | ⟨n, y, r', k2, hn, hm, hr, hb, hre, hc, hor⟩
  · rfl
  · obtain ⟨⟨line, hl, card, hp⟩, _⟩ := hb.tokens n hm k' hn
    exact absurd (noNames_closed _ (reach_noNames hre hk) _ hl _ hp _ (mem_all _) rfl) hno
end

/-- The tokens in an expression. -/
def exprKinds : List Kind := allKinds.filter fun k => noNames.contains k && k ≠ .assigneeName && k ≠ .assigneeNameFirst && k ≠ .assigneeNameFirsts &&
  k ≠ .commaAssigneeName && k ≠ .commaAssigneeFirst

theorem exprKinds_closed : ∀ k ∈ exprKinds, ∀ line ∈ grammar k, ∀ p ∈ line, ∀ k' ∈ allKinds, p.1 = .tok k' → k' ∈ exprKinds := by
  decide +kernel

theorem reach_exprKinds {k k' : Kind} (h : Reach k k') (hk : k ∈ exprKinds) : k' ∈ exprKinds := by
  induction h with
  | refl => exact hk
  | tail h1 h2 _ ih => exact ih (exprKinds_closed _ hk _ h1 _ h2 _ (mem_all _) rfl)

/-- In an expression there is no name of an assignee. -/
theorem expr_absent (h : BuiltAs k r) (hk : k ∈ exprKinds) (x : Out (List V)) (hx : TriggerRun (baseEvents cfg) (Kind.name .assigneeName) r x) : x = .err := by
  rcases trigger_any h hx with rfl | ⟨n, y, r', k2, hn, hm, hr, hb, hre, hc, hor⟩
  · rfl
  · obtain ⟨⟨line, hl, card, hp⟩, _⟩ := hb.tokens n hm _ hn
    exact absurd (exprKinds_closed _ (reach_exprKinds hre hk) _ hl _ hp _ (mem_all _) rfl) (by decide +kernel)

theorem expr_names (h : BuiltAs k r) (hk : k ∈ exprKinds) (o : Out V) (ho : ProgRun (baseEvents cfg) (evAssigneeNames r) o) : o = .err := by
  unfold evAssigneeNames commaList need call at ho
  cases ho with
  | triggerPanic hx => exact absurd (expr_absent h hk _ hx) (by simp)
  | trigger hx _ ho =>
    have := expr_absent h hk _ hx
    subst this
    cases ho
    rfl

end Verif.Base
