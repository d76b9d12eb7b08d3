import Verif.Spec.BaseClear
import Verif.Lemmas.BaseOwn
import Verif.Lemmas.Parsers

/-! # The readings of clear trees -/

namespace Verif.Base
open Verif.Patterns Verif.Lexer

variable {cfg : Cfg} {k : Kind} {r : Root} {line : List (Sym × Card)} {α : Type}

/-- A name of a line which is in no line below the other tokens of the line. -/
def ownName (name : Str) (line : List (Sym × Card)) : Bool := line.all fun p =>
  match p.1 with
  | .tok k1 => k1.name = name || (below k1).all fun k2 => (grammar k2).all fun line2 => line2.all fun p => p.1.name ≠ name
  | .rule _ => true

def confusableB (k : Kind) (name : Str) : Bool := confusable.any fun p => k.name = lit p.1 && p.2.any fun s => name = lit s

/-- The names for which the events call `Trigger`: tokens, whose names begin with a small letter, and three rules. -/
def askable (name : Str) : Bool :=
  (match name with | c :: _ => decide (97 ≤ c.toNat) | [] => false) || name = lit "KEYNAME_PATTERN" || name = lit "INT_PATTERN" || name = lit "EVERYTHING_EXCEPT_QUOTATION"

theorem askable_channel {name : Str} (h : askable name = true) : name ∉ channelNames := by
  intro hc
  simp only [channelNames, List.mem_cons, List.not_mem_nil, or_false] at hc
  rcases hc with rfl | rfl | rfl <;> revert h <;> decide

theorem confusable_or_own : ∀ k ∈ allKinds, ∀ line ∈ grammar k, ∀ p ∈ line,
    (!askable p.1.name || confusableB k p.1.name || ownName p.1.name line) = true := by
  decide +kernel

theorem ownName_found (_h : Line cfg k r line) {name : Str} (hch : name ∉ channelNames) (ho : ownName name line = true) (n : Node) (hn : n.name = name)
    (hat : FoundAt cfg r line name n) : n ∈ r.nodes := by
  rcases hat.2 with hat | ⟨k1, card, k2, u, line2, h1, h2, h3, h4, h5, h6⟩
  · exact hat
  · exfalso
    simp only [ownName, List.all_eq_true] at ho
    have := ho _ h1
    simp only [Bool.or_eq_true, decide_eq_true_eq, List.all_eq_true] at this
    rcases this with h | h
    · exact h2 h
    · obtain ⟨-, p, h8, h9, -⟩ := h4.node h6 (hn ▸ hch)
      exact h k2 (reach_below h3) line2 h4.mem p h8 (h9.symm.trans hn)

/-- The place of a part in a clear tree. -/
theorem clear_found (h : Line cfg k r line) (hc : Clear r) {name : Str} (ha : askable name = true) (he : r.exists name = true) (n : Node) (hn : n.name = name)
    (hat : FoundAt cfg r line name n) : n ∈ r.nodes := by
  obtain ⟨m, hm, hm2⟩ := (exists_iff r name).mp he
  obtain ⟨_, p, hp, hpn, _⟩ := h.node hm (hm2 ▸ askable_channel ha)
  have := confusable_or_own k (mem_all k) line h.mem p hp
  rw [← hpn, hm2] at this
  simp only [ha, Bool.not_true, Bool.false_or, Bool.or_eq_true] at this
  rcases this with hcon | hown
  · simp only [confusableB, List.any_eq_true, Bool.and_eq_true, decide_eq_true_eq] at hcon
    obtain ⟨q, hq, hk, s, hs, rfl⟩ := hcon
    cases hc with
    | mk h1 _ =>
      have h2 := h1 q hq (h.name.trans hk) s hs
      cases hat.1 with
      | @mem _ m' _ hm' hf =>
        by_cases hmn : m'.name = lit s
        · cases hf with
          | self => exact hm'
          | sub hne _ _ => exact absurd hmn hne
        · have h3 := TopNode.reach hf
          exact absurd hn (h2 m' hm' hmn _ h3.1)
  · exact ownName_found h (askable_channel ha) hown n hn hat

/-- The program asks for parts which are there. -/
inductive Asks (r : Root) : P → Prop where
  | done (o : Out V) : Asks r (.done o)
  | trigger {name : Str} {p : Out (List V) → P} : askable name = true → r.exists name = true → (∀ x, Asks r (p x)) → Asks r (.trigger name r p)

theorem asks_step {o : Out α} {p : α → P} (h : ∀ a, Asks r (p a)) : Asks r (step o p) := by
  cases o with
  | ok a => exact h a
  | err => exact .done _
  | panic => exact .done _

theorem asks_ret {o : Out α} {mk : α → BVal} : Asks r (ret o mk) := asks_step fun _ => .done _

theorem asks_call {name : Str} {p : List V → P} (ha : askable name = true) (he : r.exists name = true) (h : ∀ l, Asks r (p l)) : Asks r (call name r p) :=
  .trigger ha he fun _ => asks_step h

theorem asks_need {name : Str} {f : V → Option α} {p : α → P} (ha : askable name = true) (he : r.exists name = true) (h : ∀ a, Asks r (p a)) : Asks r (need name r f p) :=
  asks_call ha he fun _ => asks_step h

theorem asks_opt {name : Str} {f : V → Option α} {p : Option α → P} (ha : askable name = true) (h : ∀ a, Asks r (p a)) : Asks r (opt name r f p) := by
  rw [opt]
  split
  · rename_i he; exact asks_need ha he fun a => h _
  · exact h _

theorem asks_pass {name : Str} (ha : askable name = true) (he : r.exists name = true) : Asks r (pass name r) := asks_call ha he fun _ => .done _

theorem asks_comma {name comma : Str} {f : V → Option α} {p : List α → P} (ha : askable name = true) (hb : askable comma = true) (he : r.exists name = true) (h : ∀ a, Asks r (p a)) :
    Asks r (commaList name comma f r p) := by
  refine asks_need ha he fun a => ?_
  split
  · rename_i hc; exact asks_call hb hc fun l => asks_step fun l => h _
  · exact h _

theorem asks_type {name : Str} {f : List V → TypeState → Out TypeState} {s : TypeState} {p : TypeState → P} (ha : askable name = true) (h : ∀ a, Asks r (p a)) :
    Asks r (typePart name r f s p) := by
  rw [typePart]
  split
  · rename_i hc; exact asks_call ha hc fun l => asks_step h
  · exact h _

/-- A part of all the lines. -/
def always (k : Kind) (name : Str) : Bool := (grammar k).all fun line => hasPart line name

theorem always_exists (h : Conf cfg k r) {name : Str} (hb : always k name = true) : r.exists name = true := by
  obtain ⟨line, hl⟩ := h.line
  simp only [always, List.all_eq_true] at hb
  exact hl.present_exists (hb line hl.mem)

attribute [local irreducible] step ret call need opt pass commaList typePart askable always

macro "asks_there" h:ident : tactic => `(tactic| first | with_reducible assumption | exact always_exists $h (by decide +kernel))
macro "asks" h:ident : tactic => `(tactic| repeat' (first
  | exact asks_ret
  | exact Asks.done _
  | (refine asks_opt (by decide +kernel) fun _ => ?_)
  | (refine asks_type (by decide +kernel) fun _ => ?_)
  | (refine asks_pass (by decide +kernel) ?_; asks_there $h)
  | (refine asks_need (by decide +kernel) ?_ fun _ => ?_; · asks_there $h)
  | (refine asks_call (by decide +kernel) ?_ fun _ => ?_; · asks_there $h)
  | (refine asks_comma (by decide +kernel) (by decide +kernel) ?_ fun _ => ?_; · asks_there $h)
  | (refine asks_step fun _ => ?_)
  | split))

theorem asks_program (h : Conf cfg .program r) : Asks r (evProgram r) := by
  rw [evProgram]
  asks h

theorem asks_headerVariables (h : Conf cfg .headerVariables r) : Asks r (evHeaderVariables r) := by
  rw [evHeaderVariables]
  asks h

theorem asks_headerVariable (h : Conf cfg .headerVariable r) : Asks r (evHeaderVariable r) := by
  rw [evHeaderVariable]
  asks h

theorem asks_inputOutput (h : Conf cfg .inputOutput r) : Asks r (evInputOutput r) := by
  rw [evInputOutput]
  asks h

theorem asks_instructions (h : Conf cfg .instructions r) : Asks r (evInstructions r) := by
  rw [evInstructions]
  asks h

theorem asks_instruction (h : Conf cfg .instruction r) : Asks r (evInstruction r) := by
  rw [evInstruction]
  asks h

theorem asks_direction (h : Conf cfg .direction r) : Asks r (evDirection r) := by
  rw [evDirection]
  asks h

theorem asks_voidFuncCalls (h : Conf cfg .voidFuncCalls r) : Asks r (evVoidFuncCalls r) := by
  rw [evVoidFuncCalls]
  asks h

theorem asks_logFuncCall (h : Conf cfg .logFuncCall r) : Asks r (evLogFuncCall r) := by
  rw [evLogFuncCall]
  asks h

theorem asks_listAppend (h : Conf cfg .listAppend r) : Asks r (evListAppend r) := by
  rw [evListAppend]
  asks h

theorem asks_slice (h : Conf cfg .slice r) : Asks r (evSlice r) := by
  rw [evSlice]
  asks h

theorem asks_sliceDelimiter (h : Conf cfg .sliceDelimiter r) : Asks r (evSliceDelimiter r) := by
  rw [evSliceDelimiter]
  asks h

theorem asks_indexValue (h : Conf cfg .indexValue r) : Asks r (evIndexValue cfg r) := by
  rw [evIndexValue]
  asks h

theorem asks_forDeclaration (h : Conf cfg .forDeclaration r) : Asks r (evForDeclaration r) := by
  rw [evForDeclaration]
  asks h

theorem asks_forStatement (h : Conf cfg .forStatement r) : Asks r (evForStatement r) := by
  rw [evForStatement]
  asks h

theorem asks_ifDeclaration (h : Conf cfg .ifDeclaration r) : Asks r (evIfDeclaration r) := by
  rw [evIfDeclaration]
  asks h

theorem asks_ifOperation (h : Conf cfg .ifOperation r) : Asks r (evIfOperation r) := by
  rw [evIfOperation]
  asks h

theorem asks_operation (h : Conf cfg .operation r) : Asks r (evOperation r) := by
  rw [evOperation]
  obtain ⟨line, hl⟩ := h.line
  have hl' := hl
  ev_lines hl hm
  have hor : r.exists (lit "operationWithSuffix") = true ∨ r.exists (lit "operationFuncCalls") = true ∨ r.exists (lit "operation") = true := by
    rcases hm with rfl | rfl | rfl
    · exact .inl (by ev_yes hl')
    · exact .inr (.inl (by ev_yes hl'))
    · exact .inr (.inr (by ev_yes hl'))
  clear hl hl' hm line
  split
  · asks h
  · split
    · asks h
    · rcases hor with hor | hor | hor
      · with_reducible contradiction
      · with_reducible contradiction
      · asks h

theorem asks_operationWithSuffix (h : Conf cfg .operationWithSuffix r) : Asks r (evOperationWithSuffix r) := by
  rw [evOperationWithSuffix]
  asks h

theorem asks_operationSuffix (h : Conf cfg .operationSuffix r) : Asks r (evOperationSuffix r) := by
  rw [evOperationSuffix]
  asks h

theorem asks_operationElement (h : Conf cfg .operationElement r) : Asks r (evOperationElement r) := by
  rw [evOperationElement]
  asks h

theorem asks_operationFuncCalls (h : Conf cfg .operationFuncCalls r) : Asks r (evOperationFuncCalls r) := by
  rw [evOperationFuncCalls]
  asks h

theorem asks_isNullFuncCall (h : Conf cfg .isNullFuncCall r) : Asks r (evIsNullFuncCall r) := by
  rw [evIsNullFuncCall]
  asks h

theorem asks_operator (h : Conf cfg .operator r) : Asks r (evOperator r) := by
  rw [evOperator]
  obtain ⟨line, hl⟩ := h.line
  have hl' := hl
  ev_lines hl hm
  have hor : r.exists (lit "operatorArithmetic") = true ∨ r.exists (lit "operatorRelational") = true ∨ r.exists (lit "operatorLogical") = true := by
    rcases hm with rfl | rfl | rfl
    · exact .inl (by ev_yes hl')
    · exact .inr (.inl (by ev_yes hl'))
    · exact .inr (.inr (by ev_yes hl'))
  clear hl hl' hm line
  split
  · asks h
  · split
    · asks h
    · rcases hor with hor | hor | hor
      · with_reducible contradiction
      · with_reducible contradiction
      · asks h

theorem asks_operatorArithmetic (h : Conf cfg .operatorArithmetic r) : Asks r (evOperatorArithmetic r) := by
  rw [evOperatorArithmetic]
  asks h

theorem asks_operatorRelational (h : Conf cfg .operatorRelational r) : Asks r (evOperatorRelational r) := by
  rw [evOperatorRelational]
  asks h

theorem asks_operatorLogical (h : Conf cfg .operatorLogical r) : Asks r (evOperatorLogical r) := by
  rw [evOperatorLogical]
  asks h

theorem asks_assignment (h : Conf cfg .assignment r) : Asks r (evAssignment r) := by
  rw [evAssignment]
  asks h

theorem asks_assignee (h : Conf cfg .assignee r) : Asks r (evAssignee r) := by
  rw [evAssignee]
  asks h

theorem asks_assigneeNameFirsts (h : Conf cfg .assigneeNameFirsts r) : Asks r (evAssigneeNameFirsts r) := by
  rw [evAssigneeNameFirsts]
  asks h

theorem asks_commaAssigneeFirst (h : Conf cfg .commaAssigneeFirst r) : Asks r (evCommaAssigneeFirst r) := by
  rw [evCommaAssigneeFirst]
  asks h

theorem asks_assigneeNameFirst (h : Conf cfg .assigneeNameFirst r) : Asks r (evAssigneeNameFirst r) := by
  rw [evAssigneeNameFirst]
  asks h

theorem asks_assigneeNames (h : Conf cfg .assigneeNames r) : Asks r (evAssigneeNames r) := by
  rw [evAssigneeNames]
  asks h

theorem asks_commaAssigneeName (h : Conf cfg .commaAssigneeName r) : Asks r (evCommaAssigneeName r) := by
  rw [evCommaAssigneeName]
  asks h

theorem asks_assigneeName (h : Conf cfg .assigneeName r) : Asks r (evAssigneeName r) := by
  rw [evAssigneeName]
  asks h

theorem asks_assignables (h : Conf cfg .assignables r) : Asks r (evAssignables r) := by
  rw [evAssignables]
  asks h

theorem asks_commaAssignable (h : Conf cfg .commaAssignable r) : Asks r (evCommaAssignable r) := by
  rw [evCommaAssignable]
  asks h

theorem asks_assignable (h : Conf cfg .assignable r) : Asks r (evAssignable r) := by
  rw [evAssignable]
  asks h

theorem asks_singleAssignable (h : Conf cfg .singleAssignable r) : Asks r (evSingleAssignable r) := by
  rw [evSingleAssignable]
  asks h

theorem asks_listFetchElement (h : Conf cfg .listFetchElement r) : Asks r (evListFetchElement r) := by
  rw [evListFetchElement]
  asks h

theorem asks_listElementFetcher (h : Conf cfg .listElementFetcher r) : Asks r (evListElementFetcher r) := by
  rw [evListElementFetcher]
  asks h

theorem asks_listAssignableToAssignables (h : Conf cfg .listAssignableToAssignables r) : Asks r (evListAssignableToAssignables r) := by
  rw [evListAssignableToAssignables]
  asks h

theorem asks_totalListValue (h : Conf cfg .totalListValue r) : Asks r (evTotalListValue r) := by
  rw [evTotalListValue]
  asks h

theorem asks_totalListAssignable (h : Conf cfg .totalListAssignable r) : Asks r (evTotalListAssignable r) := by
  rw [evTotalListAssignable]
  asks h

theorem asks_listValue (h : Conf cfg .listValue r) : Asks r (evListValue r) := by
  rw [evListValue]
  asks h

theorem asks_listAssignable (h : Conf cfg .listAssignable r) : Asks r (evListAssignable r) := by
  rw [evListAssignable]
  asks h

theorem asks_intIncrement (h : Conf cfg .intIncrement r) : Asks r (evIntIncrement r) := by
  rw [evIntIncrement]
  asks h

theorem asks_intIncrementValue (h : Conf cfg .intIncrementValue r) : Asks r (evIntIncrementValue r) := by
  rw [evIntIncrementValue]
  asks h

theorem asks_declarableValue (h : Conf cfg .declarableValue r) : Asks r (evDeclarableValue r) := by
  rw [evDeclarableValue]
  obtain ⟨line, hl⟩ := h.line
  have hl' := hl
  ev_lines hl hm
  have hor : r.exists (lit "computableValue") = true ∨ r.exists (lit "primitiveValue") = true := by
    rcases hm with rfl | rfl
    · exact .inl (by ev_yes hl')
    · exact .inr (by ev_yes hl')
  clear hl hl' hm line
  split
  · asks h
  · rcases hor with hor | hor
    · with_reducible contradiction
    · asks h

theorem asks_computableValue (h : Conf cfg .computableValue r) : Asks r (evComputableValue r) := by
  rw [evComputableValue]
  obtain ⟨line, hl⟩ := h.line
  have hl' := hl
  ev_lines hl hm
  have hor : r.exists (lit "floatValue") = true ∨ r.exists (lit "intValue") = true := by
    rcases hm with rfl | rfl
    · exact .inl (by ev_yes hl')
    · exact .inr (by ev_yes hl')
  clear hl hl' hm line
  split
  · asks h
  · rcases hor with hor | hor
    · with_reducible contradiction
    · asks h

theorem asks_primitiveValue (h : Conf cfg .primitiveValue r) : Asks r (evPrimitiveValue r) := by
  rw [evPrimitiveValue]
  obtain ⟨line, hl⟩ := h.line
  have hl' := hl
  ev_lines hl hm
  have hor : r.exists (lit "boolValue") = true ∨ r.exists (lit "stringValue") = true := by
    rcases hm with rfl | rfl
    · exact .inl (by ev_yes hl')
    · exact .inr (by ev_yes hl')
  clear hl hl' hm line
  split
  · asks h
  · rcases hor with hor | hor
    · with_reducible contradiction
    · asks h

theorem asks_stringValue (h : Conf cfg .stringValue r) : Asks r (evStringValue r) := by
  rw [evStringValue]
  asks h

theorem asks_boolValue (h : Conf cfg .boolValue r) : Asks r (evBoolValue r) := by
  rw [evBoolValue]
  asks h

theorem asks_intValue (h : Conf cfg .intValue r) : Asks r (evIntValue cfg r) := by
  rw [evIntValue]
  asks h

theorem asks_floatValue (h : Conf cfg .floatValue r) : Asks r (evFloatValue cfg r) := by
  rw [evFloatValue]
  asks h

theorem asks_variableDeclarations (h : Conf cfg .variableDeclarations r) : Asks r (evVariableDeclarations r) := by
  rw [evVariableDeclarations]
  asks h

theorem asks_commaVariableDeclaration (h : Conf cfg .commaVariableDeclaration r) : Asks r (evCommaVariableDeclaration r) := by
  rw [evCommaVariableDeclaration]
  asks h

theorem asks_variableDeclaration (h : Conf cfg .variableDeclaration r) : Asks r (evVariableDeclaration r) := by
  rw [evVariableDeclaration]
  asks h

theorem asks_declarativeType (h : Conf cfg .declarativeType r) : Asks r (evDeclarativeType r) := by
  rw [evDeclarativeType]
  asks h

theorem asks_listType (h : Conf cfg .listType r) : Asks r (evListType r) := by
  rw [evListType]
  asks h

theorem asks_primitiveType (h : Conf cfg .primitiveType r) : Asks r (evPrimitiveType r) := by
  rw [evPrimitiveType]
  asks h

theorem asks_computableType (h : Conf cfg .computableType r) : Asks r (evComputableType r) := by
  rw [evComputableType]
  asks h

theorem asks_variableName (h : Conf cfg .variableName r) : Asks r (evVariableName r) := by
  rw [evVariableName]
  asks h

theorem asks_evOf (h : Conf cfg k r) : Asks r (evOf cfg k r) := by
  cases k
  · exact asks_program h
  · exact asks_headerVariables h
  · exact asks_headerVariable h
  · exact asks_inputOutput h
  · exact asks_instructions h
  · exact asks_instruction h
  · exact asks_direction h
  · exact asks_voidFuncCalls h
  · exact asks_logFuncCall h
  · exact asks_listAppend h
  · exact asks_slice h
  · exact asks_sliceDelimiter h
  · exact asks_indexValue h
  · exact asks_forDeclaration h
  · exact asks_forStatement h
  · exact asks_ifDeclaration h
  · exact asks_ifOperation h
  · exact asks_operation h
  · exact asks_operationWithSuffix h
  · exact asks_operationSuffix h
  · exact asks_operationElement h
  · exact asks_operationFuncCalls h
  · exact asks_isNullFuncCall h
  · exact asks_operator h
  · exact asks_operatorArithmetic h
  · exact asks_operatorRelational h
  · exact asks_operatorLogical h
  · exact asks_assignment h
  · exact asks_assignee h
  · exact asks_assigneeNameFirsts h
  · exact asks_commaAssigneeFirst h
  · exact asks_assigneeNameFirst h
  · exact asks_assigneeNames h
  · exact asks_commaAssigneeName h
  · exact asks_assigneeName h
  · exact asks_assignables h
  · exact asks_commaAssignable h
  · exact asks_assignable h
  · exact asks_singleAssignable h
  · exact asks_listFetchElement h
  · exact asks_listElementFetcher h
  · exact asks_listAssignableToAssignables h
  · exact asks_totalListValue h
  · exact asks_totalListAssignable h
  · exact asks_listValue h
  · exact asks_listAssignable h
  · exact asks_intIncrement h
  · exact asks_intIncrementValue h
  · exact asks_declarableValue h
  · exact asks_computableValue h
  · exact asks_primitiveValue h
  · exact asks_stringValue h
  · exact asks_boolValue h
  · exact asks_intValue h
  · exact asks_floatValue h
  · exact asks_variableDeclarations h
  · exact asks_commaVariableDeclaration h
  · exact asks_variableDeclaration h
  · exact asks_declarativeType h
  · exact asks_listType h
  · exact asks_primitiveType h
  · exact asks_computableType h
  · exact asks_variableName h

theorem events_det {k : Kind} {u : Root}
    (hdet : ∀ {o o'}, ProgRun (baseEvents cfg) (evOf cfg k u) o → ProgRun (baseEvents cfg) (evOf cfg k u) o' → o = o')
    {x y : Out (Option (List V) × V)} (hx : EventsRun (baseEvents cfg) k.name u x) (hy : EventsRun (baseEvents cfg) k.name u y) : x = y := by
  cases hx with
  | none hg => rw [get_evOf] at hg; simp at hg
  | some hg hx =>
    cases hy with
    | none hg => rw [get_evOf] at hg; simp at hg
    | some hg' hy =>
      rw [get_evOf] at hg hg'
      simp only [Option.some.injEq] at hg hg'
      subst hg
      subst hg'
      cases hx with
      | fail h1 h2 =>
        cases h2
        cases hy with
        | fail _ h4 => cases h4; rfl
        | panic h3 => exact absurd (hdet h1 h3) (by simp)
        | ok h3 => exact absurd (hdet h1 h3) (by simp)
      | panic h1 =>
        cases hy with
        | fail h3 _ => exact absurd (hdet h1 h3) (by simp)
        | panic h3 => rfl
        | ok h3 => exact absurd (hdet h1 h3) (by simp)
      | ok h1 =>
        cases hy with
        | fail h3 _ => exact absurd (hdet h1 h3) (by simp)
        | panic h3 => exact absurd (hdet h1 h3) (by simp)
        | ok h3 =>
          have := hdet h1 h3
          simp only [Out.ok.injEq] at this
          rw [this]

theorem containers_det {name : Str} {cs : List RContainer}
    (hone : ∀ c ∈ cs, ∀ {z z'}, ContainerRun (baseEvents cfg) name c z → ContainerRun (baseEvents cfg) name c z' → z = z')
    {x y : Out (List V)} (hx : ContainersRun (baseEvents cfg) name cs x) (hy : ContainersRun (baseEvents cfg) name cs y) : x = y := by
  induction cs generalizing x y with
  | nil => cases hx; cases hy; rfl
  | cons c cs ih =>
    have h1 := @hone c (by simp)
    have h2 := @ih fun d hd => hone d (List.mem_cons_of_mem _ hd)
    cases hx with
    | err a =>
      cases hy with
      | err c => rfl
      | panic c => exact absurd (h1 a c) (by simp)
      | cons c d => exact absurd (h1 a c) (by simp)
      | consErr c d => rfl
      | consPanic c d => exact absurd (h1 a c) (by simp)
    | panic a =>
      cases hy with
      | err c => exact absurd (h1 a c) (by simp)
      | panic c => rfl
      | cons c d => exact absurd (h1 a c) (by simp)
      | consErr c d => exact absurd (h1 a c) (by simp)
      | consPanic c d => rfl
    | cons a b =>
      cases hy with
      | err c => exact absurd (h1 a c) (by simp)
      | panic c => exact absurd (h1 a c) (by simp)
      | cons c d => 
        have e1 := h1 a c
        have e2 := h2 b d
        simp only [Out.ok.injEq] at e1 e2
        rw [e1, e2]
      | consErr c d => exact absurd (h2 b d) (by simp)
      | consPanic c d => exact absurd (h2 b d) (by simp)
    | consErr a b =>
      cases hy with
      | err c => rfl
      | panic c => exact absurd (h1 a c) (by simp)
      | cons c d => exact absurd (h2 b d) (by simp)
      | consErr c d => rfl
      | consPanic c d => exact absurd (h2 b d) (by simp)
    | consPanic a b =>
      cases hy with
      | err c => exact absurd (h1 a c) (by simp)
      | panic c => rfl
      | cons c d => exact absurd (h2 b d) (by simp)
      | consErr c d => exact absurd (h2 b d) (by simp)
      | consPanic c d => rfl

theorem node_unique (h : Line cfg k r line) {m n : Node} (hm : m ∈ r.nodes) (hn : n ∈ r.nodes) (he : m.name = n.name) : m = n :=
  List.inj_on_of_nodup_map h.nodup hm hn he

/-- The outcome of every event is the same in all the executions, for clear trees. -/
theorem prog_det (r : Root) : ∀ {k : Kind}, Conf cfg k r → Clear r → ∀ {p : P}, Asks r p → ∀ {o o' : Out V},
    ProgRun (baseEvents cfg) p o → ProgRun (baseEvents cfg) p o' → o = o' := by
  induction hs : sizeOf r using Nat.strongRecOn generalizing r with
  | _ s ih =>
    subst hs
    intro k hconf hclear p ha
    obtain ⟨line, hl⟩ := hconf.line
    have hcontainers : ∀ name, ∀ n ∈ r.nodes, n.name = name → ∀ {y y'}, ContainersRun (baseEvents cfg) name n.containers y →
        ContainersRun (baseEvents cfg) name n.containers y' → y = y' := by
      intro name n hn hname
      refine containers_det ?_
      intro c hc z z' h1 h2
      cases h1 with
      | content h =>
        cases h2 with
        | content => rfl
        | root h' _ => rw [h] at h'; simp at h'
      | @root _ _ u _ h h1 =>
        cases h2 with
        | content h' => rw [h] at h'; simp at h'
        | root h' h2 =>
          rw [h] at h'
          simp only [Option.some.injEq] at h'
          subst h'
          obtain ⟨_, ⟨s, card⟩, hp, hpn, _⟩ := hl.treeNode hn hc h
          cases s with
          | rule s => exact absurd (hl.rules s card hp n hn hpn c hc) (by simp [h])
          | tok k' =>
            have huc := hl.conf k' card hp n hn hpn c hc u h
            have hcl : Clear u := by cases hclear with | mk _ h2 => exact h2 n hn c hc u h
            have hdet : ∀ {o o'}, ProgRun (baseEvents cfg) (evOf cfg k' u) o → ProgRun (baseEvents cfg) (evOf cfg k' u) o' → o = o' :=
              fun h1 h2 => ih _ (sizeOf_inside (inside_node hn hc h)) u rfl huc hcl (asks_evOf huc) h1 h2
            have hk : name = k'.name := hname.symm.trans hpn
            subst hk
            exact events_det hdet h1 h2
    have htrigger : ∀ name, askable name = true → r.exists name = true → ∀ {x y}, TriggerRun (baseEvents cfg) name r x →
        TriggerRun (baseEvents cfg) name r y → x = y := by
      intro name hask he x y hx hy
      obtain ⟨n, a, hn, hat, hc, hor⟩ := trigger_cases hl he hx
      obtain ⟨m, b, hm, hbt, hd, hpr⟩ := trigger_cases hl he hy
      have hn2 := clear_found hl hclear hask he n hn hat
      have hm2 := clear_found hl hclear hask he m hm hbt
      obtain rfl := node_unique hl hm2 hn2 (hm.trans hn.symm)
      obtain rfl := hcontainers name m hm2 hm hc hd
      rcases hor with ⟨rfl, rfl⟩ | ⟨rfl, rfl⟩ | ⟨l, rfl, rfl⟩ <;> rcases hpr with ⟨h, rfl⟩ | ⟨h, rfl⟩ | ⟨l', h, rfl⟩ <;> first | rfl | (simp at h; done) |
        (simp only [Out.ok.injEq] at h; subst h; rfl)
    induction ha with
    | done o0 => intro o o' h1 h2; cases h1; cases h2; rfl
    | @trigger name p hask he _ ihp =>
      intro o o' h1 h2
      cases h1 with
      | trigger hx hnp h1 =>
        cases h2 with
        | trigger hy _ h2 =>
          have := htrigger name hask he hx hy
          subst this
          exact ihp _ h1 h2
        | triggerPanic hy => exact absurd (htrigger name hask he hx hy) hnp
      | triggerPanic hx =>
        cases h2 with
        | trigger hy hnp _ => exact absurd (htrigger name hask he hx hy).symm hnp
        | triggerPanic => rfl

end Verif.Base
