import Verif.Lemmas.BaseWritten

/-! # The written object is a reading: every line of the grammar -/

namespace Verif.Base
open Verif.Patterns Verif.Lexer

variable {cfg : Cfg} {k : Kind} {r : Root} {α : Type}

theorem assertAll_map {f : V → Option α} {mk : α → V} (hf : ∀ a, f (mk a) = some a) (l : List α) : assertAll f (l.map mk) = .ok l :=
  assertAll_of (by induction l with | nil => exact .nil | cons a l ih => exact .cons (hf a) ih)

theorem manyNow_ok {l : List α} (h : l ≠ []) : manyNow (some l) = .ok l := by
  cases l with
  | nil => exact absurd rfl h
  | cons a l => rfl

theorem many_ne {W : Kind → Root → V → Prop} (h : Conf cfg k r) {k' : Kind} {mk : α → V} {l : List α} (hw : HasAll W r k' (l.map mk)) : l ≠ [] := by
  rintro rfl
  cases hw with
  | mk h1 h2 =>
    cases h2
    obtain ⟨n, hn, _, h3⟩ := h1
    obtain ⟨line, hl⟩ := h.line
    exact (hl.nodes n hn).1 (by simpa using h3)

theorem has_good (h : Conf cfg k r) (ih : ReadInside cfg r) {k' : Kind} {v : V} (hw : Has (Written cfg) r k' v) : Good k' v := by
  cases hw with
  | mk h1 h2 =>
    have hc := part_conf h h1
    exact ((exec_iff hc v).mp (ih _ _ _ (inside_child h1) hc h2)).2

theorem good_no_result {k : Kind} {v : V} (h : Good k v) : ∀ l, v ≠ .result l := by
  rintro l rfl
  cases k <;> simp [Good] at h

theorem has_plain (h : Conf cfg k r) (ih : ReadInside cfg r) {k' : Kind} {v : V} (hw : Has (Written cfg) r k' v) : ∀ l, v ≠ .result l :=
  good_no_result (has_good h ih hw)

theorem name_ne (h : Conf cfg k r) (ih : ReadInside cfg r) {s : Str} (hw : Has (Written cfg) r .variableName (.text s)) : s ≠ [] := by
  obtain ⟨t, h1, h2⟩ := has_good h ih hw
  simp only [Val.text.injEq] at h1
  exact h1 ▸ h2

theorem texts_ne (h : Conf cfg k r) {name s : Str} (ht : Texts r name [s]) : s ≠ [] := by
  obtain ⟨n, hn, _, h2⟩ := ht
  obtain ⟨line, hl⟩ := h.line
  obtain ⟨c, hc, rfl⟩ := List.mem_map.mp (show s ∈ n.containers.map RContainer.content by rw [h2]; simp)
  exact (hl.containers n hn c hc).2

theorem literal_index (h : Conf cfg .indexValue r) {s : Str} (ht : Texts r (lit "INT_PATTERN") [s]) : ∃ z, parseUint s cfg.bitSize = .ok z := by
  obtain ⟨n, hn, h1, h2⟩ := ht
  obtain ⟨line, hl⟩ := h.line
  obtain ⟨c, hc, rfl⟩ := List.mem_map.mp (show s ∈ n.containers.map RContainer.content by rw [h2]; simp)
  exact hl.literals n hn h1 c hc

theorem literal_int (h : Conf cfg .intValue r) {s : Str} (ht : Texts r (lit "INT_PATTERN") [s]) (he : r.exists (lit "MINUS") = false) :
    ∃ z, parseUint s cfg.bitSize = .ok z := by
  obtain ⟨n, hn, h1, h2⟩ := ht
  obtain ⟨line, hl⟩ := h.line
  obtain ⟨c, hc, rfl⟩ := List.mem_map.mp (show s ∈ n.containers.map RContainer.content by rw [h2]; simp)
  have := hl.literals n hn h1 c hc
  rwa [he] at this

theorem literal_neg (h : Conf cfg .intValue r) {s : Str} (ht : Texts r (lit "INT_PATTERN") [s]) (he : r.exists (lit "MINUS") = true) :
    ∃ z, parseNeg s cfg.bitSize = .ok z := by
  obtain ⟨n, hn, h1, h2⟩ := ht
  obtain ⟨line, hl⟩ := h.line
  obtain ⟨c, hc, rfl⟩ := List.mem_map.mp (show s ∈ n.containers.map RContainer.content by rw [h2]; simp)
  have := hl.literals n hn h1 c hc
  rwa [he] at this

theorem written_neg {s : Str} {b n : Nat} (h : DecimalText s n) (hz : ∃ z, parseNeg s b = .ok z) : parseNeg s b = .ok (-(n : Int)) := by
  obtain ⟨z, hz⟩ := hz
  obtain ⟨m, rfl, hm, _⟩ := (C72_negative s b z).mp hz
  rw [hz, decimal_eq h hm]

theorem node_content {n : Node} {s : Str} (h : n.containers.map RContainer.content = [s]) : n.content = s := by
  simp only [Node.content]
  generalize n.containers = cs at h ⊢
  match cs, h with
  | [c], h => simpa using h

theorem type_may {k' : Kind} {v : V} (h : MayRead cfg k' r v) (he : r.exists k'.name = true) {f : List V → TypeState → Out TypeState}
    {s t : TypeState} (hf : f [v] s = .ok t) {p : TypeState → P} {o : Out V} (hp : ProgRun (baseEvents cfg) (p t) o) :
    ProgRun (baseEvents cfg) (typePart k'.name r f s p) o := by
  rw [typePart, if_pos he]
  exact call_may h (step_ok hf hp)

theorem type_none {name : Str} (he : r.exists name = false) {f : List V → TypeState → Out TypeState}
    {s : TypeState} {p : TypeState → P} {o : Out V} (hp : ProgRun (baseEvents cfg) (p s) o) : ProgRun (baseEvents cfg) (typePart name r f s p) o := by
  rwa [typePart, if_neg (by simp [he])]

theorem arithmetic_flag (h : Conf cfg .operatorArithmetic r) {op : Operator} (ho : op.written.1 = "operatorArithmetic") (hr : OperatorRules r op) :
    (Out.ok (.other (.flag16 op.number)) : Out V) = .ok (.other (.flag16 (opArithmetic ||| flagIf r (lit "PLUS") opPlus ||| flagIf r (lit "MINUS") opMinus |||
    flagIf r (lit "STAR") opMultiply ||| flagIf r (lit "DIV") opDivide))) := by
  cases op <;> simp [Operator.written] at ho <;> simp only [OperatorRules, Operator.written, List.mem_cons, List.not_mem_nil, or_false, forall_eq, false_imp_iff, imp_true_iff, and_true] at hr
  · have h1 := excludes_absent h hr (b := lit "MINUS") (by decide +kernel)
    have h2 := excludes_absent h hr (b := lit "STAR") (by decide +kernel)
    have h3 := excludes_absent h hr (b := lit "DIV") (by decide +kernel)
    simp only [flagIf, hr, h1, h2, h3]; rfl
  · have h1 := excludes_absent h hr (b := lit "PLUS") (by decide +kernel)
    have h2 := excludes_absent h hr (b := lit "STAR") (by decide +kernel)
    have h3 := excludes_absent h hr (b := lit "DIV") (by decide +kernel)
    simp only [flagIf, hr, h1, h2, h3]; rfl
  · have h1 := excludes_absent h hr (b := lit "PLUS") (by decide +kernel)
    have h2 := excludes_absent h hr (b := lit "MINUS") (by decide +kernel)
    have h3 := excludes_absent h hr (b := lit "DIV") (by decide +kernel)
    simp only [flagIf, hr, h1, h2, h3]; rfl
  · have h1 := excludes_absent h hr (b := lit "PLUS") (by decide +kernel)
    have h2 := excludes_absent h hr (b := lit "MINUS") (by decide +kernel)
    have h3 := excludes_absent h hr (b := lit "STAR") (by decide +kernel)
    simp only [flagIf, hr, h1, h2, h3]; rfl

theorem relational_flag (h : Conf cfg .operatorRelational r) {op : Operator} (ho : op.written.1 = "operatorRelational") (hr : OperatorRules r op) :
    (Out.ok (.other (.flag16 op.number)) : Out V) = .ok (.other (.flag16 (opRelational ||| flagIf r (lit "EQUAL") opEqual ||| flagIf r (lit "EXCLAMATION") opNot |||
    flagIf r (lit "LESS") opLess ||| flagIf r (lit "MORE") opGreater))) := by
  cases op <;> simp [Operator.written] at ho <;> simp only [OperatorRules, Operator.written, List.mem_cons, List.not_mem_nil, or_false, forall_eq, forall_eq_or_imp, false_imp_iff, imp_true_iff, and_true] at hr
  · have h1 := excludes_absent h hr.1 (b := lit "MORE") (by decide +kernel)
    have h2 := excludes_absent h hr.1 (b := lit "EXCLAMATION") (by decide +kernel)
    simp only [flagIf, hr.1, hr.2, h1, h2]; rfl
  · have h1 := excludes_absent h hr.1 (b := lit "MORE") (by decide +kernel)
    have h2 := excludes_absent h hr.1 (b := lit "EXCLAMATION") (by decide +kernel)
    simp only [flagIf, hr.1, hr.2, h1, h2]; rfl
  · have h1 := excludes_absent h hr.1 (b := lit "LESS") (by decide +kernel)
    have h2 := excludes_absent h hr.1 (b := lit "EXCLAMATION") (by decide +kernel)
    simp only [flagIf, hr.1, hr.2, h1, h2]; rfl
  · have h1 := excludes_absent h hr.1 (b := lit "LESS") (by decide +kernel)
    have h2 := excludes_absent h hr.1 (b := lit "EXCLAMATION") (by decide +kernel)
    simp only [flagIf, hr.1, hr.2, h1, h2]; rfl
  · simp only [flagIf, hr.1, hr.2.1, hr.2.2.1, hr.2.2.2]; rfl
  · have h1 := excludes_absent h hr.1 (b := lit "LESS") (by decide +kernel)
    have h2 := excludes_absent h hr.1 (b := lit "MORE") (by decide +kernel)
    simp only [flagIf, hr.1, hr.2, h1, h2]; rfl

theorem logical_flag (h : Conf cfg .operatorLogical r) {op : Operator} (ho : op.written.1 = "operatorLogical") (hr : OperatorRules r op) :
    (Out.ok (.other (.flag16 op.number)) : Out V) = .ok (.other (.flag16 (opLogical ||| flagIf r (lit "AND") opAnd ||| flagIf r (lit "PIPE") opOr))) := by
  cases op <;> simp [Operator.written] at ho <;> simp only [OperatorRules, Operator.written, List.mem_cons, List.not_mem_nil, or_false, forall_eq, false_imp_iff, imp_true_iff, and_true] at hr
  · have h1 := excludes_absent h hr (b := lit "PIPE") (by decide +kernel)
    simp only [flagIf, hr, h1]; rfl
  · have h1 := excludes_absent h hr (b := lit "AND") (by decide +kernel)
    simp only [flagIf, hr, h1]; rfl

/-- What is written in a tree is a reading of it. -/
theorem written_step (ih : ReadInside cfg r) (h : Conf cfg k r) {v : V} (hw : Written cfg k r v) : ExecuteRun (baseEvents cfg) r (.ok [v]) := by
  cases hw with
  | program hh hi =>
    refine exec_of h ?_ (by simp)
    show ProgRun _ (evProgram r) _
    unfold evProgram
    refine need_may (k' := .instructions) (hi.may h ih) (by rfl) ?_
    refine opt_opt (k' := .headerVariables) h ih (mk := fun l => .other (.headers l)) (fun _ => by rfl) hh ?_
    rename_i l x; exact ret_ok (a := (⟨l, x⟩ : Program)) (by cases x <;> rfl)
  | headers hw =>
    refine exec_of h ?_ (by simp)
    show ProgRun _ (evHeaderVariables r) _
    unfold evHeaderVariables
    have hne := many_ne h hw
    refine call_all (k' := .headerVariable) h ih hw (by simpa using hne) ?_
    refine step_ok (assertAll_map (fun _ => by rfl) _) ?_
    exact ret_ok (manyNow_ok hne)
  | header hi hd ht =>
    refine exec_of h ?_ (by simp)
    show ProgRun _ (evHeaderVariable r) _
    unfold evHeaderVariable
    refine call_may (k' := .inputOutput) (hi.may h ih) ?_
    refine call_may (k' := .variableDeclaration) (hd.may h ih) ?_
    refine call_text h ht (rule_not_kind ⟨_, _, rfl, by decide⟩) ?_
    refine step_ok (by rfl) ?_
    refine step_ok (by rfl) ?_
    refine step_ok (by rfl) ?_
    exact ret_ok (by simp [headerVariableNow, texts_ne h ht])
  | input he =>
    refine exec_of h ?_ (by simp)
    show ProgRun _ (evInputOutput r) _
    unfold evInputOutput
    rw [← he]
    exact (run_done _ _).mpr rfl
  | output he =>
    refine exec_of h ?_ (by simp)
    show ProgRun _ (evInputOutput r) _
    unfold evInputOutput
    rw [← excludes_absent h he (b := lit "RIGHT_ARROW") (by decide +kernel)]
    exact (run_done _ _).mpr rfl
  | instructions hw =>
    refine exec_of h ?_ (by simp)
    show ProgRun _ (evInstructions r) _
    unfold evInstructions
    have hne := many_ne h hw
    refine call_all (k' := .instruction) h ih hw (by simpa using hne) ?_
    refine step_ok (assertAll_map (fun _ => by rfl) _) ?_
    exact ret_ok (manyNow_ok hne)
  | instrAssignment hw =>
    refine exec_of h ?_ (by simp)
    show ProgRun _ (evInstruction r) _
    unfold evInstruction
    refine opt_may (k' := .assignment) hw.exists (hw.may h ih) (by rfl) ?_
    refine opt_none (excludes_absent h hw.exists (by decide +kernel)) ?_
    refine opt_none (excludes_absent h hw.exists (by decide +kernel)) ?_
    refine opt_none (excludes_absent h hw.exists (by decide +kernel)) ?_
    refine opt_none (excludes_absent h hw.exists (by decide +kernel)) ?_
    refine opt_none (excludes_absent h hw.exists (by decide +kernel)) ?_
    refine opt_none (excludes_absent h hw.exists (by decide +kernel)) ?_
    exact ret_ok (by rfl)
  | instrDeclaration hw =>
    refine exec_of h ?_ (by simp)
    show ProgRun _ (evInstruction r) _
    unfold evInstruction
    refine opt_none (excludes_absent h hw.exists (by decide +kernel)) ?_
    refine opt_may (k' := .variableDeclaration) hw.exists (hw.may h ih) (by rfl) ?_
    refine opt_none (excludes_absent h hw.exists (by decide +kernel)) ?_
    refine opt_none (excludes_absent h hw.exists (by decide +kernel)) ?_
    refine opt_none (excludes_absent h hw.exists (by decide +kernel)) ?_
    refine opt_none (excludes_absent h hw.exists (by decide +kernel)) ?_
    refine opt_none (excludes_absent h hw.exists (by decide +kernel)) ?_
    exact ret_ok (by rfl)
  | instrIf hw =>
    refine exec_of h ?_ (by simp)
    show ProgRun _ (evInstruction r) _
    unfold evInstruction
    refine opt_none (excludes_absent h hw.exists (by decide +kernel)) ?_
    refine opt_none (excludes_absent h hw.exists (by decide +kernel)) ?_
    refine opt_may (k' := .ifDeclaration) hw.exists (hw.may h ih) (by rfl) ?_
    refine opt_none (excludes_absent h hw.exists (by decide +kernel)) ?_
    refine opt_none (excludes_absent h hw.exists (by decide +kernel)) ?_
    refine opt_none (excludes_absent h hw.exists (by decide +kernel)) ?_
    refine opt_none (excludes_absent h hw.exists (by decide +kernel)) ?_
    exact ret_ok (by rfl)
  | instrFor hw =>
    refine exec_of h ?_ (by simp)
    show ProgRun _ (evInstruction r) _
    unfold evInstruction
    refine opt_none (excludes_absent h hw.exists (by decide +kernel)) ?_
    refine opt_none (excludes_absent h hw.exists (by decide +kernel)) ?_
    refine opt_none (excludes_absent h hw.exists (by decide +kernel)) ?_
    refine opt_may (k' := .forDeclaration) hw.exists (hw.may h ih) (by rfl) ?_
    refine opt_none (excludes_absent h hw.exists (by decide +kernel)) ?_
    refine opt_none (excludes_absent h hw.exists (by decide +kernel)) ?_
    refine opt_none (excludes_absent h hw.exists (by decide +kernel)) ?_
    exact ret_ok (by rfl)
  | instrCall hw =>
    refine exec_of h ?_ (by simp)
    show ProgRun _ (evInstruction r) _
    unfold evInstruction
    refine opt_none (excludes_absent h hw.exists (by decide +kernel)) ?_
    refine opt_none (excludes_absent h hw.exists (by decide +kernel)) ?_
    refine opt_none (excludes_absent h hw.exists (by decide +kernel)) ?_
    refine opt_none (excludes_absent h hw.exists (by decide +kernel)) ?_
    refine opt_may (k' := .voidFuncCalls) hw.exists (hw.may h ih) (by rfl) ?_
    refine opt_none (excludes_absent h hw.exists (by decide +kernel)) ?_
    refine opt_none (excludes_absent h hw.exists (by decide +kernel)) ?_
    exact ret_ok (by rfl)
  | instrDirection hw =>
    refine exec_of h ?_ (by simp)
    show ProgRun _ (evInstruction r) _
    unfold evInstruction
    refine opt_none (excludes_absent h hw.exists (by decide +kernel)) ?_
    refine opt_none (excludes_absent h hw.exists (by decide +kernel)) ?_
    refine opt_none (excludes_absent h hw.exists (by decide +kernel)) ?_
    refine opt_none (excludes_absent h hw.exists (by decide +kernel)) ?_
    refine opt_none (excludes_absent h hw.exists (by decide +kernel)) ?_
    refine opt_may (k' := .direction) hw.exists (hw.may h ih) (by rfl) ?_
    refine opt_none (excludes_absent h hw.exists (by decide +kernel)) ?_
    exact ret_ok (by rfl)
  | instrIncrement hw =>
    refine exec_of h ?_ (by simp)
    show ProgRun _ (evInstruction r) _
    unfold evInstruction
    refine opt_none (excludes_absent h hw.exists (by decide +kernel)) ?_
    refine opt_none (excludes_absent h hw.exists (by decide +kernel)) ?_
    refine opt_none (excludes_absent h hw.exists (by decide +kernel)) ?_
    refine opt_none (excludes_absent h hw.exists (by decide +kernel)) ?_
    refine opt_none (excludes_absent h hw.exists (by decide +kernel)) ?_
    refine opt_none (excludes_absent h hw.exists (by decide +kernel)) ?_
    refine opt_may (k' := .intIncrement) hw.exists (hw.may h ih) (by rfl) ?_
    exact ret_ok (by rfl)
  | brk he =>
    refine exec_of h ?_ (by simp)
    show ProgRun _ (evDirection r) _
    unfold evDirection
    exact ret_ok (by rw [directionNow, he]; rfl)
  | cont he =>
    refine exec_of h ?_ (by simp)
    show ProgRun _ (evDirection r) _
    unfold evDirection
    exact ret_ok (by rw [directionNow, he, excludes_absent h he (b := lit "BREAK") (by decide +kernel)]; rfl)
  | voidCall hw =>
    refine exec_of h ?_ (by simp)
    show ProgRun _ (evVoidFuncCalls r) _
    unfold evVoidFuncCalls
    refine opt_may (k' := .logFuncCall) hw.exists (hw.may h ih) (by rfl) ?_
    exact ret_ok (by rfl)
  | logCall hw =>
    refine exec_of_result h ?_ (has_plain h ih hw)
    show ProgRun _ (evLogFuncCall r) _
    unfold evLogFuncCall
    exact pass_may (k' := .assignable) (hw.may h ih)
  | listAppend hl hs =>
    refine exec_of h ?_ (by simp)
    show ProgRun _ (evListAppend r) _
    unfold evListAppend
    refine call_may (k' := .listValue) (hl.may h ih) ?_
    refine call_may (k' := .singleAssignable) (hs.may h ih) ?_
    refine step_ok (by rfl) ?_
    refine step_ok (by rfl) ?_
    exact ret_ok (by rfl)
  | slice hl hs =>
    refine exec_of h ?_ (by simp)
    show ProgRun _ (evSlice r) _
    unfold evSlice
    refine call_may (k' := .listValue) (hl.may h ih) ?_
    refine call_may (k' := .sliceDelimiter) (hs.may h ih) ?_
    refine step_ok (by rfl) ?_
    refine step_ok (by rfl) ?_
    exact ret_ok (by rfl)
  | delimiterOne hw =>
    refine exec_of h ?_ (by simp)
    show ProgRun _ (evSliceDelimiter r) _
    unfold evSliceDelimiter
    refine call_all (k' := .indexValue) h ih hw (by simp) ?_
    refine step_ok (a := none) rfl ?_
    refine step_ok (by rfl) ?_
    exact ret_ok (by rfl)
  | delimiterTwo hw =>
    refine exec_of h ?_ (by simp)
    show ProgRun _ (evSliceDelimiter r) _
    unfold evSliceDelimiter
    refine call_all (k' := .indexValue) h ih hw (by simp) ?_
    refine step_ok (by rfl) ?_
    refine step_ok (by rfl) ?_
    exact ret_ok (by rfl)
  | indexNumber ht hd =>
    refine exec_of h ?_ (by simp)
    show ProgRun _ (evIndexValue cfg r) _
    unfold evIndexValue
    refine if_yes ht.exists ?_
    refine need_text h ht (rule_not_kind ⟨_, _, rfl, by decide⟩) ?_
    refine step_ok (written_uint hd (literal_index h ht)) ?_
    refine step_ok (by rfl) ?_
    refine opt_none (excludes_absent h ht.exists (by decide +kernel)) ?_
    exact ret_ok (by rfl)
  | indexVariable hw =>
    refine exec_of h ?_ (by simp)
    show ProgRun _ (evIndexValue cfg r) _
    unfold evIndexValue
    refine if_no (excludes_absent h hw.exists (by decide +kernel)) ?_
    refine opt_may (k' := .variableName) hw.exists (hw.may h ih) (by rfl) ?_
    exact ret_ok (by simp [indexValueNow, textOr, name_ne h ih hw])
  | forDecl hs hb =>
    refine exec_of h ?_ (by simp)
    show ProgRun _ (evForDeclaration r) _
    unfold evForDeclaration
    refine need_may (k' := .forStatement) (hs.may h ih) (by rfl) ?_
    refine opt_opt (k' := .instructions) h ih (mk := fun l => .other (.instructions l)) (fun _ => by rfl) hb ?_
    rename_i s b; exact ret_ok (a := ((s, b) : ForDeclaration)) (by cases b <;> rfl)
  | forStatement hn hl =>
    refine exec_of h ?_ (by simp)
    show ProgRun _ (evForStatement r) _
    unfold evForStatement
    refine if_no (excludes_absent h hn.exists (by decide +kernel)) ?_
    refine opt_may (k' := .assigneeNames) hn.exists (hn.may h ih) (by rfl) ?_
    refine step_ok (by rfl) ?_
    refine opt_may (k' := .totalListValue) hl.exists (hl.may h ih) (by rfl) ?_
    exact ret_ok (by rfl)
  | forParentheses hw =>
    refine exec_of_result h ?_ (has_plain h ih hw)
    show ProgRun _ (evForStatement r) _
    unfold evForStatement
    refine if_yes hw.exists ?_
    exact pass_may (k' := .forStatement) (hw.may h ih)
  | ifDecl hs hb =>
    refine exec_of h ?_ (by simp)
    show ProgRun _ (evIfDeclaration r) _
    unfold evIfDeclaration
    refine opt_may (k' := .ifOperation) hs.exists (hs.may h ih) (by rfl) ?_
    refine opt_opt (k' := .instructions) h ih (mk := fun l => .other (.instructions l)) (fun _ => by rfl) hb ?_
    rename_i s b; exact ret_ok (a := ((s, b) : IfDeclaration)) (by cases b <;> rfl)
  | ifOperation hw =>
    refine exec_of_result h ?_ (has_plain h ih hw)
    show ProgRun _ (evIfOperation r) _
    unfold evIfOperation
    exact pass_may (k' := .operation) (hw.may h ih)
  | operation hw =>
    refine exec_of_result h ?_ (has_plain h ih hw)
    show ProgRun _ (evOperation r) _
    unfold evOperation
    refine if_yes hw.exists ?_
    exact pass_may (k' := .operationWithSuffix) (hw.may h ih)
  | operationCall hw =>
    refine exec_of h ?_ (by simp)
    show ProgRun _ (evOperation r) _
    unfold evOperation
    refine if_no (excludes_absent h hw.exists (by decide +kernel)) ?_
    refine if_yes hw.exists ?_
    refine need_may (k' := .operationFuncCalls) (hw.may h ih) (by rfl) ?_
    refine step_ok (by rfl) ?_
    exact ret_ok (by rfl)
  | operationParentheses hw =>
    refine exec_of_result h ?_ (has_plain h ih hw)
    show ProgRun _ (evOperation r) _
    unfold evOperation
    refine if_no (excludes_absent h hw.exists (by decide +kernel)) ?_
    refine if_no (excludes_absent h hw.exists (by decide +kernel)) ?_
    exact pass_may (k' := .operation) (hw.may h ih)
  | suffixed he hs =>
    refine exec_of h ?_ (by simp)
    show ProgRun _ (evOperationWithSuffix r) _
    unfold evOperationWithSuffix
    refine opt_may (k' := .operationElement) he.exists (he.may h ih) (by rfl) ?_
    refine opt_may (k' := .operationSuffix) hs.exists (hs.may h ih) (by rfl) ?_
    exact ret_ok (by rfl)
  | plain he hn hp =>
    refine exec_of h ?_ (by simp)
    show ProgRun _ (evOperationWithSuffix r) _
    unfold evOperationWithSuffix
    refine opt_may (k' := .operationElement) he.exists (he.may h ih) (by rfl) ?_
    refine opt_none hn ?_
    rename_i e
    exact ret_ok (by cases e <;> first | rfl | exact absurd rfl (hp _))
  | inner he hn =>
    refine exec_of h ?_ (by simp)
    show ProgRun _ (evOperationWithSuffix r) _
    unfold evOperationWithSuffix
    refine opt_may (k' := .operationElement) he.exists (he.may h ih) (by rfl) ?_
    refine opt_none hn ?_
    exact ret_ok (by rfl)
  | suffix ho he =>
    refine exec_of h ?_ (by simp)
    show ProgRun _ (evOperationSuffix r) _
    unfold evOperationSuffix
    refine opt_may (k' := .operator) ho.exists (ho.may h ih) (by rfl) ?_
    refine opt_may (k' := .operationElement) he.exists (he.may h ih) (by rfl) ?_
    exact ret_ok (by rfl)
  | elementBool hw =>
    refine exec_of h ?_ (by simp)
    show ProgRun _ (evOperationElement r) _
    unfold evOperationElement
    refine if_yes hw.exists ?_
    refine need_may (k' := .boolValue) (hw.may h ih) (by rfl) ?_
    rename_i b
    refine step_ok (a := b) (by simp [boolOf, boolValue, boolFlag]) ?_
    refine opt_none (excludes_absent h hw.exists (by decide +kernel)) ?_
    refine opt_none (excludes_absent h hw.exists (by decide +kernel)) ?_
    refine opt_none (excludes_absent h hw.exists (by decide +kernel)) ?_
    exact ret_ok (by rfl)
  | elementVariable hw =>
    refine exec_of h ?_ (by simp)
    show ProgRun _ (evOperationElement r) _
    unfold evOperationElement
    refine if_no (excludes_absent h hw.exists (by decide +kernel)) ?_
    refine opt_may (k' := .variableName) hw.exists (hw.may h ih) (by rfl) ?_
    refine opt_none (excludes_absent h hw.exists (by decide +kernel)) ?_
    refine opt_none (excludes_absent h hw.exists (by decide +kernel)) ?_
    exact ret_ok (by rfl)
  | elementValue hw =>
    refine exec_of h ?_ (by simp)
    show ProgRun _ (evOperationElement r) _
    unfold evOperationElement
    refine if_no (excludes_absent h hw.exists (by decide +kernel)) ?_
    refine opt_none (excludes_absent h hw.exists (by decide +kernel)) ?_
    refine opt_may (k' := .computableValue) hw.exists (hw.may h ih) (by rfl) ?_
    refine opt_none (excludes_absent h hw.exists (by decide +kernel)) ?_
    exact ret_ok (by rfl)
  | elementOperation hw =>
    refine exec_of h ?_ (by simp)
    show ProgRun _ (evOperationElement r) _
    unfold evOperationElement
    refine if_no (excludes_absent h hw.exists (by decide +kernel)) ?_
    refine opt_none (excludes_absent h hw.exists (by decide +kernel)) ?_
    refine opt_none (excludes_absent h hw.exists (by decide +kernel)) ?_
    refine opt_may (k' := .operation) hw.exists (hw.may h ih) (by rfl) ?_
    exact ret_ok (by rfl)
  | funcCall hw =>
    refine exec_of h ?_ (by simp)
    show ProgRun _ (evOperationFuncCalls r) _
    unfold evOperationFuncCalls
    refine opt_may (k' := .isNullFuncCall) hw.exists (hw.may h ih) (by rfl) ?_
    exact ret_ok (by rfl)
  | isNull hw =>
    refine exec_of_result h ?_ (has_plain h ih hw)
    show ProgRun _ (evIsNullFuncCall r) _
    unfold evIsNullFuncCall
    exact pass_may (k' := .operation) (hw.may h ih)
  | operatorA hw =>
    refine exec_of_result h ?_ (has_plain h ih hw)
    show ProgRun _ (evOperator r) _
    unfold evOperator
    refine if_yes hw.exists ?_
    exact pass_may (k' := .operatorArithmetic) (hw.may h ih)
  | operatorR hw =>
    refine exec_of_result h ?_ (has_plain h ih hw)
    show ProgRun _ (evOperator r) _
    unfold evOperator
    refine if_no (excludes_absent h hw.exists (by decide +kernel)) ?_
    refine if_yes hw.exists ?_
    exact pass_may (k' := .operatorRelational) (hw.may h ih)
  | operatorL hw =>
    refine exec_of_result h ?_ (has_plain h ih hw)
    show ProgRun _ (evOperator r) _
    unfold evOperator
    refine if_no (excludes_absent h hw.exists (by decide +kernel)) ?_
    refine if_no (excludes_absent h hw.exists (by decide +kernel)) ?_
    exact pass_may (k' := .operatorLogical) (hw.may h ih)
  | arithmetic ho hr =>
    refine exec_of h ?_ (by simp)
    show ProgRun _ (evOperatorArithmetic r) _
    unfold evOperatorArithmetic
    exact (run_done _ _).mpr (arithmetic_flag h ho hr)
  | relational ho hr =>
    refine exec_of h ?_ (by simp)
    show ProgRun _ (evOperatorRelational r) _
    unfold evOperatorRelational
    exact (run_done _ _).mpr (relational_flag h ho hr)
  | logical ho hr =>
    refine exec_of h ?_ (by simp)
    show ProgRun _ (evOperatorLogical r) _
    unfold evOperatorLogical
    exact (run_done _ _).mpr (logical_flag h ho hr)
  | assignment ha hl =>
    refine exec_of h ?_ (by simp)
    show ProgRun _ (evAssignment r) _
    unfold evAssignment
    refine opt_may (k' := .assignee) ha.exists (ha.may h ih) (by rfl) ?_
    refine opt_may (k' := .assignables) hl.exists (hl.may h ih) (by rfl) ?_
    exact ret_ok (by rfl)
  | assigneeFirst hw =>
    refine exec_of h ?_ (by simp)
    show ProgRun _ (evAssignee r) _
    unfold evAssignee
    refine opt_may (k' := .assigneeNameFirsts) hw.exists (hw.may h ih) (by rfl) ?_
    refine opt_none (excludes_absent h hw.exists (by decide +kernel)) ?_
    exact ret_ok (by rfl)
  | assigneeName hw =>
    refine exec_of h ?_ (by simp)
    show ProgRun _ (evAssignee r) _
    unfold evAssignee
    refine opt_none (excludes_absent h hw.exists (by decide +kernel)) ?_
    refine opt_may (k' := .assigneeNames) hw.exists (hw.may h ih) (by rfl) ?_
    exact ret_ok (by rfl)
  | firsts ha hl =>
    refine exec_of h ?_ (by simp)
    show ProgRun _ (evAssigneeNameFirsts r) _
    unfold evAssigneeNameFirsts
    refine comma_any (item := .assigneeNameFirst) (comma := .commaAssigneeFirst) h ih (mk := fun x => .other (.assigneeFirst x)) (fun _ => by rfl) ha hl ?_
    exact ret_ok (by rfl)
  | commaFirst hw =>
    refine exec_of_result h ?_ (has_plain h ih hw)
    show ProgRun _ (evCommaAssigneeFirst r) _
    unfold evCommaAssigneeFirst
    exact pass_may (k' := .assigneeNameFirst) (hw.may h ih)
  | firstDeclaration hw =>
    refine exec_of h ?_ (by simp)
    show ProgRun _ (evAssigneeNameFirst r) _
    unfold evAssigneeNameFirst
    refine opt_may (k' := .variableDeclaration) hw.exists (hw.may h ih) (by rfl) ?_
    refine opt_none (excludes_absent h hw.exists (by decide +kernel)) ?_
    exact ret_ok (by rfl)
  | firstName hw =>
    refine exec_of h ?_ (by simp)
    show ProgRun _ (evAssigneeNameFirst r) _
    unfold evAssigneeNameFirst
    refine opt_none (excludes_absent h hw.exists (by decide +kernel)) ?_
    refine opt_may (k' := .assigneeName) hw.exists (hw.may h ih) (by rfl) ?_
    exact ret_ok (by rfl)
  | names ha hl =>
    refine exec_of h ?_ (by simp)
    show ProgRun _ (evAssigneeNames r) _
    unfold evAssigneeNames
    refine comma_any (item := .assigneeName) (comma := .commaAssigneeName) h ih (mk := fun x => .other (.assigneeName x)) (fun _ => by rfl) ha hl ?_
    exact ret_ok (by rfl)
  | commaName hw =>
    refine exec_of_result h ?_ (has_plain h ih hw)
    show ProgRun _ (evCommaAssigneeName r) _
    unfold evCommaAssigneeName
    exact pass_may (k' := .assigneeName) (hw.may h ih)
  | nameVariable hw =>
    refine exec_of h ?_ (by simp)
    show ProgRun _ (evAssigneeName r) _
    unfold evAssigneeName
    refine opt_may (k' := .variableName) hw.exists (hw.may h ih) (by rfl) ?_
    exact ret_ok (by simp [assigneeNameNow, textOr, name_ne h ih hw])
  | nameSkip he =>
    refine exec_of h ?_ (by simp)
    show ProgRun _ (evAssigneeName r) _
    unfold evAssigneeName
    refine opt_none (excludes_absent h he (by decide +kernel)) ?_
    exact ret_ok (by rw [he]; rfl)
  | assignables ha hl =>
    refine exec_of h ?_ (by simp)
    show ProgRun _ (evAssignables r) _
    unfold evAssignables
    refine comma_any (item := .assignable) (comma := .commaAssignable) h ih (mk := fun x => .other (.assignable x)) (fun _ => by rfl) ha hl ?_
    exact ret_ok (by rfl)
  | commaAssignable hw =>
    refine exec_of_result h ?_ (has_plain h ih hw)
    show ProgRun _ (evCommaAssignable r) _
    unfold evCommaAssignable
    exact pass_may (k' := .assignable) (hw.may h ih)
  | assignableList hw =>
    refine exec_of h ?_ (by simp)
    show ProgRun _ (evAssignable r) _
    unfold evAssignable
    refine opt_may (k' := .totalListAssignable) hw.exists (hw.may h ih) (by rfl) ?_
    refine opt_none (excludes_absent h hw.exists (by decide +kernel)) ?_
    exact ret_ok (by rfl)
  | assignableSingle hw =>
    refine exec_of h ?_ (by simp)
    show ProgRun _ (evAssignable r) _
    unfold evAssignable
    refine opt_none (excludes_absent h hw.exists (by decide +kernel)) ?_
    refine opt_may (k' := .singleAssignable) hw.exists (hw.may h ih) (by rfl) ?_
    exact ret_ok (by rfl)
  | singleValue hw =>
    refine exec_of h ?_ (by simp)
    show ProgRun _ (evSingleAssignable r) _
    unfold evSingleAssignable
    refine opt_may (k' := .declarableValue) hw.exists (hw.may h ih) (by rfl) ?_
    refine opt_none (excludes_absent h hw.exists (by decide +kernel)) ?_
    refine opt_none (excludes_absent h hw.exists (by decide +kernel)) ?_
    refine opt_none (excludes_absent h hw.exists (by decide +kernel)) ?_
    exact ret_ok (by rfl)
  | singleOperation hw =>
    refine exec_of h ?_ (by simp)
    show ProgRun _ (evSingleAssignable r) _
    unfold evSingleAssignable
    refine opt_none (excludes_absent h hw.exists (by decide +kernel)) ?_
    refine opt_may (k' := .operation) hw.exists (hw.may h ih) (by rfl) ?_
    refine opt_none (excludes_absent h hw.exists (by decide +kernel)) ?_
    refine opt_none (excludes_absent h hw.exists (by decide +kernel)) ?_
    exact ret_ok (by rfl)
  | singleExtract hw =>
    refine exec_of h ?_ (by simp)
    show ProgRun _ (evSingleAssignable r) _
    unfold evSingleAssignable
    refine opt_none (excludes_absent h hw.exists (by decide +kernel)) ?_
    refine opt_none (excludes_absent h hw.exists (by decide +kernel)) ?_
    refine opt_may (k' := .listAssignableToAssignables) hw.exists (hw.may h ih) (by rfl) ?_
    refine opt_none (excludes_absent h hw.exists (by decide +kernel)) ?_
    exact ret_ok (by rfl)
  | singleFetch hw =>
    refine exec_of h ?_ (by simp)
    show ProgRun _ (evSingleAssignable r) _
    unfold evSingleAssignable
    refine opt_none (excludes_absent h hw.exists (by decide +kernel)) ?_
    refine opt_none (excludes_absent h hw.exists (by decide +kernel)) ?_
    refine opt_none (excludes_absent h hw.exists (by decide +kernel)) ?_
    refine opt_may (k' := .listFetchElement) hw.exists (hw.may h ih) (by rfl) ?_
    exact ret_ok (by rfl)
  | fetch hl hs =>
    refine exec_of h ?_ (by simp)
    show ProgRun _ (evListFetchElement r) _
    unfold evListFetchElement
    refine call_may (k' := .totalListValue) (hl.may h ih) ?_
    refine call_may (k' := .listElementFetcher) (hs.may h ih) ?_
    refine step_ok (by rfl) ?_
    refine step_ok (by rfl) ?_
    exact ret_ok (by rfl)
  | fetcher hw =>
    refine exec_of_result h ?_ (has_plain h ih hw)
    show ProgRun _ (evListElementFetcher r) _
    unfold evListElementFetcher
    exact pass_may (k' := .indexValue) (hw.may h ih)
  | extract hw =>
    refine exec_of_result h ?_ (has_plain h ih hw)
    show ProgRun _ (evListAssignableToAssignables r) _
    unfold evListAssignableToAssignables
    exact pass_may (k' := .totalListAssignable) (hw.may h ih)
  | totalVariable hw =>
    refine exec_of h ?_ (by simp)
    show ProgRun _ (evTotalListValue r) _
    unfold evTotalListValue
    refine opt_none (excludes_absent h hw.exists (by decide +kernel)) ?_
    refine opt_may (k' := .variableName) hw.exists (hw.may h ih) (by rfl) ?_
    exact ret_ok (by simp [totalListValueNow, textOr, name_ne h ih hw])
  | totalAssignable hw =>
    refine exec_of h ?_ (by simp)
    show ProgRun _ (evTotalListValue r) _
    unfold evTotalListValue
    refine opt_may (k' := .totalListAssignable) hw.exists (hw.may h ih) (by rfl) ?_
    refine opt_none (excludes_absent h hw.exists (by decide +kernel)) ?_
    exact ret_ok (by rfl)
  | totalList hw =>
    refine exec_of h ?_ (by simp)
    show ProgRun _ (evTotalListAssignable r) _
    unfold evTotalListAssignable
    refine opt_may (k' := .listValue) hw.exists (hw.may h ih) (by rfl) ?_
    refine opt_none (excludes_absent h hw.exists (by decide +kernel)) ?_
    refine opt_none (excludes_absent h hw.exists (by decide +kernel)) ?_
    exact ret_ok (by rfl)
  | totalSlice hw =>
    refine exec_of h ?_ (by simp)
    show ProgRun _ (evTotalListAssignable r) _
    unfold evTotalListAssignable
    refine opt_none (excludes_absent h hw.exists (by decide +kernel)) ?_
    refine opt_may (k' := .slice) hw.exists (hw.may h ih) (by rfl) ?_
    refine opt_none (excludes_absent h hw.exists (by decide +kernel)) ?_
    exact ret_ok (by rfl)
  | totalAppend hw =>
    refine exec_of h ?_ (by simp)
    show ProgRun _ (evTotalListAssignable r) _
    unfold evTotalListAssignable
    refine opt_none (excludes_absent h hw.exists (by decide +kernel)) ?_
    refine opt_none (excludes_absent h hw.exists (by decide +kernel)) ?_
    refine opt_may (k' := .listAppend) hw.exists (hw.may h ih) (by rfl) ?_
    exact ret_ok (by rfl)
  | listLiteral hw =>
    refine exec_of h ?_ (by simp)
    show ProgRun _ (evListValue r) _
    unfold evListValue
    refine opt_may (k' := .listAssignable) hw.exists (hw.may h ih) (by rfl) ?_
    refine opt_none (excludes_absent h hw.exists (by decide +kernel)) ?_
    exact ret_ok (by rfl)
  | listVariable hw =>
    refine exec_of h ?_ (by simp)
    show ProgRun _ (evListValue r) _
    unfold evListValue
    refine opt_none (excludes_absent h hw.exists (by decide +kernel)) ?_
    refine opt_may (k' := .variableName) hw.exists (hw.may h ih) (by rfl) ?_
    exact ret_ok (by simp [listValueNow, textOr, name_ne h ih hw])
  | elements hw =>
    refine exec_of_result h ?_ (has_plain h ih hw)
    show ProgRun _ (evListAssignable r) _
    unfold evListAssignable
    refine if_yes hw.exists ?_
    exact pass_may (k' := .assignables) (hw.may h ih)
  | empty he =>
    refine exec_of h ?_ (by simp)
    show ProgRun _ (evListAssignable r) _
    unfold evListAssignable
    refine if_no he ?_
    exact ret_ok (by rfl)
  | increment hn hv =>
    refine exec_of h ?_ (by simp)
    show ProgRun _ (evIntIncrement r) _
    unfold evIntIncrement
    refine need_may (k' := .variableName) (hn.may h ih) (by rfl) ?_
    refine need_may (k' := .intIncrementValue) (hv.may h ih) (by rfl) ?_
    exact ret_ok (by simp [intIncrementNow, name_ne h ih hn])
  | up he =>
    refine exec_of h ?_ (by simp)
    show ProgRun _ (evIntIncrementValue r) _
    unfold evIntIncrementValue
    exact ret_ok (by rw [he, excludes_absent h he (b := lit "MINUS") (by decide +kernel)]; rfl)
  | down he =>
    refine exec_of h ?_ (by simp)
    show ProgRun _ (evIntIncrementValue r) _
    unfold evIntIncrementValue
    exact ret_ok (by rw [he]; rfl)
  | declarableC hw =>
    refine exec_of_result h ?_ (has_plain h ih hw)
    show ProgRun _ (evDeclarableValue r) _
    unfold evDeclarableValue
    refine if_yes hw.exists ?_
    exact pass_may (k' := .computableValue) (hw.may h ih)
  | declarableP hw =>
    refine exec_of_result h ?_ (has_plain h ih hw)
    show ProgRun _ (evDeclarableValue r) _
    unfold evDeclarableValue
    refine if_no (excludes_absent h hw.exists (by decide +kernel)) ?_
    exact pass_may (k' := .primitiveValue) (hw.may h ih)
  | computableF hw =>
    refine exec_of_result h ?_ (has_plain h ih hw)
    show ProgRun _ (evComputableValue r) _
    unfold evComputableValue
    refine if_yes hw.exists ?_
    exact pass_may (k' := .floatValue) (hw.may h ih)
  | computableI hw =>
    refine exec_of_result h ?_ (has_plain h ih hw)
    show ProgRun _ (evComputableValue r) _
    unfold evComputableValue
    refine if_no (excludes_absent h hw.exists (by decide +kernel)) ?_
    exact pass_may (k' := .intValue) (hw.may h ih)
  | primitiveB hw =>
    refine exec_of_result h ?_ (has_plain h ih hw)
    show ProgRun _ (evPrimitiveValue r) _
    unfold evPrimitiveValue
    refine if_yes hw.exists ?_
    exact pass_may (k' := .boolValue) (hw.may h ih)
  | primitiveS hw =>
    refine exec_of_result h ?_ (has_plain h ih hw)
    show ProgRun _ (evPrimitiveValue r) _
    unfold evPrimitiveValue
    refine if_no (excludes_absent h hw.exists (by decide +kernel)) ?_
    exact pass_may (k' := .stringValue) (hw.may h ih)
  | text ht =>
    refine exec_of h ?_ (by simp)
    show ProgRun _ (evStringValue r) _
    unfold evStringValue
    refine need_text h ht (rule_not_kind ⟨_, _, rfl, by decide⟩) ?_
    exact ret_ok (by rfl)
  | yes he =>
    refine exec_of h ?_ (by simp)
    show ProgRun _ (evBoolValue r) _
    unfold evBoolValue
    exact ret_ok (by rw [he, excludes_absent h he (b := lit "FALSE") (by decide +kernel)]; rfl)
  | no he =>
    refine exec_of h ?_ (by simp)
    show ProgRun _ (evBoolValue r) _
    unfold evBoolValue
    exact ret_ok (by rw [he]; rfl)
  | positive ht hd he =>
    refine exec_of h ?_ (by simp)
    show ProgRun _ (evIntValue cfg r) _
    unfold evIntValue
    refine need_text h ht (rule_not_kind ⟨_, _, rfl, by decide⟩) ?_
    refine if_no he ?_
    refine step_ok (written_uint hd (literal_int h ht he)) ?_
    exact ret_ok (by rfl)
  | negative ht hd he =>
    refine exec_of h ?_ (by simp)
    show ProgRun _ (evIntValue cfg r) _
    unfold evIntValue
    refine need_text h ht (rule_not_kind ⟨_, _, rfl, by decide⟩) ?_
    refine if_yes he ?_
    refine step_ok (written_neg hd (literal_neg h ht he)) ?_
    exact ret_ok (by rfl)
  | float ht he hx =>
    refine exec_of h ?_ (by simp)
    show ProgRun _ (evFloatValue cfg r) _
    unfold evFloatValue
    refine call_text h ht (rule_not_kind ⟨_, _, rfl, by decide⟩) ?_
    refine step_ok (by rw [he]; exact hx) ?_
    exact ret_ok (by rfl)
  | negativeFloat ht he hx =>
    refine exec_of h ?_ (by simp)
    show ProgRun _ (evFloatValue cfg r) _
    unfold evFloatValue
    refine call_text h ht (rule_not_kind ⟨_, _, rfl, by decide⟩) ?_
    refine step_ok (by rw [he]; exact hx) ?_
    exact ret_ok (by rfl)
  | declarations ha hl =>
    refine exec_of h ?_ (by simp)
    show ProgRun _ (evVariableDeclarations r) _
    unfold evVariableDeclarations
    refine comma_any (item := .variableDeclaration) (comma := .commaVariableDeclaration) h ih (mk := fun x => .other (.decl x)) (fun _ => by rfl) ha hl ?_
    exact ret_ok (by rfl)
  | commaDeclaration hw =>
    refine exec_of_result h ?_ (has_plain h ih hw)
    show ProgRun _ (evCommaVariableDeclaration r) _
    unfold evCommaVariableDeclaration
    exact pass_may (k' := .variableDeclaration) (hw.may h ih)
  | declaration ht hn =>
    refine exec_of h ?_ (by simp)
    show ProgRun _ (evVariableDeclaration r) _
    unfold evVariableDeclaration
    refine call_may (k' := .declarativeType) (ht.may h ih) ?_
    refine call_may (k' := .variableName) (hn.may h ih) ?_
    refine step_ok (by rfl) ?_
    refine step_ok (by rfl) ?_
    exact ret_ok (by simp [varDeclNow, name_ne h ih hn])
  | typePrimitive hw =>
    refine exec_of h ?_ (by simp)
    show ProgRun _ (evDeclarativeType r) _
    unfold evDeclarativeType
    refine type_may (k' := .primitiveType) (hw.may h ih) hw.exists (by rfl) ?_
    refine type_none (excludes_absent h hw.exists (by decide +kernel)) ?_
    refine type_none (excludes_absent h hw.exists (by decide +kernel)) ?_
    exact ret_ok (by rfl)
  | typeComputable hw =>
    refine exec_of h ?_ (by simp)
    show ProgRun _ (evDeclarativeType r) _
    unfold evDeclarativeType
    refine type_none (excludes_absent h hw.exists (by decide +kernel)) ?_
    refine type_may (k' := .computableType) (hw.may h ih) hw.exists (by rfl) ?_
    refine type_none (excludes_absent h hw.exists (by decide +kernel)) ?_
    exact ret_ok (by rfl)
  | typeList hw =>
    refine exec_of h ?_ (by simp)
    show ProgRun _ (evDeclarativeType r) _
    unfold evDeclarativeType
    refine type_none (excludes_absent h hw.exists (by decide +kernel)) ?_
    refine type_none (excludes_absent h hw.exists (by decide +kernel)) ?_
    refine type_may (k' := .listType) (hw.may h ih) hw.exists (by rfl) ?_
    exact ret_ok (by rfl)
  | listType hw =>
    refine exec_of_result h ?_ (has_plain h ih hw)
    show ProgRun _ (evListType r) _
    unfold evListType
    exact pass_may (k' := .declarativeType) (hw.may h ih)
  | bool he =>
    refine exec_of h ?_ (by simp)
    show ProgRun _ (evPrimitiveType r) _
    unfold evPrimitiveType
    have h0 := excludes_absent h he (b := lit "STRING") (by decide +kernel)
    exact (run_done _ _).mpr (by simp [flagIf, he, h0])
  | string he =>
    refine exec_of h ?_ (by simp)
    show ProgRun _ (evPrimitiveType r) _
    unfold evPrimitiveType
    have h0 := excludes_absent h he (b := lit "BOOL") (by decide +kernel)
    exact (run_done _ _).mpr (by simp [flagIf, he, h0])
  | floatType he =>
    refine exec_of h ?_ (by simp)
    show ProgRun _ (evComputableType r) _
    unfold evComputableType
    have h0 := excludes_absent h he (b := lit "UINT") (by decide +kernel)
    have h1 := excludes_absent h he (b := lit "INT") (by decide +kernel)
    exact (run_done _ _).mpr (by simp [flagIf, he, h0, h1])
  | uintType he =>
    refine exec_of h ?_ (by simp)
    show ProgRun _ (evComputableType r) _
    unfold evComputableType
    have h0 := excludes_absent h he (b := lit "FLOAT") (by decide +kernel)
    have h1 := excludes_absent h he (b := lit "INT") (by decide +kernel)
    exact (run_done _ _).mpr (by simp [flagIf, he, h0, h1])
  | intType he =>
    refine exec_of h ?_ (by simp)
    show ProgRun _ (evComputableType r) _
    unfold evComputableType
    have h0 := excludes_absent h he (b := lit "FLOAT") (by decide +kernel)
    have h1 := excludes_absent h he (b := lit "UINT") (by decide +kernel)
    exact (run_done _ _).mpr (by simp [flagIf, he, h0, h1])
  | name ha hb =>
    obtain ⟨n, h1, h2⟩ := fetch_texts h ha
    obtain ⟨m, h3, h4⟩ := fetch_texts h hb
    refine exec_of h ?_ (by simp)
    show ProgRun _ (evVariableName r) _
    unfold evVariableName
    refine step_ok h1 ?_
    refine step_ok h3 ?_
    rw [← node_content h2, ← node_content h4]
    exact (run_done _ _).mpr rfl

theorem written_reads (r : Root) : ∀ {k : Kind}, Conf cfg k r → ∀ {v : V}, Written cfg k r v → ExecuteRun (baseEvents cfg) r (.ok [v]) := by
  induction hs : sizeOf r using Nat.strongRecOn generalizing r with
  | _ s ih =>
    subst hs
    intro k h v hw
    exact written_step (fun u k v hu hc hw => ih _ hu u rfl hc hw) h hw

end Verif.Base
