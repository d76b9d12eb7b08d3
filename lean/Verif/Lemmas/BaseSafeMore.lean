import Verif.Lemmas.BaseSafe

/-! # The remaining events of the base language -/

namespace Verif.Base
open Verif.Patterns Verif.Lexer

variable {cfg : Cfg} {k : Kind} {r : Root} {line : List (Sym × Card)} {α : Type} {Q : Out V → Prop}

/-- In a line of rules only, `Trigger` finds the texts of the node of the root. -/
theorem trigger_own (h : Line cfg k r line) {name : Str} (hno : ∀ k : Kind, k.name ≠ name) (he : r.exists name = true)
    (hl : ∀ p ∈ line, ∀ k', p.1 ≠ .tok k') (hch : name ∉ channelNames) {x : Out (List V)} (hx : TriggerRun (baseEvents cfg) name r x) :
    ∃ n, x = .ok (n.containers.map fun c => .text c.content) ∧ n.name = name ∧ n ∈ r.nodes ∧ n.containers ≠ [] ∧
      (∀ c ∈ n.containers, c.content ≠ []) ∧ ∃ p ∈ line, p.1.name = name ∧ p.2.Allows n.containers.length := by
  obtain ⟨n, hx, h1, h2, h3, h4⟩ := trigger_rule h hno he hx
  have hn : n ∈ r.nodes := by
    rcases h2.2 with h2 | ⟨k1, card, _, _, _, h2, _⟩
    · exact h2
    · exact absurd rfl (hl _ h2 k1)
  obtain ⟨_, p, hp, hp2, hp3⟩ := h.node hn (h1 ▸ hch)
  exact ⟨n, hx, h1, hn, h3, h4, p, hp, hp2 ▸ h1, hp3⟩

theorem not_kind {s : Str} (h : (match s with | c :: _ => decide (c.toNat < 97) | [] => true) = true) (k : Kind) : k.name ≠ s := by
  intro he
  obtain ⟨c, l, h2, h3⟩ := kind_small k
  rw [← he, h2] at h
  simp at h
  omega

theorem safe_stringValue (h : Line cfg .stringValue r line) : Ends cfg (evStringValue r) (Delivers .stringValue r) := by
  ev_lines h hm
  subst hm
  refine ends_call fun x hx => ?_
  obtain ⟨n, rfl, h1, h2, h3, h4, -⟩ := trigger_own h (not_kind (by decide)) (by ev_yes h) (by simp) (by decide) hx
  obtain ⟨c, cs, hc⟩ := List.exists_cons_of_ne_nil h3
  refine ⟨_, rfl, ?_⟩
  rw [hc]
  ev_fin

theorem safe_intValue (h : Line cfg .intValue r line) : Ends cfg (evIntValue cfg r) (Delivers .intValue r) := by
  ev_lines h hm
  subst hm
  refine ends_call fun x hx => ?_
  obtain ⟨n, rfl, h1, h2, h3, h4, -⟩ := trigger_own h (not_kind (by decide)) (by ev_yes h) (by simp) (by decide) hx
  obtain ⟨c, cs, hc⟩ := List.exists_cons_of_ne_nil h3
  refine ⟨_, rfl, ?_⟩
  rw [hc]
  have hlit := h.literals n h2 h1 c (by simp [hc])
  simp only [List.map_cons, assertFirst, assert, asText, step]
  split
  · rename_i hm
    rw [if_pos hm] at hlit
    obtain ⟨z, hz⟩ := hlit
    simp only [hz]
    ev_fin
  · rename_i hm
    rw [if_neg hm] at hlit
    obtain ⟨z, hz⟩ := hlit
    simp only [hz]
    ev_fin

theorem safe_floatValue (h : Line cfg .floatValue r line) : Ends cfg (evFloatValue cfg r) (Delivers .floatValue r) := by
  ev_lines h hm
  subst hm
  refine ends_call fun x hx => ?_
  obtain ⟨n, rfl, h1, h2, h3, h4, p, hp, hp1, hp2⟩ := trigger_own h (not_kind (by decide)) (by ev_yes h) (by simp) (by decide) hx
  refine ⟨_, rfl, ?_⟩
  have hlen : n.containers.length = 2 := by
    simp only [List.mem_cons, List.not_mem_nil, or_false] at hp
    rcases hp with rfl | rfl | rfl
    · exact absurd hp1 (by decide)
    · simp only [Card.Allows] at hp2; omega
    · exact absurd hp1 (by decide)
  obtain ⟨a, b, hab⟩ := List.length_eq_two.mp hlen
  obtain ⟨z, hz⟩ := h.literals n h2 h1 a b hab
  simp only [hab, List.map_cons, List.map_nil, printed, hz, step]
  ev_fin

theorem safe_indexValue (h : Line cfg .indexValue r line) (ih : AllInside cfg r) :
    Ends cfg (evIndexValue cfg r) (Delivers .indexValue r) := by
  ev_lines h hm
  rcases hm with rfl | rfl
  · have he : r.exists (lit "INT_PATTERN") = true := by ev_yes h
    rw [evIndexValue, if_pos he]
    refine ends_call fun x hx => ?_
    obtain ⟨n, rfl, h1, h2, h3, h4, -⟩ := trigger_own h (not_kind (by decide)) he (by simp) (by decide) hx
    obtain ⟨c, cs, hc⟩ := List.exists_cons_of_ne_nil h3
    refine ⟨_, rfl, ?_⟩
    rw [hc]
    obtain ⟨z, hz⟩ := h.literals n h2 h1 c (by simp [hc])
    simp only [List.map_cons, assertFirst, assert, asText, step, hz, valueNow]
    refine ends_opt_no (by ev_no h) ?_
    ev_fin
  · have he : r.exists (lit "INT_PATTERN") = false := by ev_no h
    rw [evIndexValue, if_neg (by simp [he])]
    ev_opt h ih .variableName
    rename_i s hs
    refine ends_ret (a := .var s) ?_ (goodAt (by decide) ⟨_, rfl⟩)
    simp [indexValueNow, textOr, hs]

theorem safe_variableName (h : Line cfg .variableName r line) : Ends cfg (evVariableName r) (Delivers .variableName r) := by
  ev_lines h hm
  subst hm
  have fetch : ∀ name, r.exists name = true → ∃ n ∈ r.nodes, r.fetch name = .ok n := by
    intro name he
    rw [exists_iff] at he
    rw [Root.fetch]
    cases hf : r.nodes.find? (fun n => n.name = name) with
    | none =>
      obtain ⟨n, h1, h2⟩ := he
      exact absurd h2 (by simpa using List.find?_eq_none.mp hf n h1)
    | some n => exact ⟨n, List.mem_of_find?_eq_some hf, rfl⟩
  obtain ⟨a, ha1, ha2⟩ := fetch (lit "FIRST_LETTER") (by ev_yes h)
  obtain ⟨b, hb1, hb2⟩ := fetch (lit "MIN_MAJ_LETTERS") (by ev_yes h)
  simp only [evVariableName, ha2, hb2, step]
  refine ends_done ⟨_, goodAt (by decide) ⟨_, rfl, ?_⟩, .inl rfl⟩
  obtain ⟨c, cs, hc⟩ := List.exists_cons_of_ne_nil (h.nodes a ha1).1
  have := (h.containers a ha1 c (by simp [hc])).2
  simp [Node.content, hc, this]

theorem safe_boolValue (h : Line cfg .boolValue r line) : Ends cfg (evBoolValue r) (Delivers .boolValue r) := by
  ev_lines h hm
  rcases hm with rfl | rfl
  · have h1 : r.exists (lit "TRUE") = true := by ev_yes h
    have h2 : r.exists (lit "FALSE") = false := by ev_no h
    simp only [evBoolValue, h1, h2]
    exact ends_ret rfl (goodAt (by decide) ⟨_, rfl⟩)
  · have h2 : r.exists (lit "FALSE") = true := by ev_yes h
    simp only [evBoolValue, h2]
    exact ends_ret rfl (goodAt (by decide) ⟨_, rfl⟩)

theorem safe_intIncrementValue (h : Line cfg .intIncrementValue r line) :
    Ends cfg (evIntIncrementValue r) (Delivers .intIncrementValue r) := by
  ev_lines h hm
  rcases hm with rfl | rfl
  · have h1 : r.exists (lit "PLUS") = true := by ev_yes h
    have h2 : r.exists (lit "MINUS") = false := by ev_no h
    simp only [evIntIncrementValue, h1, h2]
    ev_fin
  · have h2 : r.exists (lit "MINUS") = true := by ev_yes h
    simp only [evIntIncrementValue, h2]
    ev_fin

macro "ev_if" h:ident ev:ident : tactic => `(tactic| first
  | rw [$ev:ident, if_pos (by ev_yes $h)]
  | rw [$ev:ident, if_neg (Bool.eq_false_iff.mp (by ev_no $h))])
macro "ev_if2" h:ident : tactic => `(tactic| first
  | rw [if_pos (by ev_yes $h)]
  | rw [if_neg (Bool.eq_false_iff.mp (by ev_no $h))])

theorem safe_declarableValue (h : Line cfg .declarableValue r line) (ih : AllInside cfg r) :
    Ends cfg (evDeclarableValue r) (Delivers .declarableValue r) := by
  ev_lines h hm
  rcases hm with rfl | rfl <;> ev_if h evDeclarableValue
  · ev_through h ih .computableValue
  · ev_through h ih .primitiveValue

theorem safe_computableValue (h : Line cfg .computableValue r line) (ih : AllInside cfg r) :
    Ends cfg (evComputableValue r) (Delivers .computableValue r) := by
  ev_lines h hm
  rcases hm with rfl | rfl <;> ev_if h evComputableValue
  · ev_through h ih .floatValue
  · ev_through h ih .intValue

theorem safe_primitiveValue (h : Line cfg .primitiveValue r line) (ih : AllInside cfg r) :
    Ends cfg (evPrimitiveValue r) (Delivers .primitiveValue r) := by
  ev_lines h hm
  rcases hm with rfl | rfl <;> ev_if h evPrimitiveValue
  · exact ends_pass h ih .boolValue (by ev_yes h) (by decide +kernel) (fun _ ⟨b, hv⟩ => goodAt (by decide) ⟨_, hv⟩)
  · ev_through h ih .stringValue

theorem safe_operator (h : Line cfg .operator r line) (ih : AllInside cfg r) :
    Ends cfg (evOperator r) (Delivers .operator r) := by
  ev_lines h hm
  rcases hm with rfl | rfl | rfl <;> ev_if h evOperator <;> (try ev_if2 h)
  · ev_through h ih .operatorArithmetic
  · ev_through h ih .operatorRelational
  · ev_through h ih .operatorLogical

theorem safe_operation (h : Line cfg .operation r line) (ih : AllInside cfg r) :
    Ends cfg (evOperation r) (Delivers .operation r) := by
  ev_lines h hm
  rcases hm with rfl | rfl | rfl <;> ev_if h evOperation <;> (try ev_if2 h)
  · ev_through h ih .operationWithSuffix
  · ev_need h ih .operationFuncCalls
    ev_fin
  · ev_through h ih .operation

theorem safe_operationElement (h : Line cfg .operationElement r line) (ih : AllInside cfg r) :
    Ends cfg (evOperationElement r) (Delivers .operationElement r) := by
  ev_lines h hm
  rcases hm with rfl | rfl | rfl | rfl <;> ev_if h evOperationElement
  · ev_need h ih .boolValue
    simp only [boolOf, step, show (boolFlag &&& boolFlag = 0) = False by decide, if_false]
    ev_opt h ih .variableName
    ev_opt h ih .computableValue
    ev_opt h ih .operation
    ev_fin
  all_goals
    ev_opt h ih .variableName
    ev_opt h ih .computableValue
    ev_opt h ih .operation
    ev_fin

theorem safe_assigneeName (h : Line cfg .assigneeName r line) (ih : AllInside cfg r) :
    Ends cfg (evAssigneeName r) (Delivers .assigneeName r) := by
  ev_lines h hm
  rcases hm with rfl | rfl <;> ev_opt h ih .variableName
  · rename_i s hs
    refine ends_ret' ?_
    simp only [assigneeNameNow, textOr, Option.getD_some, if_neg hs, ne_eq, hs, not_false_eq_true, if_true]
    exact ⟨_, rfl, goodAt (by decide) ⟨_, rfl⟩⟩
  · have h2 : r.exists (lit "UNDERSCORE") = true := by ev_yes h
    rw [h2]
    ev_fin

theorem safe_totalListValue (h : Line cfg .totalListValue r line) (ih : AllInside cfg r) :
    Ends cfg (evTotalListValue r) (Delivers .totalListValue r) := by
  ev_lines h hm
  rcases hm with rfl | rfl <;> ev_opt h ih .totalListAssignable <;> ev_opt h ih .variableName
  · rename_i s hs
    refine ends_ret (a := .var s) ?_ (goodAt (by decide) ⟨_, rfl⟩)
    simp [totalListValueNow, textOr, hs]
  · ev_fin

theorem safe_listValue (h : Line cfg .listValue r line) (ih : AllInside cfg r) :
    Ends cfg (evListValue r) (Delivers .listValue r) := by
  ev_lines h hm
  rcases hm with rfl | rfl <;> ev_opt h ih .listAssignable <;> ev_opt h ih .variableName
  · ev_fin
  · rename_i s hs
    refine ends_ret (a := .var s) ?_ (goodAt (by decide) ⟨_, rfl⟩)
    simp [listValueNow, textOr, hs]

theorem safe_variableDeclaration (h : Line cfg .variableDeclaration r line) (ih : AllInside cfg r) :
    Ends cfg (evVariableDeclaration r) (Delivers .variableDeclaration r) := by
  ev_lines h hm
  subst hm
  refine ends_call_tok h ih .declarativeType (by ev_yes h) fun l1 hl1 hg1 => ?_
  refine ends_call_tok h ih .variableName (by ev_yes h) fun l2 hl2 hg2 => ?_
  obtain ⟨x1, l1, rfl⟩ := List.exists_cons_of_ne_nil hl1
  obtain ⟨x2, l2, rfl⟩ := List.exists_cons_of_ne_nil hl2
  obtain ⟨y1, rfl⟩ := hg1 x1 (by simp)
  obtain ⟨y2, rfl, hy⟩ := hg2 x2 (by simp)
  refine ends_ret (a := ⟨y1, y2⟩) ?_ (goodAt (by decide) ⟨_, rfl⟩)
  simp [varDeclNow, hy]

theorem ends_type_no {name : Str} {f : List V → TypeState → Out TypeState} {s : TypeState} {p : TypeState → P}
    (he : r.exists name = false) (hk : Ends cfg (p s) Q) : Ends cfg (typePart name r f s p) Q := by
  rw [typePart, if_neg (by simp [he])]
  exact hk

theorem ends_type_yes (h : Line cfg k r line) (ih : AllInside cfg r) (k' : Kind) {f : List V → TypeState → Out TypeState}
    {s : TypeState} {p : TypeState → P} (he : r.exists k'.name = true)
    (hk : ∀ v l, Good k' v → ∃ s', f (v :: l) s = .ok s' ∧ Ends cfg (p s') Q) : Ends cfg (typePart k'.name r f s p) Q := by
  rw [typePart, if_pos he]
  refine ends_call_tok h ih k' he fun l hl hg => ?_
  obtain ⟨x, l, rfl⟩ := List.exists_cons_of_ne_nil hl
  obtain ⟨s', h1, h2⟩ := hk x l (hg x (by simp))
  simpa only [h1, step] using h2

theorem safe_declarativeType (h : Line cfg .declarativeType r line) (ih : AllInside cfg r) :
    Ends cfg (evDeclarativeType r) (Delivers .declarativeType r) := by
  ev_lines h hm
  rcases hm with rfl | rfl | rfl
  · refine ends_type_yes h ih .primitiveType (by ev_yes h) ?_
    rintro v l ⟨x, rfl⟩
    refine ⟨_, rfl, ends_type_no (by ev_no h) (ends_type_no (by ev_no h) ?_)⟩
    ev_fin
  · refine ends_type_no (by ev_no h) (ends_type_yes h ih .computableType (by ev_yes h) ?_)
    rintro v l ⟨x, rfl⟩
    refine ⟨_, rfl, ends_type_no (by ev_no h) ?_⟩
    ev_fin
  · refine ends_type_no (by ev_no h) (ends_type_no (by ev_no h) (ends_type_yes h ih .listType (by ev_yes h) ?_))
    rintro v l ⟨x, rfl⟩
    refine ⟨_, rfl, ?_⟩
    ev_fin

theorem safe_listElementFetcher (h : Line cfg .listElementFetcher r line) (ih : AllInside cfg r) :
    Ends cfg (evListElementFetcher r) (Delivers .listElementFetcher r) := by
  ev_lines h hm
  subst hm
  refine ends_pass_of h ih .indexValue (by ev_yes h) ?_ (fun _ hv => goodAt (by decide) hv)
  intro n hn hat _
  have hm : n ∈ r.nodes := by
    rcases hat.2 with hat | ⟨k1, card, _, _, _, h2, h3, _⟩
    · exact hat
    · simp only [List.mem_cons, List.not_mem_nil, or_false, Prod.mk.injEq, reduceCtorEq, false_and, Sym.tok.injEq, false_or] at h2
      exact absurd (by rw [h2.1]) h3
  obtain ⟨_, p, hp, hp2, hp3⟩ := h.tokNode (k' := .indexValue) hm hn
  simp only [List.mem_cons, List.not_mem_nil, or_false] at hp
  rcases hp with rfl | rfl | rfl
  · exact absurd (hp2.symm.trans hn) (by decide)
  · exact Nat.le_of_eq hp3
  · exact absurd (hp2.symm.trans hn) (by decide)

/-- The tokens which cannot contain several names. -/
def noNames : List Kind := allKinds.filter fun k => k ≠ .program && k ≠ .instructions && k ≠ .instruction && k ≠ .forDeclaration &&
  k ≠ .ifDeclaration && k ≠ .forStatement && k ≠ .assignment && k ≠ .assignee && k ≠ .assigneeNames

theorem noNames_closed : ∀ k ∈ noNames, ∀ line ∈ grammar k, ∀ p ∈ line, ∀ k' ∈ allKinds, p.1 = .tok k' → k' ∈ noNames := by
  decide +kernel

theorem reach_noNames {k k' : Kind} (h : Reach k k') (hk : k ∈ noNames) : k' ∈ noNames := by
  induction h with
  | refl => exact hk
  | tail h1 h2 _ ih => exact ih (noNames_closed _ hk _ h1 _ h2 _ (mem_all _) rfl)

theorem safe_forStatement (h : Line cfg .forStatement r line) (ih : AllInside cfg r) :
    Ends cfg (evForStatement r) (Delivers .forStatement r) := by
  ev_lines h hm
  rcases hm with rfl | rfl <;> ev_if h evForStatement
  · rw [opt, if_pos (by ev_yes h)]
    refine ends_call fun x hx => ?_
    obtain ⟨n, l, rfl, hl, hn, hat, hf, -⟩ := trigger_tok (k' := .assigneeNames) h ih (by ev_yes h) hx
    have hm : n ∈ r.nodes := by
      rcases hat.2 with hat | ⟨k1, card, k2, u, line2, h2, h3, h4, h5, h6, h7⟩
      · exact hat
      · simp only [List.mem_cons, List.not_mem_nil, or_false, Prod.mk.injEq, reduceCtorEq, false_and, Sym.tok.injEq, false_or] at h2
        rcases h2 with h2 | h2
        · exact absurd (by rw [h2.1]) h3
        · rw [h2.1] at h4
          have h8 := reach_noNames h4 (by decide +kernel)
          obtain ⟨-, ⟨s, card⟩, h9, h10, -⟩ := h5.tokNode (k' := .assigneeNames) h7 hn
          cases s with
          | rule s => exact absurd (h10.symm.trans hn) (rule_ne_kind h5.mem h9)
          | tok k3 =>
            have : k3 = .assigneeNames := name_inj (h10.symm.trans hn)
            subst this
            exact absurd (noNames_closed _ h8 _ h5.mem _ h9 _ (mem_all _) rfl) (by decide +kernel)
    refine ⟨l, rfl, ?_⟩
    obtain ⟨x, l, rfl⟩ := List.exists_cons_of_ne_nil hl
    generalize hcs : n.containers = cs at hf
    cases hf with
    | @cons c _ cs' _ h1 _ =>
      obtain ⟨u, hu, _, h5, _⟩ := h1
      have h6 := h.specifier n hm hn c (by simp [hcs]) u hu
      obtain ⟨a, b, m, rfl⟩ := h5.2 rfl h6
      simp only [assertFirst, assert, asAssigneeNames, step, firstTwo, bind, Out.bind, pure]
      ev_opt h ih .totalListValue
      ev_fin
  · ev_through h ih .forStatement

/-- All the events deliver. -/
theorem delivers (cfg : Cfg) (k : Kind) (r : Root) (h : Conf cfg k r) : Ends cfg (evOf cfg k r) (Delivers k r) := by
  induction hs : sizeOf r using Nat.strongRecOn generalizing r k with
  | _ s ih =>
    subst hs
    have ih : AllInside cfg r := fun k u hu hc o ho => ih _ (sizeOf_inside hu) k u hc rfl o ho
    obtain ⟨line, h⟩ := h.line
    cases k with
    | program => exact safe_program h ih
    | headerVariables => exact safe_headerVariables h ih
    | headerVariable => exact safe_headerVariable h ih
    | inputOutput => exact safe_inputOutput h ih
    | instructions => exact safe_instructions h ih
    | instruction => exact safe_instruction h ih
    | direction => exact safe_direction h
    | voidFuncCalls => exact safe_voidFuncCalls h ih
    | logFuncCall => exact safe_logFuncCall h ih
    | listAppend => exact safe_listAppend h ih
    | slice => exact safe_slice h ih
    | sliceDelimiter => exact safe_sliceDelimiter h ih
    | indexValue => exact safe_indexValue h ih
    | forDeclaration => exact safe_forDeclaration h ih
    | forStatement => exact safe_forStatement h ih
    | ifDeclaration => exact safe_ifDeclaration h ih
    | ifOperation => exact safe_ifOperation h ih
    | operation => exact safe_operation h ih
    | operationWithSuffix => exact safe_operationWithSuffix h ih
    | operationSuffix => exact safe_operationSuffix h ih
    | operationElement => exact safe_operationElement h ih
    | operationFuncCalls => exact safe_operationFuncCalls h ih
    | isNullFuncCall => exact safe_isNullFuncCall h ih
    | operator => exact safe_operator h ih
    | operatorArithmetic => exact safe_operatorArithmetic h ih
    | operatorRelational => exact safe_operatorRelational h ih
    | operatorLogical => exact safe_operatorLogical h ih
    | assignment => exact safe_assignment h ih
    | assignee => exact safe_assignee h ih
    | assigneeNameFirsts => exact safe_assigneeNameFirsts h ih
    | commaAssigneeFirst => exact safe_commaAssigneeFirst h ih
    | assigneeNameFirst => exact safe_assigneeNameFirst h ih
    | assigneeNames => exact safe_assigneeNames h ih
    | commaAssigneeName => exact safe_commaAssigneeName h ih
    | assigneeName => exact safe_assigneeName h ih
    | assignables => exact safe_assignables h ih
    | commaAssignable => exact safe_commaAssignable h ih
    | assignable => exact safe_assignable h ih
    | singleAssignable => exact safe_singleAssignable h ih
    | listFetchElement => exact safe_listFetchElement h ih
    | listElementFetcher => exact safe_listElementFetcher h ih
    | listAssignableToAssignables => exact safe_listAssignableToAssignables h ih
    | totalListValue => exact safe_totalListValue h ih
    | totalListAssignable => exact safe_totalListAssignable h ih
    | listValue => exact safe_listValue h ih
    | listAssignable => exact safe_listAssignable h ih
    | intIncrement => exact safe_intIncrement h ih
    | intIncrementValue => exact safe_intIncrementValue h
    | declarableValue => exact safe_declarableValue h ih
    | computableValue => exact safe_computableValue h ih
    | primitiveValue => exact safe_primitiveValue h ih
    | stringValue => exact safe_stringValue h
    | boolValue => exact safe_boolValue h
    | intValue => exact safe_intValue h
    | floatValue => exact safe_floatValue h
    | variableDeclarations => exact safe_variableDeclarations h ih
    | commaVariableDeclaration => exact safe_commaVariableDeclaration h ih
    | variableDeclaration => exact safe_variableDeclaration h ih
    | declarativeType => exact safe_declarativeType h ih
    | listType => exact safe_listType h ih
    | primitiveType => exact safe_primitiveType h ih
    | computableType => exact safe_computableType h ih
    | variableName => exact safe_variableName h

end Verif.Base
