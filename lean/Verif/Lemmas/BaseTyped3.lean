import Verif.Lemmas.BaseTyped2

/-! # No event of the base language panics: the loop, and all the events together -/

namespace Verif.Base
open Verif.Patterns Verif.Lexer

variable {cfg : Cfg} {k ke : Kind} {r : Root}

/-- An event whose outcome is an error or a value with a property. -/
theorem events_with {k' : Kind} {u : Root} {S : V → Prop} (hS : ∀ v, S v → unwrap v = (none, v))
    (h : Ends cfg (evOf cfg k' u) fun o => o = .err ∨ ∃ v, S v ∧ (o = .ok v ∨ o = .ok (.result [v])))
    {x : Out (Option (List V) × V)} (hx : EventsRun (baseEvents cfg) k'.name u x) : x = .err ∨ ∃ v, x = .ok (none, v) ∧ S v := by
  cases hx with
  | none hg => exact .inl rfl
  | some hg hl =>
    rw [get_evOf] at hg
    simp only [Option.some.injEq] at hg
    subst hg
    cases hl with
    | fail hp hl => cases hl; exact .inl rfl
    | panic hp => rcases h _ hp with h | ⟨v, _, h | h⟩ <;> simp at h
    | ok hp =>
      right
      rcases h _ hp with h | ⟨v, hv, h | h⟩ <;> simp only [Out.ok.injEq, reduceCtorEq] at h <;> subst h
      · refine ⟨_, ?_, hv⟩; rw [hS _ hv]
      · exact ⟨_, rfl, hv⟩

theorem containers_with {k' : Kind} {cs : List RContainer} {S : V → Prop} (hS : ∀ v, S v → unwrap v = (none, v)) (hr : ∀ c ∈ cs, c.root ≠ none)
    (hc : ∀ c ∈ cs, ∀ u, c.root = some u → Ends cfg (evOf cfg k' u) fun o => o = .err ∨ ∃ v, S v ∧ (o = .ok v ∨ o = .ok (.result [v])))
    {x : Out (List V)} (hx : ContainersRun (baseEvents cfg) k'.name cs x) : x = .err ∨ ∃ l, x = .ok l ∧ l.length = cs.length ∧ ∀ v ∈ l, S v := by
  have one : ∀ c ∈ cs, ∀ x, ContainerRun (baseEvents cfg) k'.name c x → x = .err ∨ ∃ v, x = .ok (none, v) ∧ S v := by
    intro c hm x hx
    cases hx with
    | content h => exact absurd h (hr c hm)
    | root h hx => exact events_with hS (hc c hm _ h) hx
  induction cs generalizing x with
  | nil => cases hx; exact .inr ⟨[], rfl, rfl, by simp⟩
  | cons c cs ih =>
    have ih := fun {x} => ih (fun c h => hr c (by simp [h])) (fun c h => hc c (by simp [h])) (x := x) (one := fun c h => one c (by simp [h]))
    cases hx with
    | err h => exact .inl rfl
    | panic h => rcases one c (by simp) _ h with h | ⟨_, h, _⟩ <;> simp at h
    | cons h hs =>
      rcases one c (by simp) _ h with h | ⟨v, h, hv⟩
      · simp at h
      rcases ih hs with h' | ⟨l, h', hl, hl'⟩
      · simp at h'
      simp only [Out.ok.injEq] at h h'
      subst h h'
      exact .inr ⟨_, rfl, by simp [hl], by simpa using ⟨hv, hl'⟩⟩
    | consErr _ hs => exact .inl rfl
    | consPanic _ hs => rcases ih hs with h | ⟨_, h, _⟩ <;> simp at h

/-- The tokens in a loop statement. -/
def loopKinds : List Kind := .forStatement :: .assigneeNames :: .commaAssigneeName :: .assigneeName :: exprKinds

theorem loopKinds_closed : ∀ k ∈ loopKinds, ∀ line ∈ grammar k, ∀ p ∈ line, ∀ k' ∈ allKinds, p.1 = .tok k' → k' ∈ loopKinds := by
  decide +kernel

theorem reach_loopKinds {k k' : Kind} (h : Reach k k') (hk : k ∈ loopKinds) : k' ∈ loopKinds := by
  induction h with
  | refl => exact hk
  | tail h1 h2 _ ih => exact ih (loopKinds_closed _ hk _ h1 _ h2 _ (mem_all _) rfl)

theorem mentions_names : ∀ k ∈ allKinds, ∀ line ∈ grammar k, ∀ p ∈ line, p.1 = .tok .assigneeNames → k = .forStatement ∨ k = .assignee := by
  decide +kernel

section
variable (h : BuiltAs k r) (ih : InsideFine cfg r)
include h ih

theorem fine_forStatement (ha : k = .assignee → r.exists (lit "assigneeNames") = false) : Ends cfg (evForStatement r) (Fine .forStatement r) := by
  unfold evForStatement
  split
  · through h ih .forStatement
  · have rest : ∀ p : Option (AssigneeName × AssigneeName), Ends cfg (opt (lit "totalListValue") r asTotalValue fun t =>
        ret (forStatementNow (p.map Prod.fst) (p.map Prod.snd) t) .forStatement) (Fine .forStatement r) := by
      intro p
      may h ih .totalListValue <;> fin (forStatementNow_np _ _ _)
    unfold opt
    split
    · rename_i he
      have hk : k = .forStatement := by
        unfold Root.exists at he
        rw [List.any_eq_true] at he
        obtain ⟨n, hn, he'⟩ := he
        obtain ⟨⟨line, hl, card, hp⟩, _⟩ := h.tokens n hn .assigneeNames (of_decide_eq_true he')
        rcases mentions_names k (mem_all _) line hl _ hp rfl with h | h
        · exact h
        · have := ha h
          simp only [Root.exists, List.any_eq_false] at this
          exact absurd he' (this n hn)
      subst hk
      refine fine_call fun x hx => ?_
      rcases trigger_any h hx with rfl | ⟨n, y, r', k2, hn, hm, hr, hb, hre, hc, hor⟩
      · exact .inl rfl
      obtain ⟨⟨line, hl, card, hp⟩, _, _, ht⟩ := hb.tokens n hm .assigneeNames hn
      have hk2 : k2 = .forStatement := by
        rcases mentions_names k2 (mem_all _) line hl _ hp rfl with h | h
        · exact h
        · have := reach_loopKinds hre (by decide)
          rw [h] at this
          exact absurd this (by decide +kernel)
      subst hk2
      have key := containers_with (k' := .assigneeNames) (S := fun v => ∃ a b t, v = .other (.assigneeNames (a :: b :: t)))
        (by rintro v ⟨a, b, t, rfl⟩; rfl) (fun c hc => (ht c hc).1) (fun c hc u hu => by
          have hs := (ht c hc).2 u hu
          have hbu := hb.inside n hm c hc u hu
          obtain ⟨ku, hku⟩ := hbu.as
          have hin : Inside r u := inside_trans hr (inside_node hm hc hu)
          intro o ho
          rcases hs.names rfl rfl with ⟨_, h2⟩ | ⟨k3, h3, h4⟩
          · rcases ih .assigneeNames ku u hin hku (hs.allowed hku.name) o ho with h | ⟨v, hv, h⟩
            · exact .inl h
            · exact .inr ⟨v, hv.2 rfl h2, h⟩
          · have : ku = k3 := name_inj (hku.name.symm.trans h3)
            subst this
            exact .inl (expr_names hku (reach_exprKinds h4 (by decide +kernel)) o ho)) hc
      rcases key with rfl | ⟨l, rfl, hlen, hl2⟩
      · rcases hor with ⟨_, rfl⟩ | ⟨h, _⟩ | ⟨l, h, _⟩
        · exact .inl rfl
        · simp at h
        · simp at h
      · have hne : l ≠ [] := by
          intro e
          subst e
          exact (hb.containers n hm).1 (List.length_eq_zero_iff.mp hlen.symm)
        rcases hor with ⟨h, _⟩ | ⟨h, _⟩ | ⟨l', h, rfl⟩
        · simp at h
        · simp at h
        · simp only [Out.ok.injEq] at h
          subst h
          refine .inr ⟨_, resultNow_list hne, ?_⟩
          obtain ⟨v, l, rfl⟩ := List.exists_cons_of_ne_nil hne
          obtain ⟨a, b, t, rfl⟩ := hl2 v (by simp)
          simp only [assertFirst, assert, asAssigneeNames, step, firstTwo, Bind.bind, Out.bind, Pure.pure]
          exact rest _
    · simp only [step]
      exact rest none
end

/-- The event of every token on every tree it may be called with. -/
theorem fine_event (hf : ∀ s n, cfg.parseFloat s n ≠ .panic) (h : BuiltAs k r) (ih : InsideFine cfg r) (ha : Allowed ke k r) : Ends cfg (evOf cfg ke r) (Fine ke r) := by
  cases ke with
  | forStatement => exact fine_forStatement h ih (fun e => ha.loop rfl e)
  | listElementFetcher => exact fine_listElementFetcher h ih (ha.fetcher rfl)
  | floatValue => exact fine_floatValue h hf
  | program => exact fine_program h ih
  | headerVariables => exact fine_headerVariables h ih
  | headerVariable => exact fine_headerVariable h ih
  | inputOutput => exact fine_inputOutput
  | instructions => exact fine_instructions h ih
  | instruction => exact fine_instruction h ih
  | voidFuncCalls => exact fine_voidFuncCalls h ih
  | logFuncCall => exact fine_logFuncCall h ih
  | direction => exact fine_direction
  | forDeclaration => exact fine_forDeclaration h ih
  | ifDeclaration => exact fine_ifDeclaration h ih
  | ifOperation => exact fine_ifOperation h ih
  | assignment => exact fine_assignment h ih
  | assignee => exact fine_assignee h ih
  | assigneeNameFirsts => exact fine_assigneeNameFirsts h ih
  | commaAssigneeFirst => exact fine_commaAssigneeFirst h ih
  | assigneeNameFirst => exact fine_assigneeNameFirst h ih
  | assigneeNames => exact fine_assigneeNames h ih
  | commaAssigneeName => exact fine_commaAssigneeName h ih
  | assigneeName => exact fine_assigneeName h ih
  | slice => exact fine_slice h ih
  | assignables => exact fine_assignables h ih
  | commaAssignable => exact fine_commaAssignable h ih
  | assignable => exact fine_assignable h ih
  | singleAssignable => exact fine_singleAssignable h ih
  | listFetchElement => exact fine_listFetchElement h ih
  | listAssignableToAssignables => exact fine_listAssignableToAssignables h ih
  | totalListValue => exact fine_totalListValue h ih
  | totalListAssignable => exact fine_totalListAssignable h ih
  | listAppend => exact fine_listAppend h ih
  | listValue => exact fine_listValue h ih
  | listAssignable => exact fine_listAssignable h ih
  | sliceDelimiter => exact fine_sliceDelimiter h ih
  | indexValue => exact fine_indexValue h ih
  | operation => exact fine_operation h ih
  | operationFuncCalls => exact fine_operationFuncCalls h ih
  | isNullFuncCall => exact fine_isNullFuncCall h ih
  | operationWithSuffix => exact fine_operationWithSuffix h ih
  | operationSuffix => exact fine_operationSuffix h ih
  | operationElement => exact fine_operationElement h ih
  | operator => exact fine_operator h ih
  | operatorArithmetic => exact fine_operatorArithmetic
  | operatorRelational => exact fine_operatorRelational
  | operatorLogical => exact fine_operatorLogical
  | intIncrement => exact fine_intIncrement h ih
  | intIncrementValue => exact fine_intIncrementValue
  | declarableValue => exact fine_declarableValue h ih
  | computableValue => exact fine_computableValue h ih
  | primitiveValue => exact fine_primitiveValue h ih
  | stringValue => exact fine_stringValue h
  | boolValue => exact fine_boolValue
  | intValue => exact fine_intValue h
  | variableDeclarations => exact fine_variableDeclarations h ih
  | commaVariableDeclaration => exact fine_commaVariableDeclaration h ih
  | variableDeclaration => exact fine_variableDeclaration h ih
  | listType => exact fine_listType h ih
  | declarativeType => exact fine_declarativeType h ih
  | primitiveType => exact fine_primitiveType
  | computableType => exact fine_computableType
  | variableName => exact fine_variableName h

theorem insideFine (hf : ∀ s n, cfg.parseFloat s n ≠ .panic) (r : Root) : InsideFine cfg r := by
  induction hs : sizeOf r using Nat.strong_induction_on generalizing r with
  | _ s ih =>
    subst hs
    intro k' k u hu hb ha
    exact fine_event hf hb (ih _ (sizeOf_inside hu) u rfl) ha

/-- The event of a token on its own tree. -/
theorem own_fine (hf : ∀ s n, cfg.parseFloat s n ≠ .panic) (h : BuiltAs k r) : Ends cfg (evOf cfg k r) (Fine k r) :=
  fine_event hf h (insideFine hf r) ⟨fun e => e ▸ .refl _, fun e e' => by rw [e] at e'; cases e'⟩

theorem built_run (hf : ∀ s n, cfg.parseFloat s n ≠ .panic) (h : BuiltAs k r) (x : Out V) (hx : AppRun (some (baseEvents cfg)) r x) :
    x = .err ∨ ∃ v, x = .ok v ∧ Good k v := by
  have key : ∀ x, ExecuteRun (baseEvents cfg) r x → x = .err ∨ ∃ v, x = .ok [v] ∧ Good k v := by
    intro x hx
    have he := fun {x} => events_fine (x := x) (own_fine hf h)
    cases hx with
    | err _ => exact .inl rfl
    | panic hx => rw [h.name] at hx; rcases he hx with h | ⟨v, h, _⟩ <;> simp at h
    | ok hx =>
      rw [h.name] at hx
      rcases he hx with h | ⟨v, h, hv, _⟩
      · simp at h
      simp only [Out.ok.injEq] at h
      subst h
      exact .inr ⟨v, (good_plain hv).2, hv⟩
  have hmm : managerNow (some (baseEvents cfg)) = .ok (baseEvents cfg) := rfl
  cases hx with
  | noManager h => simp [managerNow, baseEvents] at h
  | err hm he => exact .inl rfl
  | panic hm he =>
    rw [hmm] at hm; simp only [Out.ok.injEq] at hm; subst hm
    rcases key _ he with h | ⟨v, h, _⟩ <;> simp at h
  | ok hm he =>
    rw [hmm] at hm; simp only [Out.ok.injEq] at hm; subst hm
    rcases key _ he with h | ⟨v, h, hv⟩
    · simp at h
    · simp only [Out.ok.injEq, List.cons.injEq] at h
      obtain ⟨rfl, _⟩ := h
      exact .inr ⟨_, rfl, hv⟩

end Verif.Base
