import Verif.Lemmas.BaseMeaning
import Verif.Lemmas.BaseReads
import Verif.Lemmas.BaseCheck
import Verif.Props.BaseParser

/-!
# C73, C78, C80: what the parser of the base language reads
-/

namespace Verif.Base
open Verif.Patterns Verif.Lexer

/-! ## C80: blocks of instructions -/

/-- C80: the instructions of the program are the readings of the instructions in the tree, all of them and in their order. -/
theorem C80_program (cfg : Cfg) (r : Root) (h : Conf cfg .program r) (p : Program)
    (hx : AppRun (some (baseEvents cfg)) r (.ok (.other (.program p)))) : BlockOf cfg r p.instructions := by
  obtain ⟨ev, l, h1, _, hx⟩ := (C48_application _ _ _).mp hx
  simp only [Option.some.injEq] at h1
  subst h1
  obtain ⟨v, h2, _⟩ := C79_token cfg .program r h _ hx
  simp only [Out.ok.injEq, List.cons.injEq] at h2
  obtain ⟨rfl, rfl⟩ := h2
  obtain ⟨hy, _⟩ := (exec_iff h _).mp hx
  obtain ⟨line, hl⟩ := h.line
  have hl' := hl
  ev_lines hl hm
  subst hm
  have key : ∀ o, ProgRun (baseEvents cfg) (evProgram r) o → ∃ p, BlockOf cfg r p.instructions ∧ o = .ok (.other (.program p)) := by
    intro o ho
    obtain ⟨u, v, h3, h4, h5, ⟨l, rfl⟩, ho⟩ := run_need_own (k' := .instructions) hl' (own_found hl' (by decide +kernel)) (by decide +kernel) (by ev_yes hl') ho
    simp only [assert, asInstructions, step] at ho
    obtain ⟨us, h6, h7⟩ := run_instructions h4 h5
    rcases run_opt_own (k' := .headerVariables) hl' (own_found hl' (by decide +kernel)) (by decide +kernel) ho with ⟨_, ho⟩ | ⟨_, _, _, _, _, ⟨hs, rfl⟩, ho⟩
    · exact ⟨⟨l, none⟩, ⟨u, us, h3, h6, h7⟩, (run_done _ _).mp ho⟩
    · exact ⟨⟨l, some hs⟩, ⟨u, us, h3, h6, h7⟩, (run_done _ _).mp ho⟩
  rcases hy with hy | hy
  · obtain ⟨p', h1, h2⟩ := key _ hy
    simp only [Out.ok.injEq, Val.other.injEq, BVal.program.injEq] at h2
    exact h2 ▸ h1
  · obtain ⟨p', h1, h2⟩ := key _ hy
    simp at h2

/-- C80: the same for the instructions of an if declaration; its condition is the reading of the part for it in the tree, provided that there is no such part
in the instructions (no nested if, see C74). -/
theorem C80_if (cfg : Cfg) (r : Root) (h : Conf cfg .ifDeclaration r) (c : Operation) (body : Option (List Instruction))
    (hx : ExecuteRun (baseEvents cfg) r (.ok [.other (.ifDecl (c, body))])) :
    (body = none → r.exists (lit "instructions") = false) ∧ (∀ l, body = some l → BlockOf cfg r l) ∧
    ((∀ n ∈ r.nodes, n.name = lit "instructions" → ∀ f, ReachNode n f → f.name ≠ lit "ifOperation") →
      ∃ u, Child r (lit "ifOperation") u ∧ ExecuteRun (baseEvents cfg) u (.ok [.other (.operation c)])) := by
  obtain ⟨hy, _⟩ := (exec_iff h _).mp hx
  obtain ⟨line, hl⟩ := h.line
  have hl' := hl
  ev_lines hl hm
  subst hm
  have he : r.exists Kind.ifOperation.name = true := by ev_yes hl'
  have rest : ∀ c o, ProgRun (baseEvents cfg) (opt (lit "instructions") r asInstructions fun l => ret (ifDeclarationNow (some c) l) .ifDecl) o →
      ∃ body, o = .ok (.other (.ifDecl (c, body))) ∧ (body = none → r.exists (lit "instructions") = false) ∧
        ∀ l, body = some l → BlockOf cfg r l := by
    intro c o ho
    rcases run_opt_own (k' := .instructions) hl' (own_found hl' (by decide +kernel)) (by decide +kernel) ho with ⟨h3, ho⟩ | ⟨u2, _, h3, h4, h5, ⟨l, rfl⟩, ho⟩
    · exact ⟨none, (run_done _ _).mp ho, fun _ => h3, by simp⟩
    · refine ⟨some l, (run_done _ _).mp ho, by simp, ?_⟩
      rintro _ ⟨⟩
      obtain ⟨us, h6, h7⟩ := run_instructions h4 h5
      exact ⟨u2, us, h3, h6, h7⟩
  have key : ∀ o, ProgRun (baseEvents cfg) (evIfDeclaration r) o → ∃ c body, o = .ok (.other (.ifDecl (c, body))) ∧
      (body = none → r.exists (lit "instructions") = false) ∧ (∀ l, body = some l → BlockOf cfg r l) ∧
      ((∀ n ∈ r.nodes, n.name = lit "instructions" → ∀ f, ReachNode n f → f.name ≠ lit "ifOperation") →
        ∃ u, Child r (lit "ifOperation") u ∧ ExecuteRun (baseEvents cfg) u (.ok [.other (.operation c)])) := by
    intro o ho
    rw [evIfDeclaration, opt, if_pos (show r.exists (lit "ifOperation") = true from he)] at ho
    by_cases hclear : ∀ n ∈ r.nodes, n.name = lit "instructions" → ∀ f, ReachNode n f → f.name ≠ lit "ifOperation"
    · have hown := own_clear (k' := .ifOperation) (k2 := .instructions) hl' (by simp) hclear
      obtain ⟨u, v, h1, h2, h3, ⟨c, rfl⟩, ho⟩ := run_need_own (k' := .ifOperation) hl' hown (by decide +kernel) he ho
      obtain ⟨body, h4, h5, h6⟩ := rest c o ho
      exact ⟨c, body, h4, h5, h6, fun _ => ⟨u, h1, h3⟩⟩
    · obtain ⟨v, ⟨c, rfl⟩, ho⟩ := run_need_any hl' he ho
      obtain ⟨body, h4, h5, h6⟩ := rest c o ho
      exact ⟨c, body, h4, h5, h6, fun h => absurd h hclear⟩
  rcases hy with hy | hy
  · obtain ⟨c', body', h1, h2⟩ := key _ hy
    simp only [Out.ok.injEq, Val.other.injEq, BVal.ifDecl.injEq, Prod.mk.injEq] at h1
    obtain ⟨rfl, rfl⟩ := h1
    exact h2
  · obtain ⟨c', body', h1, h2⟩ := key _ hy
    simp at h1

/-- C80: the same for the instructions of a for declaration; its statement is the reading of the part for it in the tree, provided that there is no such part
in the instructions (no nested for, see C74). -/
theorem C80_for (cfg : Cfg) (r : Root) (h : Conf cfg .forDeclaration r) (c : ForStatement) (body : Option (List Instruction))
    (hx : ExecuteRun (baseEvents cfg) r (.ok [.other (.forDecl (c, body))])) :
    (body = none → r.exists (lit "instructions") = false) ∧ (∀ l, body = some l → BlockOf cfg r l) ∧
    ((∀ n ∈ r.nodes, n.name = lit "instructions" → ∀ f, ReachNode n f → f.name ≠ lit "forStatement") →
      ∃ u, Child r (lit "forStatement") u ∧ ExecuteRun (baseEvents cfg) u (.ok [.other (.forStatement c)])) := by
  obtain ⟨hy, _⟩ := (exec_iff h _).mp hx
  obtain ⟨line, hl⟩ := h.line
  have hl' := hl
  ev_lines hl hm
  subst hm
  have he : r.exists Kind.forStatement.name = true := by ev_yes hl'
  have rest : ∀ c o, ProgRun (baseEvents cfg) (opt (lit "instructions") r asInstructions fun l => ret (forDeclarationNow (some c) l) .forDecl) o →
      ∃ body, o = .ok (.other (.forDecl (c, body))) ∧ (body = none → r.exists (lit "instructions") = false) ∧
        ∀ l, body = some l → BlockOf cfg r l := by
    intro c o ho
    rcases run_opt_own (k' := .instructions) hl' (own_found hl' (by decide +kernel)) (by decide +kernel) ho with ⟨h3, ho⟩ | ⟨u2, _, h3, h4, h5, ⟨l, rfl⟩, ho⟩
    · exact ⟨none, (run_done _ _).mp ho, fun _ => h3, by simp⟩
    · refine ⟨some l, (run_done _ _).mp ho, by simp, ?_⟩
      rintro _ ⟨⟩
      obtain ⟨us, h6, h7⟩ := run_instructions h4 h5
      exact ⟨u2, us, h3, h6, h7⟩
  have key : ∀ o, ProgRun (baseEvents cfg) (evForDeclaration r) o → ∃ c body, o = .ok (.other (.forDecl (c, body))) ∧
      (body = none → r.exists (lit "instructions") = false) ∧ (∀ l, body = some l → BlockOf cfg r l) ∧
      ((∀ n ∈ r.nodes, n.name = lit "instructions" → ∀ f, ReachNode n f → f.name ≠ lit "forStatement") →
        ∃ u, Child r (lit "forStatement") u ∧ ExecuteRun (baseEvents cfg) u (.ok [.other (.forStatement c)])) := by
    intro o ho
    by_cases hclear : ∀ n ∈ r.nodes, n.name = lit "instructions" → ∀ f, ReachNode n f → f.name ≠ lit "forStatement"
    · have hown := own_clear (k' := .forStatement) (k2 := .instructions) hl' (by simp) hclear
      obtain ⟨u, v, h1, h2, h3, ⟨c, rfl⟩, ho⟩ := run_need_own (k' := .forStatement) hl' hown (by decide +kernel) he ho
      obtain ⟨body, h4, h5, h6⟩ := rest c o ho
      exact ⟨c, body, h4, h5, h6, fun _ => ⟨u, h1, h3⟩⟩
    · obtain ⟨v, ⟨c, rfl⟩, ho⟩ := run_need_any hl' he ho
      obtain ⟨body, h4, h5, h6⟩ := rest c o ho
      exact ⟨c, body, h4, h5, h6, fun h => absurd h hclear⟩
  rcases hy with hy | hy
  · obtain ⟨c', body', h1, h2⟩ := key _ hy
    simp only [Out.ok.injEq, Val.other.injEq, BVal.forDecl.injEq, Prod.mk.injEq] at h1
    obtain ⟨rfl, rfl⟩ := h1
    exact h2
  · obtain ⟨c', body', h1, h2⟩ := key _ hy
    simp at h1

/-! ## C78: types -/

/-- C78: the type of a tree is the written one: the number of surrounding `list<…>`, and the flag of the innermost type. -/
theorem C78_type (cfg : Cfg) (r : Root) (h : Conf cfg .declarativeType r) (x : Out (List V)) (hx : ExecuteRun (baseEvents cfg) r x) :
    ∃ d f, x = .ok [.other (.typ ⟨d, f⟩)] ∧ TypeTree r d f := by
  obtain ⟨v, rfl, ⟨d, f⟩, rfl⟩ := C79_token cfg _ r h x hx
  refine ⟨d, f, rfl, ?_⟩
  induction hs : sizeOf r using Nat.strongRecOn generalizing r d f with
  | _ s ih =>
    subst hs
    have := exec_reads h hx (Q := fun v => ∃ d f, v = .other (.typ ⟨d, f⟩) ∧ TypeTree r d f) (by
      intro o ho
      change ProgRun (baseEvents cfg) (evDeclarativeType r) o at ho
      rw [evDeclarativeType] at ho
      obtain ⟨line, hl⟩ := h.line
      have hl' := hl
      ev_lines hl hm
      rcases hm with rfl | rfl | rfl
      · obtain ⟨u, v, h1, h2, h3, ⟨f, rfl⟩, ho⟩ := run_type_own (k' := .primitiveType) hl' (by decide +kernel) (by decide +kernel) (by ev_yes hl') ho
        have ho := run_type_no (by ev_no hl') (run_type_no (by ev_no hl') ho)
        refine ⟨_, .inl ((run_done _ _).mp ho), by simp, 0, f, rfl, ?_⟩
        rcases flag_primitive h2 h3 with ⟨h4, rfl⟩ | ⟨h4, rfl⟩
        · exact .bool h1 h4
        · exact .string h1 h4
      · have ho := run_type_no (by ev_no hl') ho
        obtain ⟨u, v, h1, h2, h3, ⟨f, rfl⟩, ho⟩ := run_type_own (k' := .computableType) hl' (by decide +kernel) (by decide +kernel) (by ev_yes hl') ho
        have ho := run_type_no (by ev_no hl') ho
        refine ⟨_, .inl ((run_done _ _).mp ho), by simp, 0, f, rfl, ?_⟩
        rcases flag_computable h2 h3 with ⟨h4, rfl⟩ | ⟨h4, rfl⟩ | ⟨h4, rfl⟩
        · exact .float h1 h4
        · exact .uint h1 h4
        · exact .int h1 h4
      · have ho := run_type_no (by ev_no hl') (run_type_no (by ev_no hl') ho)
        obtain ⟨u, v, h1, h2, h3, ⟨⟨d, f⟩, rfl⟩, ho⟩ := run_type_own (k' := .listType) hl' (by decide +kernel) (by decide +kernel) (by ev_yes hl') ho
        refine ⟨_, .inl ((run_done _ _).mp ho), by simp, d + 1, f, rfl, ?_⟩
        have := exec_reads h2 h3 (Q := fun v => ∀ d f, v = .other (.typ ⟨d, f⟩) → TypeTree r (d + 1) f) (by
          intro o ho
          obtain ⟨line, hl⟩ := h2.line
          have hl' := hl
          ev_lines hl hm
          subst hm
          obtain ⟨u2, v, h4, h5, h6, ⟨⟨d, f⟩, rfl⟩, rfl⟩ := run_pass_own (k' := .declarativeType) hl' (own_found hl' (by decide +kernel)) (by decide +kernel) (by ev_yes hl') ho
          refine ⟨_, .inr rfl, by simp, ?_⟩
          rintro d f ⟨⟩
          exact .list h1 h4 (ih _ (Nat.lt_trans (inside_child h4) (inside_child h1)) u2 h5 d f h6 rfl))
        exact this d f rfl)
    obtain ⟨d', f', h1, h2⟩ := this
    simp only [Val.other.injEq, BVal.typ.injEq, Typ.mk.injEq] at h1
    obtain ⟨rfl, rfl⟩ := h1
    exact h2

/-- C78: a conforming tree writes one type. -/
theorem C78_one (cfg : Cfg) (r : Root) (h : Conf cfg .declarativeType r) (d d' f f' : Nat) (h1 : TypeTree r d f) (h2 : TypeTree r d' f') :
    d = d' ∧ f = f' := by
  have single : ∀ u, Conf cfg .primitiveType u → u.exists (lit "BOOL") = true → u.exists (lit "STRING") = true → False := by
    intro u hu e1 e2
    obtain ⟨line, hl⟩ := hu.line
    have hl' := hl
    ev_lines hl hm
    rcases hm with rfl | rfl
    · have : u.exists (lit "STRING") = false := by ev_no hl'
      simp [e2] at this
    · have : u.exists (lit "BOOL") = false := by ev_no hl'
      simp [e1] at this
  have computable : ∀ u, Conf cfg .computableType u → (u.exists (lit "FLOAT") = true → u.exists (lit "UINT") = false ∧ u.exists (lit "INT") = false) ∧
      (u.exists (lit "UINT") = true → u.exists (lit "INT") = false) := by
    intro u hu
    obtain ⟨line, hl⟩ := hu.line
    have hl' := hl
    ev_lines hl hm
    rcases hm with rfl | rfl | rfl
    · exact ⟨fun _ => ⟨by ev_no hl', by ev_no hl'⟩, fun _ => by ev_no hl'⟩
    · have : u.exists (lit "FLOAT") = false := by ev_no hl'
      exact ⟨fun e => by simp [e] at this, fun _ => by ev_no hl'⟩
    · have h1 : u.exists (lit "FLOAT") = false := by ev_no hl'
      have h2 : u.exists (lit "UINT") = false := by ev_no hl'
      exact ⟨fun e => by simp [e] at h1, fun e => by simp [e] at h2⟩
  have kinds : ∀ r, Conf cfg .declarativeType r → ¬ (r.exists (lit "primitiveType") = true ∧ r.exists (lit "computableType") = true) ∧
      ¬ (r.exists (lit "primitiveType") = true ∧ r.exists (lit "listType") = true) ∧
      ¬ (r.exists (lit "computableType") = true ∧ r.exists (lit "listType") = true) := by
    intro r hr
    obtain ⟨line, hl⟩ := hr.line
    have hl' := hl
    ev_lines hl hm
    rcases hm with rfl | rfl | rfl
    · have e1 : r.exists (lit "computableType") = false := by ev_no hl'
      have e2 : r.exists (lit "listType") = false := by ev_no hl'
      simp [e1, e2]
    · have e1 : r.exists (lit "primitiveType") = false := by ev_no hl'
      have e2 : r.exists (lit "listType") = false := by ev_no hl'
      simp [e1, e2]
    · have e1 : r.exists (lit "computableType") = false := by ev_no hl'
      have e2 : r.exists (lit "primitiveType") = false := by ev_no hl'
      simp [e1, e2]
  induction h1 generalizing d' f' with
  | @bool r u hc he =>
    have hk := kinds r h
    have hu := part_conf (k' := .primitiveType) h hc
    have e0 := child_exists hc
    cases h2 with
    | bool hc' he' => exact ⟨rfl, rfl⟩
    | string hc' he' =>
      obtain rfl := child_one h hc hc'
      exact absurd he' (by simpa using single u hu he)
    | float hc' he' => exact absurd ⟨e0, child_exists hc'⟩ hk.1
    | uint hc' he' => exact absurd ⟨e0, child_exists hc'⟩ hk.1
    | int hc' he' => exact absurd ⟨e0, child_exists hc'⟩ hk.1
    | list hc' hc2' h2' => exact absurd ⟨e0, child_exists hc'⟩ hk.2.1
  | @string r u hc he =>
    have hk := kinds r h
    have hu := part_conf (k' := .primitiveType) h hc
    have e0 := child_exists hc
    cases h2 with
    | bool hc' he' =>
      obtain rfl := child_one h hc hc'
      exact absurd he (by simpa using single u hu he')
    | string hc' he' => exact ⟨rfl, rfl⟩
    | float hc' he' => exact absurd ⟨e0, child_exists hc'⟩ hk.1
    | uint hc' he' => exact absurd ⟨e0, child_exists hc'⟩ hk.1
    | int hc' he' => exact absurd ⟨e0, child_exists hc'⟩ hk.1
    | list hc' hc2' h2' => exact absurd ⟨e0, child_exists hc'⟩ hk.2.1
  | @float r u hc he =>
    have hk := kinds r h
    have hu := part_conf (k' := .computableType) h hc
    have e0 := child_exists hc
    cases h2 with
    | bool hc' he' => exact absurd ⟨child_exists hc', e0⟩ hk.1
    | string hc' he' => exact absurd ⟨child_exists hc', e0⟩ hk.1
    | float hc' he' => exact ⟨rfl, rfl⟩
    | uint hc' he' =>
      obtain rfl := child_one h hc hc'
      have := computable u hu
      simp_all
    | int hc' he' =>
      obtain rfl := child_one h hc hc'
      have := computable u hu
      simp_all
    | list hc' hc2' h2' => exact absurd ⟨e0, child_exists hc'⟩ hk.2.2
  | @uint r u hc he =>
    have hk := kinds r h
    have hu := part_conf (k' := .computableType) h hc
    have e0 := child_exists hc
    cases h2 with
    | bool hc' he' => exact absurd ⟨child_exists hc', e0⟩ hk.1
    | string hc' he' => exact absurd ⟨child_exists hc', e0⟩ hk.1
    | float hc' he' =>
      obtain rfl := child_one h hc hc'
      have := computable u hu
      simp_all
    | uint hc' he' => exact ⟨rfl, rfl⟩
    | int hc' he' =>
      obtain rfl := child_one h hc hc'
      have := computable u hu
      simp_all
    | list hc' hc2' h2' => exact absurd ⟨e0, child_exists hc'⟩ hk.2.2
  | @int r u hc he =>
    have hk := kinds r h
    have hu := part_conf (k' := .computableType) h hc
    have e0 := child_exists hc
    cases h2 with
    | bool hc' he' => exact absurd ⟨child_exists hc', e0⟩ hk.1
    | string hc' he' => exact absurd ⟨child_exists hc', e0⟩ hk.1
    | float hc' he' =>
      obtain rfl := child_one h hc hc'
      have := computable u hu
      simp_all
    | uint hc' he' =>
      obtain rfl := child_one h hc hc'
      have := computable u hu
      simp_all
    | int hc' he' => exact ⟨rfl, rfl⟩
    | list hc' hc2' h2' => exact absurd ⟨e0, child_exists hc'⟩ hk.2.2
  | @list r u v d f hc hc2 _ ih =>
    have hk := kinds r h
    have hu := part_conf (k' := .listType) h hc
    have e0 := child_exists hc
    cases h2 with
    | bool hc' he' => exact absurd ⟨child_exists hc', e0⟩ hk.2.1
    | string hc' he' => exact absurd ⟨child_exists hc', e0⟩ hk.2.1
    | float hc' he' => exact absurd ⟨child_exists hc', e0⟩ hk.2.2
    | uint hc' he' => exact absurd ⟨child_exists hc', e0⟩ hk.2.2
    | int hc' he' => exact absurd ⟨child_exists hc', e0⟩ hk.2.2
    | list hc' hc2' h2' =>
      obtain rfl := child_one h hc hc'
      obtain rfl := child_one hu hc2 hc2'
      obtain ⟨rfl, rfl⟩ := ih (part_conf (k' := .declarativeType) hu hc2) _ _ h2'
      exact ⟨rfl, rfl⟩

/-- `list<list<bool>>` is read as a list of lists of booleans. -/
example : ExecuteRun (baseEvents exCfg) exType (.ok [.other (.typ ⟨2, boolFlag⟩)]) := by
  have ht : TypeTree exType 2 boolFlag :=
    .list ⟨_, .head _, rfl, _, rfl, rfl⟩ ⟨_, .tail _ (.tail _ (.head _)), rfl, _, rfl, rfl⟩
      (.list ⟨_, .head _, rfl, _, rfl, rfl⟩ ⟨_, .tail _ (.tail _ (.head _)), rfl, _, rfl, rfl⟩ (.bool ⟨_, .head _, rfl, _, rfl, rfl⟩ rfl))
  obtain ⟨v, hv, t, rfl⟩ := reading exType_conf
  obtain ⟨d, f, h1, h2⟩ := C78_type exCfg exType exType_conf _ hv
  obtain ⟨rfl, rfl⟩ := C78_one exCfg exType exType_conf _ _ _ _ h2 ht
  rw [h1] at hv; exact hv

/-! ## C73: operators -/

/-- C73: an operator is read as the number of the operator written in the tree. -/
theorem C73_operator (cfg : Cfg) (r : Root) (h : Conf cfg .operator r) (x : Out (List V)) (hx : ExecuteRun (baseEvents cfg) r x) :
    ∃ op, OperatorTree r op ∧ x = .ok [.other (.flag16 op.number)] := by
  obtain ⟨v, rfl, f, rfl⟩ := C79_token cfg _ r h x hx
  have := exec_reads h hx (Q := fun v => ∃ op, OperatorTree r op ∧ v = .other (.flag16 op.number)) (by
    intro o ho
    change ProgRun (baseEvents cfg) (evOperator r) o at ho
    rw [evOperator] at ho
    obtain ⟨line, hl⟩ := h.line
    have hl' := hl
    ev_lines hl hm
    rcases hm with rfl | rfl | rfl
    · have e1 : r.exists (lit "operatorArithmetic") = true := by ev_yes hl'
      rw [if_pos e1] at ho
      obtain ⟨u, v, h1, h2, h3, ⟨f, rfl⟩, rfl⟩ := run_pass_own (k' := .operatorArithmetic) hl' (own_found hl' (by decide +kernel)) (by decide +kernel) e1 ho
      obtain ⟨op, h4, h5, rfl⟩ := reads_operatorArithmetic h2 h3
      exact ⟨_, .inr rfl, by simp, op, ⟨u, h4 ▸ h1, h5⟩, rfl⟩
    · have e1 : r.exists (lit "operatorArithmetic") = false := by ev_no hl'
      have e2 : r.exists (lit "operatorRelational") = true := by ev_yes hl'
      rw [if_neg (by simp [e1]), if_pos e2] at ho
      obtain ⟨u, v, h1, h2, h3, ⟨f, rfl⟩, rfl⟩ := run_pass_own (k' := .operatorRelational) hl' (own_found hl' (by decide +kernel)) (by decide +kernel) e2 ho
      obtain ⟨op, h4, h5, rfl⟩ := reads_operatorRelational h2 h3
      exact ⟨_, .inr rfl, by simp, op, ⟨u, h4 ▸ h1, h5⟩, rfl⟩
    · have e1 : r.exists (lit "operatorArithmetic") = false := by ev_no hl'
      have e2 : r.exists (lit "operatorRelational") = false := by ev_no hl'
      rw [if_neg (by simp [e1]), if_neg (by simp [e2])] at ho
      obtain ⟨u, v, h1, h2, h3, ⟨f, rfl⟩, rfl⟩ := run_pass_own (k' := .operatorLogical) hl' (own_found hl' (by decide +kernel)) (by decide +kernel) (by ev_yes hl') ho
      obtain ⟨op, h4, h5, rfl⟩ := reads_operatorLogical h2 h3
      exact ⟨_, .inr rfl, by simp, op, ⟨u, h4 ▸ h1, h5⟩, rfl⟩)
  obtain ⟨op, h1, h2⟩ := this
  exact ⟨op, h1, by rw [h2]⟩

/-- C73: a conforming tree writes one operator. -/
theorem C73_one (cfg : Cfg) (r : Root) (h : Conf cfg .operator r) (a b : Operator) (ha : OperatorTree r a) (hb : OperatorTree r b) : a = b := by
  obtain ⟨u, h1, h2⟩ := ha
  obtain ⟨v, h3, h4⟩ := hb
  have ea := child_exists h1
  have eb := child_exists h3
  obtain ⟨line, hl⟩ := h.line
  have hl' := hl
  ev_lines hl hm
  rcases hm with rfl | rfl | rfl
  · have e_operatorArithmetic : r.exists (lit "operatorArithmetic") = true := by ev_yes hl'
    have e_operatorRelational : r.exists (lit "operatorRelational") = false := by ev_no hl'
    have e_operatorLogical : r.exists (lit "operatorLogical") = false := by ev_no hl'
    have ha : a.written.1 = "operatorArithmetic" := by cases a <;> first | rfl | (simp [Operator.written, e_operatorArithmetic, e_operatorRelational, e_operatorLogical] at ea)
    have hb : b.written.1 = "operatorArithmetic" := by cases b <;> first | rfl | (simp [Operator.written, e_operatorArithmetic, e_operatorRelational, e_operatorLogical] at eb)
    rw [ha] at h1
    rw [hb] at h3
    obtain rfl := child_one h h1 h3
    obtain ⟨line, hw⟩ := (child_conf (k' := .operatorArithmetic) (card := .one) hl' (by simp) h1).line
    have hw' := hw
    ev_lines hw hm
    rcases hm with rfl | rfl | rfl | rfl <;> clear hl hl' hw e_operatorArithmetic e_operatorRelational e_operatorLogical ea eb h1 h3
    · have e_PLUS : u.exists (lit "PLUS") = true := by ev_yes hw'
      have e_MINUS : u.exists (lit "MINUS") = false := by ev_no hw'
      have e_STAR : u.exists (lit "STAR") = false := by ev_no hw'
      have e_DIV : u.exists (lit "DIV") = false := by ev_no hw'
      clear hw'
      cases a <;> first | (simp [Operator.written] at ha; done) | (simp [Operator.written, e_PLUS, e_MINUS, e_STAR, e_DIV] at h2; done) |
        (cases b <;> first | rfl | (simp [Operator.written] at hb; done) | (simp [Operator.written, e_PLUS, e_MINUS, e_STAR, e_DIV] at h4; done))
    · have e_PLUS : u.exists (lit "PLUS") = false := by ev_no hw'
      have e_MINUS : u.exists (lit "MINUS") = true := by ev_yes hw'
      have e_STAR : u.exists (lit "STAR") = false := by ev_no hw'
      have e_DIV : u.exists (lit "DIV") = false := by ev_no hw'
      clear hw'
      cases a <;> first | (simp [Operator.written] at ha; done) | (simp [Operator.written, e_PLUS, e_MINUS, e_STAR, e_DIV] at h2; done) |
        (cases b <;> first | rfl | (simp [Operator.written] at hb; done) | (simp [Operator.written, e_PLUS, e_MINUS, e_STAR, e_DIV] at h4; done))
    · have e_PLUS : u.exists (lit "PLUS") = false := by ev_no hw'
      have e_MINUS : u.exists (lit "MINUS") = false := by ev_no hw'
      have e_STAR : u.exists (lit "STAR") = true := by ev_yes hw'
      have e_DIV : u.exists (lit "DIV") = false := by ev_no hw'
      clear hw'
      cases a <;> first | (simp [Operator.written] at ha; done) | (simp [Operator.written, e_PLUS, e_MINUS, e_STAR, e_DIV] at h2; done) |
        (cases b <;> first | rfl | (simp [Operator.written] at hb; done) | (simp [Operator.written, e_PLUS, e_MINUS, e_STAR, e_DIV] at h4; done))
    · have e_PLUS : u.exists (lit "PLUS") = false := by ev_no hw'
      have e_MINUS : u.exists (lit "MINUS") = false := by ev_no hw'
      have e_STAR : u.exists (lit "STAR") = false := by ev_no hw'
      have e_DIV : u.exists (lit "DIV") = true := by ev_yes hw'
      clear hw'
      cases a <;> first | (simp [Operator.written] at ha; done) | (simp [Operator.written, e_PLUS, e_MINUS, e_STAR, e_DIV] at h2; done) |
        (cases b <;> first | rfl | (simp [Operator.written] at hb; done) | (simp [Operator.written, e_PLUS, e_MINUS, e_STAR, e_DIV] at h4; done))
  · have e_operatorArithmetic : r.exists (lit "operatorArithmetic") = false := by ev_no hl'
    have e_operatorRelational : r.exists (lit "operatorRelational") = true := by ev_yes hl'
    have e_operatorLogical : r.exists (lit "operatorLogical") = false := by ev_no hl'
    have ha : a.written.1 = "operatorRelational" := by cases a <;> first | rfl | (simp [Operator.written, e_operatorArithmetic, e_operatorRelational, e_operatorLogical] at ea)
    have hb : b.written.1 = "operatorRelational" := by cases b <;> first | rfl | (simp [Operator.written, e_operatorArithmetic, e_operatorRelational, e_operatorLogical] at eb)
    rw [ha] at h1
    rw [hb] at h3
    obtain rfl := child_one h h1 h3
    obtain ⟨line, hw⟩ := (child_conf (k' := .operatorRelational) (card := .one) hl' (by simp) h1).line
    have hw' := hw
    ev_lines hw hm
    rcases hm with rfl | rfl | rfl | rfl <;> clear hl hl' hw e_operatorArithmetic e_operatorRelational e_operatorLogical ea eb h1 h3
    · have e_LESS : u.exists (lit "LESS") = true := by ev_yes hw'
      have e_MORE : u.exists (lit "MORE") = false := by ev_no hw'
      have e_EXCLAMATION : u.exists (lit "EXCLAMATION") = false := by ev_no hw'
      clear hw'
      cases e_EQUAL : u.exists (lit "EQUAL") <;>
      cases a <;> first | (simp [Operator.written] at ha; done) | (simp [Operator.written, e_LESS, e_MORE, e_EXCLAMATION, e_EQUAL] at h2; done) |
        (cases b <;> first | rfl | (simp [Operator.written] at hb; done) | (simp [Operator.written, e_LESS, e_MORE, e_EXCLAMATION, e_EQUAL] at h4; done))
    · have e_LESS : u.exists (lit "LESS") = false := by ev_no hw'
      have e_MORE : u.exists (lit "MORE") = true := by ev_yes hw'
      have e_EXCLAMATION : u.exists (lit "EXCLAMATION") = false := by ev_no hw'
      clear hw'
      cases e_EQUAL : u.exists (lit "EQUAL") <;>
      cases a <;> first | (simp [Operator.written] at ha; done) | (simp [Operator.written, e_LESS, e_MORE, e_EXCLAMATION, e_EQUAL] at h2; done) |
        (cases b <;> first | rfl | (simp [Operator.written] at hb; done) | (simp [Operator.written, e_LESS, e_MORE, e_EXCLAMATION, e_EQUAL] at h4; done))
    · have e_LESS : u.exists (lit "LESS") = false := by ev_no hw'
      have e_MORE : u.exists (lit "MORE") = false := by ev_no hw'
      have e_EXCLAMATION : u.exists (lit "EXCLAMATION") = true := by ev_yes hw'
      have e_EQUAL : u.exists (lit "EQUAL") = true := by ev_yes hw'
      clear hw'
      cases a <;> first | (simp [Operator.written] at ha; done) | (simp [Operator.written, e_LESS, e_MORE, e_EXCLAMATION, e_EQUAL] at h2; done) |
        (cases b <;> first | rfl | (simp [Operator.written] at hb; done) | (simp [Operator.written, e_LESS, e_MORE, e_EXCLAMATION, e_EQUAL] at h4; done))
    · have e_LESS : u.exists (lit "LESS") = false := by ev_no hw'
      have e_MORE : u.exists (lit "MORE") = false := by ev_no hw'
      have e_EXCLAMATION : u.exists (lit "EXCLAMATION") = false := by ev_no hw'
      have e_EQUAL : u.exists (lit "EQUAL") = true := by ev_yes hw'
      clear hw'
      cases a <;> first | (simp [Operator.written] at ha; done) | (simp [Operator.written, e_LESS, e_MORE, e_EXCLAMATION, e_EQUAL] at h2; done) |
        (cases b <;> first | rfl | (simp [Operator.written] at hb; done) | (simp [Operator.written, e_LESS, e_MORE, e_EXCLAMATION, e_EQUAL] at h4; done))
  · have e_operatorArithmetic : r.exists (lit "operatorArithmetic") = false := by ev_no hl'
    have e_operatorRelational : r.exists (lit "operatorRelational") = false := by ev_no hl'
    have e_operatorLogical : r.exists (lit "operatorLogical") = true := by ev_yes hl'
    have ha : a.written.1 = "operatorLogical" := by cases a <;> first | rfl | (simp [Operator.written, e_operatorArithmetic, e_operatorRelational, e_operatorLogical] at ea)
    have hb : b.written.1 = "operatorLogical" := by cases b <;> first | rfl | (simp [Operator.written, e_operatorArithmetic, e_operatorRelational, e_operatorLogical] at eb)
    rw [ha] at h1
    rw [hb] at h3
    obtain rfl := child_one h h1 h3
    obtain ⟨line, hw⟩ := (child_conf (k' := .operatorLogical) (card := .one) hl' (by simp) h1).line
    have hw' := hw
    ev_lines hw hm
    rcases hm with rfl | rfl <;> clear hl hl' hw e_operatorArithmetic e_operatorRelational e_operatorLogical ea eb h1 h3
    · have e_AND : u.exists (lit "AND") = true := by ev_yes hw'
      have e_PIPE : u.exists (lit "PIPE") = false := by ev_no hw'
      clear hw'
      cases a <;> first | (simp [Operator.written] at ha; done) | (simp [Operator.written, e_AND, e_PIPE] at h2; done) |
        (cases b <;> first | rfl | (simp [Operator.written] at hb; done) | (simp [Operator.written, e_AND, e_PIPE] at h4; done))
    · have e_AND : u.exists (lit "AND") = false := by ev_no hw'
      have e_PIPE : u.exists (lit "PIPE") = true := by ev_yes hw'
      clear hw'
      cases a <;> first | (simp [Operator.written] at ha; done) | (simp [Operator.written, e_AND, e_PIPE] at h2; done) |
        (cases b <;> first | rfl | (simp [Operator.written] at hb; done) | (simp [Operator.written, e_AND, e_PIPE] at h4; done))

/-- C73: different operators have different numbers, so the operator can be told from the number. -/
theorem C73_different (a b : Operator) (h : a.number = b.number) : a = b := by
  revert h; cases a <;> cases b <;> decide

/-- `+` is read as 3. -/
example : ExecuteRun (baseEvents exCfg) exPlus (.ok [.other (.flag16 3)]) := by
  have ht : OperatorTree exPlus .plus := ⟨_, ⟨_, .head _, rfl, _, rfl, rfl⟩, by decide +kernel, by decide +kernel⟩
  obtain ⟨v, hv, _⟩ := reading exPlus_conf
  obtain ⟨op, h1, h2⟩ := C73_operator exCfg exPlus exPlus_conf _ hv
  obtain rfl := C73_one exCfg exPlus exPlus_conf _ _ h1 ht
  rw [h2] at hv; exact hv

/-- `if ab { break }`: the program has one instruction. -/
example : ∃ p : Program, AppRun (some (baseEvents exCfg)) exIf (.ok (.other (.program p))) ∧ p.instructions.length = 1 := by
  obtain ⟨⟨x, hx⟩, h⟩ := C79_program exCfg exIf exIf_conf
  obtain ⟨p, rfl⟩ := h x hx
  refine ⟨p, hx, ?_⟩
  obtain ⟨u, us, h1, ⟨n, hn, _, hc⟩, h3⟩ := C80_program exCfg exIf exIf_conf p hx
  have hu := child_one exIf_conf h1 (show Child exIf (lit "instructions") _ from ⟨_, .head _, rfl, _, rfl, rfl⟩)
  subst hu
  have := congrArg List.length hc
  simp only [List.length_map] at this
  rw [← h3.length_eq, ← this]
  exact (List.forall_iff_forall_mem.mp (by decide +kernel) : ∀ n ∈ Root.nodes _, n.containers.length = 1) n hn

/-- `if ab { if cd { break } break }`: whatever is read as condition, the block has two instructions. -/
example : ∃ c l, ExecuteRun (baseEvents exCfg) exNestedIf (.ok [.other (.ifDecl (c, some l))]) ∧ l.length = 2 := by
  obtain ⟨v, hv, ⟨c, body⟩, rfl⟩ := reading exNestedIf_conf
  obtain ⟨h1, h2, _⟩ := C80_if exCfg exNestedIf exNestedIf_conf c body hv
  cases body with
  | none => exact absurd (h1 rfl) (by decide +kernel)
  | some l =>
    refine ⟨c, l, hv, ?_⟩
    obtain ⟨u, us, h1, ⟨n, hn, _, hc⟩, h3⟩ := h2 l rfl
    have hu := child_one exNestedIf_conf h1 (show Child exNestedIf (lit "instructions") exIfBody from ⟨_, .tail _ (.tail _ (.head _)), rfl, _, rfl, rfl⟩)
    subst hu
    have := congrArg List.length hc
    simp only [List.length_map] at this
    rw [← h3.length_eq, ← this]
    have key : ∀ n ∈ Root.nodes exIfBody, n.containers.length = 2 := by decide +kernel
    exact key n hn

/-- `for ix, va := ab { for ix, va := cd { break } break }` -/
example : ∃ c l, ExecuteRun (baseEvents exCfg) exNestedFor (.ok [.other (.forDecl (c, some l))]) ∧ BlockOf exCfg exNestedFor l := by
  obtain ⟨v, hv, ⟨c, body⟩, rfl⟩ := reading exNestedFor_conf
  obtain ⟨h1, h2, _⟩ := C80_for exCfg exNestedFor exNestedFor_conf c body hv
  cases body with
  | none => exact absurd (h1 rfl) (by decide +kernel)
  | some l => exact ⟨c, l, hv, h2 l rfl⟩

end Verif.Base
