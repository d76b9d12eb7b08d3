import Verif.Lemmas.BaseOwn

/-! # Readings of the parser of the base language -/

namespace Verif.Base
open Verif.Patterns Verif.Lexer

theorem children_of {k' : Kind} {cfg : Cfg} {cs : List RContainer} {l : List V} (h : List.Forall₂ (TokValue cfg k') cs l) :
    ∃ us, cs.map RContainer.root = us.map some ∧ List.Forall₂ (fun u v => Conf cfg k' u ∧ ExecuteRun (baseEvents cfg) u (.ok [v]) ∧ Good k' v) us l := by
  induction h with
  | nil => exact ⟨[], rfl, .nil⟩
  | cons h1 _ ih =>
    obtain ⟨us, h2, h3⟩ := ih
    obtain ⟨u, hu, hc, hg, hy⟩ := h1
    exact ⟨u :: us, by simp [hu, h2], .cons ⟨hc, (exec_iff hc _).mpr ⟨hy, hg.1⟩, hg.1⟩ h3⟩

/-- A token of a line whose other tokens do not contain its name is found in the root itself. -/
theorem own_clear {cfg : Cfg} {k : Kind} {r : Root} {line : List (Sym × Card)} (h : Line cfg k r line) {k' k2 : Kind}
    (hall : ∀ p ∈ line, ∀ k1, p.1 = .tok k1 → k1 = k' ∨ k1 = k2)
    (hclear : ∀ n ∈ r.nodes, n.name = k2.name → ∀ f, ReachNode n f → f.name ≠ k'.name) (n : Node) (_hn : n.name = k'.name)
    (hat : FoundAt cfg r line k'.name n) : n ∈ r.nodes := by
  cases hat.1 with
  | @mem _ m _ hm hf =>
    cases hf with
    | self => exact hm
    | sub hne hc hf =>
      exfalso
      obtain ⟨_, ⟨⟨s, card⟩, hp, hp2, _⟩ | ⟨_, hch⟩⟩ := h.nodes m hm
      swap
      · have h3 := hch _ hc
        cases hf with
        | sub _ h5 _ => rw [h3] at h5; simp at h5
      cases s with
      | rule s =>
        have h3 := h.rules s card hp m hm hp2 _ hc
        cases hf with
        | sub _ h5 _ => rw [h3] at h5; simp at h5
      | tok k1 =>
        have hreach := TopNode.reach (TopNode.sub hne hc hf)
        rcases hall _ hp k1 rfl with rfl | rfl
        · exact hne hp2
        · exact hclear m hm hp2 _ hreach.1 hreach.2

theorem run_instructions {cfg : Cfg} {u : Root} (h : Conf cfg .instructions u) {l : List Instruction}
    (hx : ExecuteRun (baseEvents cfg) u (.ok [.other (.instructions l)])) :
    ∃ us, Children u (lit "instruction") us ∧ List.Forall₂ (ReadsInstruction cfg) us l := by
  obtain ⟨hy, _⟩ := (exec_iff h _).mp hx
  obtain ⟨line, hl⟩ := h.line
  have hl' := hl
  ev_lines hl hm
  subst hm
  have key : ∀ o, ProgRun (baseEvents cfg) (evInstructions u) o → ∃ us l, Children u (lit "instruction") us ∧
      List.Forall₂ (ReadsInstruction cfg) us l ∧ o = .ok (.other (.instructions l)) := by
    intro o ho
    obtain ⟨n, hn, hname, vs, hvs, hf, hr⟩ := run_call_own (k' := .instruction) hl' (own_found hl' (by decide +kernel)) (by ev_yes hl') ho
    obtain ⟨us, h1, h2⟩ := children_of hf
    have : ∃ l, assertAll asInstruction vs = .ok l ∧ List.Forall₂ (ReadsInstruction cfg) us l := by
      clear hr h1 hf hvs
      induction h2 with
      | nil => exact ⟨[], rfl, .nil⟩
      | cons h3 _ ih =>
        obtain ⟨l, h4, h5⟩ := ih
        obtain ⟨_, h6, i, rfl⟩ := h3
        exact ⟨i :: l, by simp [assertAll, assert, asInstruction, h4, bind, Out.bind, pure], .cons h6 h5⟩
    obtain ⟨l, h3, h4⟩ := this
    simp only [h3, step] at hr
    have hl : l ≠ [] := by
      rintro rfl
      cases h4
      cases h2
      exact hvs rfl
    obtain ⟨a, as, rfl⟩ := List.exists_cons_of_ne_nil hl
    exact ⟨us, _, ⟨n, hn, hname, h1⟩, h4, (run_done _ _).mp hr⟩
  rcases hy with hy | hy
  · obtain ⟨us, l', h1, h2, h3⟩ := key _ hy
    simp only [Out.ok.injEq, Val.other.injEq, BVal.instructions.injEq] at h3
    subst h3
    exact ⟨us, h1, h2⟩
  · obtain ⟨us, l', h1, h2, h3⟩ := key _ hy
    simp at h3

/-- What an event of a conforming root returned is what the execution returns. -/
theorem exec_reads {cfg : Cfg} {k : Kind} {u : Root} (h : Conf cfg k u) {v : V} (hx : ExecuteRun (baseEvents cfg) u (.ok [v])) {Q : V → Prop}
    (key : ∀ o, ProgRun (baseEvents cfg) (evOf cfg k u) o → ∃ w, (o = .ok w ∨ o = .ok (.result [w])) ∧ (∀ l, w ≠ .result l) ∧ Q w) : Q v := by
  obtain ⟨hy, hg⟩ := (exec_iff h _).mp hx
  have hv : ∀ l, v ≠ .result l := by
    rintro l rfl
    have := (good_plain hg).1
    cases k <;> simp [Good] at hg
  rcases hy with hy | hy
  · obtain ⟨w, h1 | h1, h2, h3⟩ := key _ hy
    · simp only [Out.ok.injEq] at h1; exact h1 ▸ h3
    · simp only [Out.ok.injEq] at h1; exact absurd h1 (hv _)
  · obtain ⟨w, h1 | h1, h2, h3⟩ := key _ hy
    · simp only [Out.ok.injEq] at h1; exact absurd h1.symm (h2 _)
    · simp only [Out.ok.injEq, Val.result.injEq, List.cons.injEq, and_true] at h1; exact h1 ▸ h3

theorem run_type_own {cfg : Cfg} {k : Kind} {r : Root} {line : List (Sym × Card)} (h : Line cfg k r line) {k' : Kind} (ho : own k' line = true)
    (hs : singleKind k' = true) (he : r.exists k'.name = true) {f : List V → TypeState → Out TypeState} {s : TypeState} {p : TypeState → P}
    {o : Out V} (hr : ProgRun (baseEvents cfg) (typePart k'.name r f s p) o) :
    ∃ u v, Child r k'.name u ∧ Conf cfg k' u ∧ ExecuteRun (baseEvents cfg) u (.ok [v]) ∧ Good k' v ∧ ProgRun (baseEvents cfg) (step (f [v] s) p) o := by
  rw [typePart, if_pos he] at hr
  obtain ⟨n, hn, hname, l, hl, hf, hr⟩ := run_call_own h (own_found h ho) he hr
  obtain ⟨c, hc⟩ := node_single h hs hn hname
  rw [hc] at hf
  cases hf with
  | cons h1 h2 =>
    cases h2
    obtain ⟨u, hu, hconf, hg, hy⟩ := h1
    exact ⟨u, _, ⟨n, hn, hname, c, hc, hu⟩, hconf, (exec_iff hconf _).mpr ⟨hy, hg.1⟩, hg.1, hr⟩

theorem run_type_no {cfg : Cfg} {r : Root} {name : Str} {f : List V → TypeState → Out TypeState} {s : TypeState} {p : TypeState → P} {o : Out V}
    (he : r.exists name = false) (hr : ProgRun (baseEvents cfg) (typePart name r f s p) o) : ProgRun (baseEvents cfg) (p s) o := by
  rwa [typePart, if_neg (by simp [he])] at hr

theorem inside_child {r u : Root} {name : Str} (h : Child r name u) : sizeOf u < sizeOf r := by
  obtain ⟨n, hn, _, c, hc, hu⟩ := h
  exact sizeOf_inside (inside_node hn (by simp [hc]) hu)

theorem flag_primitive {cfg : Cfg} {u : Root} (h : Conf cfg .primitiveType u) {f : Nat} (hx : ExecuteRun (baseEvents cfg) u (.ok [.other (.flag8 f)])) :
    (u.exists (lit "BOOL") = true ∧ f = boolFlag) ∨ (u.exists (lit "STRING") = true ∧ f = stringFlag) := by
  have := exec_reads h hx (Q := fun v => ∃ f, v = .other (.flag8 f) ∧
      ((u.exists (lit "BOOL") = true ∧ f = boolFlag) ∨ (u.exists (lit "STRING") = true ∧ f = stringFlag))) (by
    intro o ho
    obtain ⟨line, hl⟩ := h.line
    have hl' := hl
    ev_lines hl hm
    rcases hm with rfl | rfl
    · have h1 : u.exists (lit "BOOL") = true := by ev_yes hl'
      have h2 : u.exists (lit "STRING") = false := by ev_no hl'
      exact ⟨_, .inl ((run_done _ _).mp ho), by simp, _, rfl, .inl ⟨h1, by simp [flagIf, h1, h2]⟩⟩
    · have h1 : u.exists (lit "BOOL") = false := by ev_no hl'
      have h2 : u.exists (lit "STRING") = true := by ev_yes hl'
      exact ⟨_, .inl ((run_done _ _).mp ho), by simp, _, rfl, .inr ⟨h2, by simp [flagIf, h1, h2]⟩⟩)
  obtain ⟨f', h1, h2⟩ := this
  simp only [Val.other.injEq, BVal.flag8.injEq] at h1
  exact h1 ▸ h2

theorem flag_computable {cfg : Cfg} {u : Root} (h : Conf cfg .computableType u) {f : Nat} (hx : ExecuteRun (baseEvents cfg) u (.ok [.other (.flag8 f)])) :
    (u.exists (lit "FLOAT") = true ∧ f = floatFlag) ∨ (u.exists (lit "UINT") = true ∧ f = (integerFlag ||| unsignedFlag)) ∨
      (u.exists (lit "INT") = true ∧ f = integerFlag) := by
  have := exec_reads h hx (Q := fun v => ∃ f, v = .other (.flag8 f) ∧
      ((u.exists (lit "FLOAT") = true ∧ f = floatFlag) ∨ (u.exists (lit "UINT") = true ∧ f = (integerFlag ||| unsignedFlag)) ∨
      (u.exists (lit "INT") = true ∧ f = integerFlag))) (by
    intro o ho
    obtain ⟨line, hl⟩ := h.line
    have hl' := hl
    ev_lines hl hm
    refine ⟨_, .inl ((run_done _ _).mp ho), by simp, _, rfl, ?_⟩
    rcases hm with rfl | rfl | rfl
    · have h1 : u.exists (lit "FLOAT") = true := by ev_yes hl'
      have h2 : u.exists (lit "UINT") = false := by ev_no hl'
      have h3 : u.exists (lit "INT") = false := by ev_no hl'
      exact .inl ⟨h1, by simp [flagIf, h1, h2, h3]⟩
    · have h1 : u.exists (lit "FLOAT") = false := by ev_no hl'
      have h2 : u.exists (lit "UINT") = true := by ev_yes hl'
      have h3 : u.exists (lit "INT") = false := by ev_no hl'
      exact .inr (.inl ⟨h2, by simp [flagIf, h1, h2, h3]⟩)
    · have h1 : u.exists (lit "FLOAT") = false := by ev_no hl'
      have h2 : u.exists (lit "UINT") = false := by ev_no hl'
      have h3 : u.exists (lit "INT") = true := by ev_yes hl'
      exact .inr (.inr ⟨h3, by simp [flagIf, h1, h2, h3]⟩))
  obtain ⟨f', h1, h2⟩ := this
  simp only [Val.other.injEq, BVal.flag8.injEq] at h1
  exact h1 ▸ h2

theorem reads_operatorArithmetic {cfg : Cfg} {w : Root} (h : Conf cfg .operatorArithmetic w) {f : Nat}
    (hx : ExecuteRun (baseEvents cfg) w (.ok [.other (.flag16 f)])) : ∃ op : Operator, op.written.1 = "operatorArithmetic" ∧ OperatorRules w op ∧ f = op.number := by
  have := exec_reads h hx (Q := fun v => ∃ f, v = .other (.flag16 f) ∧
      ∃ op : Operator, op.written.1 = "operatorArithmetic" ∧ OperatorRules w op ∧ f = op.number) (by
    intro o ho
    obtain ⟨line, hl⟩ := h.line
    have hl' := hl
    ev_lines hl hm
    refine ⟨_, .inl ((run_done _ _).mp ho), by simp, _, rfl, ?_⟩
    rcases hm with rfl | rfl | rfl | rfl
    · have e_PLUS : w.exists (lit "PLUS") = true := by ev_yes hl'
      have e_MINUS : w.exists (lit "MINUS") = false := by ev_no hl'
      have e_STAR : w.exists (lit "STAR") = false := by ev_no hl'
      have e_DIV : w.exists (lit "DIV") = false := by ev_no hl'
      exact ⟨.plus, rfl, by simp [OperatorRules, Operator.written, e_PLUS, e_MINUS, e_STAR, e_DIV], by simp [flagIf, e_PLUS, e_MINUS, e_STAR, e_DIV]; decide⟩
    · have e_PLUS : w.exists (lit "PLUS") = false := by ev_no hl'
      have e_MINUS : w.exists (lit "MINUS") = true := by ev_yes hl'
      have e_STAR : w.exists (lit "STAR") = false := by ev_no hl'
      have e_DIV : w.exists (lit "DIV") = false := by ev_no hl'
      exact ⟨.minus, rfl, by simp [OperatorRules, Operator.written, e_PLUS, e_MINUS, e_STAR, e_DIV], by simp [flagIf, e_PLUS, e_MINUS, e_STAR, e_DIV]; decide⟩
    · have e_PLUS : w.exists (lit "PLUS") = false := by ev_no hl'
      have e_MINUS : w.exists (lit "MINUS") = false := by ev_no hl'
      have e_STAR : w.exists (lit "STAR") = true := by ev_yes hl'
      have e_DIV : w.exists (lit "DIV") = false := by ev_no hl'
      exact ⟨.times, rfl, by simp [OperatorRules, Operator.written, e_PLUS, e_MINUS, e_STAR, e_DIV], by simp [flagIf, e_PLUS, e_MINUS, e_STAR, e_DIV]; decide⟩
    · have e_PLUS : w.exists (lit "PLUS") = false := by ev_no hl'
      have e_MINUS : w.exists (lit "MINUS") = false := by ev_no hl'
      have e_STAR : w.exists (lit "STAR") = false := by ev_no hl'
      have e_DIV : w.exists (lit "DIV") = true := by ev_yes hl'
      exact ⟨.divide, rfl, by simp [OperatorRules, Operator.written, e_PLUS, e_MINUS, e_STAR, e_DIV], by simp [flagIf, e_PLUS, e_MINUS, e_STAR, e_DIV]; decide⟩)
  obtain ⟨f', h1, h2⟩ := this
  simp only [Val.other.injEq, BVal.flag16.injEq] at h1
  exact h1 ▸ h2

theorem reads_operatorRelational {cfg : Cfg} {w : Root} (h : Conf cfg .operatorRelational w) {f : Nat}
    (hx : ExecuteRun (baseEvents cfg) w (.ok [.other (.flag16 f)])) : ∃ op : Operator, op.written.1 = "operatorRelational" ∧ OperatorRules w op ∧ f = op.number := by
  have := exec_reads h hx (Q := fun v => ∃ f, v = .other (.flag16 f) ∧
      ∃ op : Operator, op.written.1 = "operatorRelational" ∧ OperatorRules w op ∧ f = op.number) (by
    intro o ho
    obtain ⟨line, hl⟩ := h.line
    have hl' := hl
    ev_lines hl hm
    refine ⟨_, .inl ((run_done _ _).mp ho), by simp, _, rfl, ?_⟩
    rcases hm with rfl | rfl | rfl | rfl
    · have e_LESS : w.exists (lit "LESS") = true := by ev_yes hl'
      have e_MORE : w.exists (lit "MORE") = false := by ev_no hl'
      have e_EXCLAMATION : w.exists (lit "EXCLAMATION") = false := by ev_no hl'
      cases e_EQUAL : w.exists (lit "EQUAL")
      · exact ⟨.less, rfl, by simp [OperatorRules, Operator.written, e_LESS, e_MORE, e_EXCLAMATION, e_EQUAL], by simp [flagIf, e_LESS, e_MORE, e_EXCLAMATION, e_EQUAL]; decide⟩
      · exact ⟨.lessOrEqual, rfl, by simp [OperatorRules, Operator.written, e_LESS, e_MORE, e_EXCLAMATION, e_EQUAL], by simp [flagIf, e_LESS, e_MORE, e_EXCLAMATION, e_EQUAL]; decide⟩
    · have e_LESS : w.exists (lit "LESS") = false := by ev_no hl'
      have e_MORE : w.exists (lit "MORE") = true := by ev_yes hl'
      have e_EXCLAMATION : w.exists (lit "EXCLAMATION") = false := by ev_no hl'
      cases e_EQUAL : w.exists (lit "EQUAL")
      · exact ⟨.more, rfl, by simp [OperatorRules, Operator.written, e_LESS, e_MORE, e_EXCLAMATION, e_EQUAL], by simp [flagIf, e_LESS, e_MORE, e_EXCLAMATION, e_EQUAL]; decide⟩
      · exact ⟨.moreOrEqual, rfl, by simp [OperatorRules, Operator.written, e_LESS, e_MORE, e_EXCLAMATION, e_EQUAL], by simp [flagIf, e_LESS, e_MORE, e_EXCLAMATION, e_EQUAL]; decide⟩
    · have e_LESS : w.exists (lit "LESS") = false := by ev_no hl'
      have e_MORE : w.exists (lit "MORE") = false := by ev_no hl'
      have e_EXCLAMATION : w.exists (lit "EXCLAMATION") = true := by ev_yes hl'
      have e_EQUAL : w.exists (lit "EQUAL") = true := by ev_yes hl'
      exact ⟨.notEqual, rfl, by simp [OperatorRules, Operator.written, e_LESS, e_MORE, e_EXCLAMATION, e_EQUAL], by simp [flagIf, e_LESS, e_MORE, e_EXCLAMATION, e_EQUAL]; decide⟩
    · have e_LESS : w.exists (lit "LESS") = false := by ev_no hl'
      have e_MORE : w.exists (lit "MORE") = false := by ev_no hl'
      have e_EXCLAMATION : w.exists (lit "EXCLAMATION") = false := by ev_no hl'
      have e_EQUAL : w.exists (lit "EQUAL") = true := by ev_yes hl'
      exact ⟨.equal, rfl, by simp [OperatorRules, Operator.written, e_LESS, e_MORE, e_EXCLAMATION, e_EQUAL], by simp [flagIf, e_LESS, e_MORE, e_EXCLAMATION, e_EQUAL]; decide⟩)
  obtain ⟨f', h1, h2⟩ := this
  simp only [Val.other.injEq, BVal.flag16.injEq] at h1
  exact h1 ▸ h2

theorem reads_operatorLogical {cfg : Cfg} {w : Root} (h : Conf cfg .operatorLogical w) {f : Nat}
    (hx : ExecuteRun (baseEvents cfg) w (.ok [.other (.flag16 f)])) : ∃ op : Operator, op.written.1 = "operatorLogical" ∧ OperatorRules w op ∧ f = op.number := by
  have := exec_reads h hx (Q := fun v => ∃ f, v = .other (.flag16 f) ∧
      ∃ op : Operator, op.written.1 = "operatorLogical" ∧ OperatorRules w op ∧ f = op.number) (by
    intro o ho
    obtain ⟨line, hl⟩ := h.line
    have hl' := hl
    ev_lines hl hm
    refine ⟨_, .inl ((run_done _ _).mp ho), by simp, _, rfl, ?_⟩
    rcases hm with rfl | rfl
    · have e_AND : w.exists (lit "AND") = true := by ev_yes hl'
      have e_PIPE : w.exists (lit "PIPE") = false := by ev_no hl'
      exact ⟨.and, rfl, by simp [OperatorRules, Operator.written, e_AND, e_PIPE], by simp [flagIf, e_AND, e_PIPE]; decide⟩
    · have e_AND : w.exists (lit "AND") = false := by ev_no hl'
      have e_PIPE : w.exists (lit "PIPE") = true := by ev_yes hl'
      exact ⟨.or, rfl, by simp [OperatorRules, Operator.written, e_AND, e_PIPE], by simp [flagIf, e_AND, e_PIPE]; decide⟩)
  obtain ⟨f', h1, h2⟩ := this
  simp only [Val.other.injEq, BVal.flag16.injEq] at h1
  exact h1 ▸ h2

theorem child_one {cfg : Cfg} {k : Kind} {r : Root} (h : Conf cfg k r) {name : Str} {u v : Root} (hu : Child r name u) (hv : Child r name v) : u = v := by
  obtain ⟨line, h⟩ := h.line
  obtain ⟨n, hn, h1, c, hc, h2⟩ := hu
  obtain ⟨m, hm, h3, d, hd, h4⟩ := hv
  have : n = m := List.inj_on_of_nodup_map h.nodup hn hm (h1.trans h3.symm)
  subst this
  rw [hc] at hd
  simp only [List.cons.injEq, and_true] at hd
  subst hd
  rw [h2] at h4
  exact Option.some.inj h4

theorem child_conf {cfg : Cfg} {k k' : Kind} {r : Root} {line : List (Sym × Card)} {card : Card} (h : Line cfg k r line)
    (hp : (Sym.tok k', card) ∈ line) {u : Root} (hu : Child r k'.name u) : Conf cfg k' u := by
  obtain ⟨n, hn, h1, c, hc, h2⟩ := hu
  exact h.conf k' card hp n hn h1 c (by simp [hc]) u h2

theorem child_exists {r : Root} {name : Str} {u : Root} (h : Child r name u) : r.exists name = true := by
  obtain ⟨n, hn, h1, _⟩ := h
  exact (exists_iff r name).mpr ⟨n, hn, h1⟩

end Verif.Base
