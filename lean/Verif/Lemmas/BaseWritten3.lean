import Verif.Lemmas.BaseWritten2

/-! # Every tree of the grammar has a written object -/

namespace Verif.Base
open Verif.Patterns Verif.Lexer

variable {cfg : Cfg} {k : Kind} {r : Root} {line : List (Sym × Card)} {α : Type}

/-- The trees inside have written objects. -/
abbrev WrittenInside (cfg : Cfg) (r : Root) : Prop := ∀ u k, sizeOf u < sizeOf r → Conf cfg k u → ∃ v, Written cfg k u v

theorem written_good {u : Root} (h : Conf cfg k u) {v : V} (hw : Written cfg k u v) : Good k v := ((exec_iff h v).mp (written_reads u h hw)).2

theorem cards_unique : ∀ k ∈ allKinds, ∀ line ∈ grammar k, ∀ p ∈ line, ∀ q ∈ line, p.1.name = q.1.name → p.2 = q.2 := by decide +kernel

theorem has_line (hl : Line cfg k r line) {k' : Kind} {card : Card} (hp : (Sym.tok k', card) ∈ line) (hs : singleKind k' = true)
    (he : r.exists k'.name = true) (ih : WrittenInside cfg r) : ∃ v, Has (Written cfg) r k' v ∧ Good k' v := by
  obtain ⟨n, hn, hname⟩ := (exists_iff r _).mp he
  obtain ⟨c, hc⟩ := node_single hl hs hn hname
  obtain ⟨u, hu⟩ := Option.ne_none_iff_exists'.mp (hl.roots k' card hp n hn hname c (by simp [hc]))
  have hch : Child r k'.name u := ⟨n, hn, hname, c, hc, hu⟩
  have hconf := child_conf hl hp hch
  obtain ⟨v, hv⟩ := ih u k' (inside_child hch) hconf
  exact ⟨v, .mk hch hv, written_good hconf hv⟩

theorem has_opt (hl : Line cfg k r line) {k' : Kind} {card : Card} {mk : α → V} (hp : (Sym.tok k', card) ∈ line) (hs : singleKind k' = true)
    (hg : ∀ v, Good k' v → ∃ x, v = mk x) (ih : WrittenInside cfg r) : ∃ o : Option α, HasOpt (Written cfg) r k' (o.map mk) := by
  cases he : r.exists k'.name with
  | false => exact ⟨none, .none he⟩
  | true =>
    obtain ⟨v, h1, h2⟩ := has_line hl hp hs he ih
    obtain ⟨x, rfl⟩ := hg v h2
    exact ⟨some x, .some h1⟩

theorem each_of {k' : Kind} {mk : α → V} (hg : ∀ v, Good k' v → ∃ x, v = mk x) : ∀ us : List Root,
    (∀ u ∈ us, ∃ v, Written cfg k' u v ∧ Good k' v) → ∃ l : List α, Each (Written cfg) k' us (l.map mk) ∧ l.length = us.length
  | [], _ => ⟨[], .nil, rfl⟩
  | u :: us, h => by
    obtain ⟨v, h1, h2⟩ := h u (by simp)
    obtain ⟨x, rfl⟩ := hg v h2
    obtain ⟨l, h3, h4⟩ := each_of hg us fun u hu => h u (by simp [hu])
    exact ⟨x :: l, .cons h1 h3, by simp [h4]⟩

theorem has_all_card (hl : Line cfg k r line) {k' : Kind} {card : Card} {mk : α → V} (hp : (Sym.tok k', card) ∈ line) (he : r.exists k'.name = true)
    (hg : ∀ v, Good k' v → ∃ x, v = mk x) (ih : WrittenInside cfg r) :
    ∃ l : List α, HasAll (Written cfg) r k' (l.map mk) ∧ card.Allows l.length := by
  obtain ⟨n, hn, hname⟩ := (exists_iff r _).mp he
  have hroots := hl.roots k' card hp n hn hname
  obtain ⟨us, hus⟩ : ∃ us : List Root, n.containers.map RContainer.root = us.map some := by
    generalize n.containers = cs at hroots
    induction cs with
    | nil => exact ⟨[], rfl⟩
    | cons c cs ihc =>
      obtain ⟨us, h⟩ := ihc fun c hc => hroots c (by simp [hc])
      obtain ⟨u, hu⟩ := Option.ne_none_iff_exists'.mp (hroots c (by simp))
      exact ⟨u :: us, by simp [hu, h]⟩
  have hch : Children r k'.name us := ⟨n, hn, hname, hus⟩
  have hsize := children_size hch
  have hconf : ∀ u ∈ us, Conf cfg k' u := by
    intro u hu
    have : some u ∈ n.containers.map RContainer.root := by rw [hus]; exact List.mem_map_of_mem hu
    obtain ⟨c, h2, h3⟩ := List.mem_map.mp this
    exact hl.conf k' card hp n hn hname c h2 u h3
  obtain ⟨l, h1, h2⟩ := each_of (cfg := cfg) hg us fun u hu => by
    obtain ⟨v, hv⟩ := ih u k' (hsize u hu) (hconf u hu)
    exact ⟨v, hv, written_good (hconf u hu) hv⟩
  refine ⟨l, .mk hch h1, ?_⟩
  have hlen : l.length = n.containers.length := by
    rw [h2, ← List.length_map (f := some) (as := us), ← hus, List.length_map]
  rw [hlen]
  obtain ⟨_, ⟨s, card2⟩, hp2, hn2, ha⟩ := hl.tokNode hn hname
  have hcards := cards_unique k (mem_all k) line hl.mem _ hp _ hp2 (by rw [← hn2]; exact hname.symm)
  simp only at hcards ha
  rw [hcards]
  exact ha

theorem has_all (hl : Line cfg k r line) {k' : Kind} {card : Card} {mk : α → V} (hp : (Sym.tok k', card) ∈ line) (he : r.exists k'.name = true)
    (hg : ∀ v, Good k' v → ∃ x, v = mk x) (ih : WrittenInside cfg r) : ∃ l : List α, HasAll (Written cfg) r k' (l.map mk) := by
  obtain ⟨l, h, _⟩ := has_all_card hl hp he hg ih
  exact ⟨l, h⟩

theorem has_any (hl : Line cfg k r line) {k' : Kind} {card : Card} {mk : α → V} (hp : (Sym.tok k', card) ∈ line)
    (hg : ∀ v, Good k' v → ∃ x, v = mk x) (ih : WrittenInside cfg r) : ∃ l : List α, HasAny (Written cfg) r k' (l.map mk) := by
  cases he : r.exists k'.name with
  | false => exact ⟨[], .none he⟩
  | true =>
    obtain ⟨l, h⟩ := has_all hl hp he hg ih
    exact ⟨l, .some h⟩

theorem all_one {W : Kind → Root → V → Prop} {k' : Kind} {v : V} (h : HasAll W r k' [v]) : Has W r k' v := by
  cases h with
  | mk h1 h2 =>
    cases h2 with
    | cons h3 h4 =>
      cases h4
      obtain ⟨n, hn, h5, h6⟩ := h1
      simp only [List.map_cons, List.map_nil, List.map_eq_singleton_iff] at h6
      obtain ⟨c, hc, h7⟩ := h6
      exact .mk ⟨n, hn, h5, c, hc, h7⟩ h3

theorem has_text (hl : Line cfg k r line) {s : String} (hp : (Sym.rule s, Card.one) ∈ line) (he : r.exists (lit s) = true) : ∃ t, Texts r (lit s) [t] := by
  obtain ⟨n, hn, hname⟩ := (exists_iff r _).mp he
  obtain ⟨_, ⟨s', card2⟩, hp2, hn2, ha⟩ := hl.node hn (by rw [hname]; exact channel_not_line k (mem_all k) line hl.mem _ hp)
  have hcards := cards_unique k (mem_all k) line hl.mem _ hp _ hp2 (by rw [← hn2]; exact hname.symm)
  simp only at hcards ha
  rw [← hcards] at ha
  match hc : n.containers, ha with
  | [c], _ => exact ⟨c.content, n, hn, hname, by simp [hc]⟩

theorem has_float (hl : Line cfg .floatValue r line) (hp : (Sym.rule "INT_PATTERN", Card.between 2 2) ∈ line) (he : r.exists (lit "INT_PATTERN") = true) :
    ∃ a b, Texts r (lit "INT_PATTERN") [a, b] ∧ ∃ x, cfg.parseFloat ((if r.exists (lit "MINUS") then lit "-" else []) ++ a ++ lit "." ++ b) cfg.bitSize = .ok x := by
  obtain ⟨n, hn, hname⟩ := (exists_iff r _).mp he
  obtain ⟨_, ⟨s', card2⟩, hp2, hn2, ha⟩ := hl.node hn (by rw [hname]; exact channel_not_line _ (mem_all _) line hl.mem _ hp)
  have hcards := cards_unique _ (mem_all _) line hl.mem _ hp _ hp2 (by rw [← hn2]; exact hname.symm)
  simp only at hcards ha
  rw [← hcards] at ha
  match hc : n.containers, ha with
  | [a, b], _ => exact ⟨a.content, b.content, ⟨n, hn, hname, by simp [hc]⟩, hl.literals n hn hname a b hc⟩
  | [], ha => simp [Card.Allows] at ha
  | [_], ha => simp [Card.Allows] at ha
  | _ :: _ :: _ :: _, ha => simp [Card.Allows] at ha

/-- The names of a `for` are two at least. -/
theorem has_names (hl : Line cfg .forStatement r line) {card : Card} (hp : (Sym.tok .assigneeNames, card) ∈ line)
    (he : r.exists (Kind.name .assigneeNames) = true) (ih : WrittenInside cfg r) :
    ∃ a b l, Has (Written cfg) r .assigneeNames (.other (.assigneeNames (a :: b :: l))) := by
  obtain ⟨n, hn, hname⟩ := (exists_iff r _).mp he
  obtain ⟨c, hc⟩ := node_single hl (k' := .assigneeNames) (by decide +kernel) hn hname
  obtain ⟨u, hu⟩ := Option.ne_none_iff_exists'.mp (hl.roots _ card hp n hn hname c (by simp [hc]))
  have hch : Child r (Kind.name .assigneeNames) u := ⟨n, hn, hname, c, hc, hu⟩
  have hconf := child_conf hl hp hch
  obtain ⟨v, hv⟩ := ih u _ (inside_child hch) hconf
  have hx := written_reads u hconf hv
  have hcomma : u.exists (lit "commaAssigneeName") = true := hl.specifier n hn hname c (by simp [hc]) u hu
  have hy := (exec_iff hconf v).mp hx
  have hg : GoodAt .assigneeNames u v := by
    rcases hy.1 with hy' | hy'
    · obtain ⟨w, hw, h | h⟩ := delivers cfg _ u hconf _ hy'
      · simp only [Out.ok.injEq] at h; exact h ▸ hw
      · simp only [Out.ok.injEq] at h; exact absurd h (good_no_result hy.2 _)
    · obtain ⟨w, hw, h | h⟩ := delivers cfg _ u hconf _ hy'
      · simp only [Out.ok.injEq] at h; exact absurd h.symm (good_no_result hw.1 _)
      · simp only [Out.ok.injEq, Val.result.injEq, List.cons.injEq, and_true] at h; exact h ▸ hw
  obtain ⟨a, b, l, rfl⟩ := hg.2 rfl hcomma
  exact ⟨a, b, l, .mk hch hv⟩

theorem written_line (h : Conf cfg k r) (hl : Line cfg k r line) (ih : WrittenInside cfg r) : ∃ v, Written cfg k r v := by
  cases k with
  | program =>
    ev_lines hl hm
    subst hm
    obtain ⟨_, h1, _, rfl⟩ := has_line hl (k' := .instructions) (card := .one) (by decide) (by decide +kernel) (by ev_yes hl) ih
    obtain ⟨_, h2⟩ := has_opt hl (k' := .headerVariables) (card := .opt) (mk := fun x => .other (.headers x)) (by decide) (by decide +kernel) (fun _ h => h) ih
    exact ⟨_, .program h2 h1⟩
  | headerVariables =>
    ev_lines hl hm
    subst hm
    obtain ⟨_, h1⟩ := has_all hl (k' := .headerVariable) (card := .plus) (mk := fun x => .other (.header x)) (by decide) (by ev_yes hl) (fun _ h => h) ih
    exact ⟨_, .headers h1⟩
  | headerVariable =>
    ev_lines hl hm
    subst hm
    obtain ⟨_, h1, _, rfl⟩ := has_line hl (k' := .inputOutput) (card := .one) (by decide) (by decide +kernel) (by ev_yes hl) ih
    obtain ⟨_, h2, _, rfl⟩ := has_line hl (k' := .variableDeclaration) (card := .one) (by decide) (by decide +kernel) (by ev_yes hl) ih
    obtain ⟨_, h3⟩ := has_text hl (s := "KEYNAME_PATTERN") (by decide) (by ev_yes hl)
    exact ⟨_, .header h1 h2 h3⟩
  | inputOutput =>
    ev_lines hl hm
    rcases hm with rfl | rfl
    · exact ⟨_, .input (by ev_yes hl)⟩
    · exact ⟨_, .output (by ev_yes hl)⟩
  | instructions =>
    ev_lines hl hm
    subst hm
    obtain ⟨_, h1⟩ := has_all hl (k' := .instruction) (card := .plus) (mk := fun x => .other (.instruction x)) (by decide) (by ev_yes hl) (fun _ h => h) ih
    exact ⟨_, .instructions h1⟩
  | instruction =>
    ev_lines hl hm
    rcases hm with rfl | rfl | rfl | rfl | rfl | rfl | rfl
    · obtain ⟨_, h1, _, rfl⟩ := has_line hl (k' := .assignment) (card := .one) (by decide) (by decide +kernel) (by ev_yes hl) ih
      exact ⟨_, .instrAssignment h1⟩
    · obtain ⟨_, h1, _, rfl⟩ := has_line hl (k' := .variableDeclaration) (card := .one) (by decide) (by decide +kernel) (by ev_yes hl) ih
      exact ⟨_, .instrDeclaration h1⟩
    · obtain ⟨_, h1, ⟨_, _⟩, rfl⟩ := has_line hl (k' := .ifDeclaration) (card := .one) (by decide) (by decide +kernel) (by ev_yes hl) ih
      exact ⟨_, .instrIf h1⟩
    · obtain ⟨_, h1, ⟨_, _⟩, rfl⟩ := has_line hl (k' := .forDeclaration) (card := .one) (by decide) (by decide +kernel) (by ev_yes hl) ih
      exact ⟨_, .instrFor h1⟩
    · obtain ⟨_, h1, _, rfl⟩ := has_line hl (k' := .voidFuncCalls) (card := .one) (by decide) (by decide +kernel) (by ev_yes hl) ih
      exact ⟨_, .instrCall h1⟩
    · obtain ⟨_, h1, _, rfl⟩ := has_line hl (k' := .direction) (card := .one) (by decide) (by decide +kernel) (by ev_yes hl) ih
      exact ⟨_, .instrDirection h1⟩
    · obtain ⟨_, h1, _, rfl⟩ := has_line hl (k' := .intIncrement) (card := .one) (by decide) (by decide +kernel) (by ev_yes hl) ih
      exact ⟨_, .instrIncrement h1⟩
  | direction =>
    ev_lines hl hm
    rcases hm with rfl | rfl
    · exact ⟨_, .brk (by ev_yes hl)⟩
    · exact ⟨_, .cont (by ev_yes hl)⟩
  | voidFuncCalls =>
    ev_lines hl hm
    subst hm
    obtain ⟨_, h1, _, rfl⟩ := has_line hl (k' := .logFuncCall) (card := .one) (by decide) (by decide +kernel) (by ev_yes hl) ih
    exact ⟨_, .voidCall h1⟩
  | logFuncCall =>
    ev_lines hl hm
    subst hm
    obtain ⟨_, h1, _⟩ := has_line hl (k' := .assignable) (card := .one) (by decide) (by decide +kernel) (by ev_yes hl) ih
    exact ⟨_, .logCall h1⟩
  | listAppend =>
    ev_lines hl hm
    subst hm
    obtain ⟨_, h1, _, rfl⟩ := has_line hl (k' := .listValue) (card := .one) (by decide) (by decide +kernel) (by ev_yes hl) ih
    obtain ⟨_, h2, _, rfl⟩ := has_line hl (k' := .singleAssignable) (card := .one) (by decide) (by decide +kernel) (by ev_yes hl) ih
    exact ⟨_, .listAppend h1 h2⟩
  | slice =>
    ev_lines hl hm
    subst hm
    obtain ⟨_, h1, _, rfl⟩ := has_line hl (k' := .listValue) (card := .one) (by decide) (by decide +kernel) (by ev_yes hl) ih
    obtain ⟨_, h2, _, rfl⟩ := has_line hl (k' := .sliceDelimiter) (card := .one) (by decide) (by decide +kernel) (by ev_yes hl) ih
    exact ⟨_, .slice h1 h2⟩
  | sliceDelimiter =>
    ev_lines hl hm
    subst hm
    obtain ⟨l, h1, h2⟩ := has_all_card hl (k' := .indexValue) (card := .between 1 2) (mk := fun x => .other (.index x)) (by decide) (by ev_yes hl) (fun _ h => h) ih
    match l, h1, h2 with
    | [a], h1, _ => exact ⟨_, .delimiterOne h1⟩
    | [a, b], h1, _ => exact ⟨_, .delimiterTwo h1⟩
    | [], _, h2 => exact absurd h2.1 (by simp)
    | _ :: _ :: _ :: _, _, h2 => exact absurd h2.2 (by simp)
  | indexValue =>
    ev_lines hl hm
    rcases hm with rfl | rfl
    · obtain ⟨_, h1⟩ := has_text hl (s := "INT_PATTERN") (by decide) (by ev_yes hl)
      obtain ⟨z, hz⟩ := literal_index h h1
      exact ⟨_, .indexNumber h1 ((C72_unsigned _ _ _).mp hz).1⟩
    · obtain ⟨_, h1, _, rfl, _⟩ := has_line hl (k' := .variableName) (card := .one) (by decide) (by decide +kernel) (by ev_yes hl) ih
      exact ⟨_, .indexVariable h1⟩
  | forDeclaration =>
    ev_lines hl hm
    subst hm
    obtain ⟨_, h1, _, rfl⟩ := has_line hl (k' := .forStatement) (card := .one) (by decide) (by decide +kernel) (by ev_yes hl) ih
    obtain ⟨_, h2⟩ := has_opt hl (k' := .instructions) (card := .opt) (mk := fun x => .other (.instructions x)) (by decide) (by decide +kernel) (fun _ h => h) ih
    exact ⟨_, .forDecl h1 h2⟩
  | forStatement =>
    ev_lines hl hm
    rcases hm with rfl | rfl
    · obtain ⟨a, b, l, h1⟩ := has_names hl (card := .one) (by decide) (by ev_yes hl) ih
      obtain ⟨_, h2, _, rfl⟩ := has_line hl (k' := .totalListValue) (card := .one) (by decide) (by decide +kernel) (by ev_yes hl) ih
      exact ⟨_, .forStatement h1 h2⟩
    · obtain ⟨_, h1, _⟩ := has_line hl (k' := .forStatement) (card := .one) (by decide) (by decide +kernel) (by ev_yes hl) ih
      exact ⟨_, .forParentheses h1⟩
  | ifDeclaration =>
    ev_lines hl hm
    subst hm
    obtain ⟨_, h1, _, rfl⟩ := has_line hl (k' := .ifOperation) (card := .one) (by decide) (by decide +kernel) (by ev_yes hl) ih
    obtain ⟨_, h2⟩ := has_opt hl (k' := .instructions) (card := .opt) (mk := fun x => .other (.instructions x)) (by decide) (by decide +kernel) (fun _ h => h) ih
    exact ⟨_, .ifDecl h1 h2⟩
  | ifOperation =>
    ev_lines hl hm
    subst hm
    obtain ⟨_, h1, _⟩ := has_line hl (k' := .operation) (card := .one) (by decide) (by decide +kernel) (by ev_yes hl) ih
    exact ⟨_, .ifOperation h1⟩
  | operation =>
    ev_lines hl hm
    rcases hm with rfl | rfl | rfl
    · obtain ⟨_, h1, _⟩ := has_line hl (k' := .operationWithSuffix) (card := .one) (by decide) (by decide +kernel) (by ev_yes hl) ih
      exact ⟨_, .operation h1⟩
    · obtain ⟨_, h1, _, rfl⟩ := has_line hl (k' := .operationFuncCalls) (card := .one) (by decide) (by decide +kernel) (by ev_yes hl) ih
      exact ⟨_, .operationCall h1⟩
    · obtain ⟨_, h1, _⟩ := has_line hl (k' := .operation) (card := .one) (by decide) (by decide +kernel) (by ev_yes hl) ih
      exact ⟨_, .operationParentheses h1⟩
  | operationWithSuffix =>
    ev_lines hl hm
    subst hm
    obtain ⟨_, h1, e, rfl⟩ := has_line hl (k' := .operationElement) (card := .one) (by decide) (by decide +kernel) (by ev_yes hl) ih
    cases he : r.exists (lit "operationSuffix") with
    | true =>
      obtain ⟨_, h2, _, rfl⟩ := has_line hl (k' := .operationSuffix) (card := .opt) (by decide) (by decide +kernel) he ih
      exact ⟨_, .suffixed h1 h2⟩
    | false =>
      by_cases ho : ∃ o, e = .op o
      · obtain ⟨o, rfl⟩ := ho; exact ⟨_, .inner h1 he⟩
      · exact ⟨_, .plain h1 he fun o h => ho ⟨o, h⟩⟩
  | operationSuffix =>
    ev_lines hl hm
    subst hm
    obtain ⟨_, h1, _, rfl⟩ := has_line hl (k' := .operator) (card := .one) (by decide) (by decide +kernel) (by ev_yes hl) ih
    obtain ⟨_, h2, _, rfl⟩ := has_line hl (k' := .operationElement) (card := .one) (by decide) (by decide +kernel) (by ev_yes hl) ih
    exact ⟨_, .suffix h1 h2⟩
  | operationElement =>
    ev_lines hl hm
    rcases hm with rfl | rfl | rfl | rfl
    · obtain ⟨_, h1, _, rfl⟩ := has_line hl (k' := .boolValue) (card := .one) (by decide) (by decide +kernel) (by ev_yes hl) ih
      exact ⟨_, .elementBool h1⟩
    · obtain ⟨_, h1, _, rfl, _⟩ := has_line hl (k' := .variableName) (card := .one) (by decide) (by decide +kernel) (by ev_yes hl) ih
      exact ⟨_, .elementVariable h1⟩
    · obtain ⟨_, h1, _, rfl⟩ := has_line hl (k' := .computableValue) (card := .one) (by decide) (by decide +kernel) (by ev_yes hl) ih
      exact ⟨_, .elementValue h1⟩
    · obtain ⟨_, h1, _, rfl⟩ := has_line hl (k' := .operation) (card := .one) (by decide) (by decide +kernel) (by ev_yes hl) ih
      exact ⟨_, .elementOperation h1⟩
  | operationFuncCalls =>
    ev_lines hl hm
    subst hm
    obtain ⟨_, h1, _, rfl⟩ := has_line hl (k' := .isNullFuncCall) (card := .one) (by decide) (by decide +kernel) (by ev_yes hl) ih
    exact ⟨_, .funcCall h1⟩
  | isNullFuncCall =>
    ev_lines hl hm
    subst hm
    obtain ⟨_, h1, _⟩ := has_line hl (k' := .operation) (card := .one) (by decide) (by decide +kernel) (by ev_yes hl) ih
    exact ⟨_, .isNull h1⟩
  | operator =>
    ev_lines hl hm
    rcases hm with rfl | rfl | rfl
    · obtain ⟨_, h1, _⟩ := has_line hl (k' := .operatorArithmetic) (card := .one) (by decide) (by decide +kernel) (by ev_yes hl) ih
      exact ⟨_, .operatorA h1⟩
    · obtain ⟨_, h1, _⟩ := has_line hl (k' := .operatorRelational) (card := .one) (by decide) (by decide +kernel) (by ev_yes hl) ih
      exact ⟨_, .operatorR h1⟩
    · obtain ⟨_, h1, _⟩ := has_line hl (k' := .operatorLogical) (card := .one) (by decide) (by decide +kernel) (by ev_yes hl) ih
      exact ⟨_, .operatorL h1⟩
  | operatorArithmetic =>
    obtain ⟨v, hv, f, rfl⟩ := reading h
    obtain ⟨op, h1, h2, rfl⟩ := reads_operatorArithmetic h hv
    exact ⟨_, .arithmetic h1 h2⟩
  | operatorRelational =>
    obtain ⟨v, hv, f, rfl⟩ := reading h
    obtain ⟨op, h1, h2, rfl⟩ := reads_operatorRelational h hv
    exact ⟨_, .relational h1 h2⟩
  | operatorLogical =>
    obtain ⟨v, hv, f, rfl⟩ := reading h
    obtain ⟨op, h1, h2, rfl⟩ := reads_operatorLogical h hv
    exact ⟨_, .logical h1 h2⟩
  | assignment =>
    ev_lines hl hm
    subst hm
    obtain ⟨_, h1, _, rfl⟩ := has_line hl (k' := .assignee) (card := .one) (by decide) (by decide +kernel) (by ev_yes hl) ih
    obtain ⟨_, h2, _, rfl⟩ := has_line hl (k' := .assignables) (card := .one) (by decide) (by decide +kernel) (by ev_yes hl) ih
    exact ⟨_, .assignment h1 h2⟩
  | assignee =>
    ev_lines hl hm
    rcases hm with rfl | rfl
    · obtain ⟨_, h1, _, rfl⟩ := has_line hl (k' := .assigneeNameFirsts) (card := .one) (by decide) (by decide +kernel) (by ev_yes hl) ih
      exact ⟨_, .assigneeFirst h1⟩
    · obtain ⟨_, h1, _, rfl⟩ := has_line hl (k' := .assigneeNames) (card := .one) (by decide) (by decide +kernel) (by ev_yes hl) ih
      exact ⟨_, .assigneeName h1⟩
  | assigneeNameFirsts =>
    ev_lines hl hm
    subst hm
    obtain ⟨_, h1, _, rfl⟩ := has_line hl (k' := .assigneeNameFirst) (card := .one) (by decide) (by decide +kernel) (by ev_yes hl) ih
    obtain ⟨_, h2⟩ := has_any hl (k' := .commaAssigneeFirst) (card := .star) (mk := fun x => .other (.assigneeFirst x)) (by decide) (fun _ h => h) ih
    exact ⟨_, .firsts h1 h2⟩
  | commaAssigneeFirst =>
    ev_lines hl hm
    subst hm
    obtain ⟨_, h1, _⟩ := has_line hl (k' := .assigneeNameFirst) (card := .one) (by decide) (by decide +kernel) (by ev_yes hl) ih
    exact ⟨_, .commaFirst h1⟩
  | assigneeNameFirst =>
    ev_lines hl hm
    rcases hm with rfl | rfl
    · obtain ⟨_, h1, _, rfl⟩ := has_line hl (k' := .variableDeclaration) (card := .one) (by decide) (by decide +kernel) (by ev_yes hl) ih
      exact ⟨_, .firstDeclaration h1⟩
    · obtain ⟨_, h1, _, rfl⟩ := has_line hl (k' := .assigneeName) (card := .one) (by decide) (by decide +kernel) (by ev_yes hl) ih
      exact ⟨_, .firstName h1⟩
  | assigneeNames =>
    ev_lines hl hm
    subst hm
    obtain ⟨_, h1, _, rfl⟩ := has_line hl (k' := .assigneeName) (card := .one) (by decide) (by decide +kernel) (by ev_yes hl) ih
    obtain ⟨_, h2⟩ := has_any hl (k' := .commaAssigneeName) (card := .star) (mk := fun x => .other (.assigneeName x)) (by decide) (fun _ h => h) ih
    exact ⟨_, .names h1 h2⟩
  | commaAssigneeName =>
    ev_lines hl hm
    subst hm
    obtain ⟨_, h1, _⟩ := has_line hl (k' := .assigneeName) (card := .one) (by decide) (by decide +kernel) (by ev_yes hl) ih
    exact ⟨_, .commaName h1⟩
  | assigneeName =>
    ev_lines hl hm
    rcases hm with rfl | rfl
    · obtain ⟨_, h1, _, rfl, _⟩ := has_line hl (k' := .variableName) (card := .one) (by decide) (by decide +kernel) (by ev_yes hl) ih
      exact ⟨_, .nameVariable h1⟩
    · exact ⟨_, .nameSkip (by ev_yes hl)⟩
  | assignables =>
    ev_lines hl hm
    subst hm
    obtain ⟨_, h1, _, rfl⟩ := has_line hl (k' := .assignable) (card := .one) (by decide) (by decide +kernel) (by ev_yes hl) ih
    obtain ⟨_, h2⟩ := has_any hl (k' := .commaAssignable) (card := .star) (mk := fun x => .other (.assignable x)) (by decide) (fun _ h => h) ih
    exact ⟨_, .assignables h1 h2⟩
  | commaAssignable =>
    ev_lines hl hm
    subst hm
    obtain ⟨_, h1, _⟩ := has_line hl (k' := .assignable) (card := .one) (by decide) (by decide +kernel) (by ev_yes hl) ih
    exact ⟨_, .commaAssignable h1⟩
  | assignable =>
    ev_lines hl hm
    rcases hm with rfl | rfl
    · obtain ⟨_, h1, _, rfl⟩ := has_line hl (k' := .totalListAssignable) (card := .one) (by decide) (by decide +kernel) (by ev_yes hl) ih
      exact ⟨_, .assignableList h1⟩
    · obtain ⟨_, h1, _, rfl⟩ := has_line hl (k' := .singleAssignable) (card := .one) (by decide) (by decide +kernel) (by ev_yes hl) ih
      exact ⟨_, .assignableSingle h1⟩
  | singleAssignable =>
    ev_lines hl hm
    rcases hm with rfl | rfl | rfl | rfl
    · obtain ⟨_, h1, _, rfl⟩ := has_line hl (k' := .declarableValue) (card := .one) (by decide) (by decide +kernel) (by ev_yes hl) ih
      exact ⟨_, .singleValue h1⟩
    · obtain ⟨_, h1, _, rfl⟩ := has_line hl (k' := .operation) (card := .one) (by decide) (by decide +kernel) (by ev_yes hl) ih
      exact ⟨_, .singleOperation h1⟩
    · obtain ⟨_, h1, _, rfl⟩ := has_line hl (k' := .listAssignableToAssignables) (card := .one) (by decide) (by decide +kernel) (by ev_yes hl) ih
      exact ⟨_, .singleExtract h1⟩
    · obtain ⟨_, h1, _, rfl⟩ := has_line hl (k' := .listFetchElement) (card := .one) (by decide) (by decide +kernel) (by ev_yes hl) ih
      exact ⟨_, .singleFetch h1⟩
  | listFetchElement =>
    ev_lines hl hm
    subst hm
    obtain ⟨_, h1, _, rfl⟩ := has_line hl (k' := .totalListValue) (card := .one) (by decide) (by decide +kernel) (by ev_yes hl) ih
    obtain ⟨_, h2, _, rfl⟩ := has_line hl (k' := .listElementFetcher) (card := .one) (by decide) (by decide +kernel) (by ev_yes hl) ih
    exact ⟨_, .fetch h1 h2⟩
  | listElementFetcher =>
    ev_lines hl hm
    subst hm
    obtain ⟨l, h1, h2⟩ := has_all_card hl (k' := .indexValue) (card := .one) (mk := fun x => .other (.index x)) (by decide) (by ev_yes hl) (fun _ h => h) ih
    match l, h1, h2 with
    | [a], h1, _ => exact ⟨_, .fetcher (all_one h1)⟩
    | [], _, h2 => exact absurd h2 (by simp [Card.Allows])
    | _ :: _ :: _, _, h2 => exact absurd h2 (by simp [Card.Allows])
  | listAssignableToAssignables =>
    ev_lines hl hm
    rcases hm with rfl | rfl
    · obtain ⟨_, h1, _⟩ := has_line hl (k' := .totalListAssignable) (card := .one) (by decide) (by decide +kernel) (by ev_yes hl) ih
      exact ⟨_, .extract h1⟩
    · obtain ⟨_, h1, _⟩ := has_line hl (k' := .totalListAssignable) (card := .one) (by decide) (by decide +kernel) (by ev_yes hl) ih
      exact ⟨_, .extract h1⟩
  | totalListValue =>
    ev_lines hl hm
    rcases hm with rfl | rfl
    · obtain ⟨_, h1, _, rfl, _⟩ := has_line hl (k' := .variableName) (card := .one) (by decide) (by decide +kernel) (by ev_yes hl) ih
      exact ⟨_, .totalVariable h1⟩
    · obtain ⟨_, h1, _, rfl⟩ := has_line hl (k' := .totalListAssignable) (card := .one) (by decide) (by decide +kernel) (by ev_yes hl) ih
      exact ⟨_, .totalAssignable h1⟩
  | totalListAssignable =>
    ev_lines hl hm
    rcases hm with rfl | rfl | rfl
    · obtain ⟨_, h1, _, rfl⟩ := has_line hl (k' := .listValue) (card := .one) (by decide) (by decide +kernel) (by ev_yes hl) ih
      exact ⟨_, .totalList h1⟩
    · obtain ⟨_, h1, _, rfl⟩ := has_line hl (k' := .slice) (card := .one) (by decide) (by decide +kernel) (by ev_yes hl) ih
      exact ⟨_, .totalSlice h1⟩
    · obtain ⟨_, h1, _, rfl⟩ := has_line hl (k' := .listAppend) (card := .one) (by decide) (by decide +kernel) (by ev_yes hl) ih
      exact ⟨_, .totalAppend h1⟩
  | listValue =>
    ev_lines hl hm
    rcases hm with rfl | rfl
    · obtain ⟨_, h1, _, rfl⟩ := has_line hl (k' := .listAssignable) (card := .one) (by decide) (by decide +kernel) (by ev_yes hl) ih
      exact ⟨_, .listLiteral h1⟩
    · obtain ⟨_, h1, _, rfl, _⟩ := has_line hl (k' := .variableName) (card := .one) (by decide) (by decide +kernel) (by ev_yes hl) ih
      exact ⟨_, .listVariable h1⟩
  | listAssignable =>
    ev_lines hl hm
    subst hm
    cases he : r.exists (lit "assignables") with
    | true =>
      obtain ⟨_, h2, _⟩ := has_line hl (k' := .assignables) (card := .opt) (by decide) (by decide +kernel) he ih
      exact ⟨_, .elements h2⟩
    | false => exact ⟨_, .empty he⟩
  | intIncrement =>
    ev_lines hl hm
    subst hm
    obtain ⟨_, h1, _, rfl, _⟩ := has_line hl (k' := .variableName) (card := .one) (by decide) (by decide +kernel) (by ev_yes hl) ih
    obtain ⟨_, h2, _, rfl⟩ := has_line hl (k' := .intIncrementValue) (card := .one) (by decide) (by decide +kernel) (by ev_yes hl) ih
    exact ⟨_, .increment h1 h2⟩
  | intIncrementValue =>
    ev_lines hl hm
    rcases hm with rfl | rfl
    · exact ⟨_, .up (by ev_yes hl)⟩
    · exact ⟨_, .down (by ev_yes hl)⟩
  | declarableValue =>
    ev_lines hl hm
    rcases hm with rfl | rfl
    · obtain ⟨_, h1, _⟩ := has_line hl (k' := .computableValue) (card := .one) (by decide) (by decide +kernel) (by ev_yes hl) ih
      exact ⟨_, .declarableC h1⟩
    · obtain ⟨_, h1, _⟩ := has_line hl (k' := .primitiveValue) (card := .one) (by decide) (by decide +kernel) (by ev_yes hl) ih
      exact ⟨_, .declarableP h1⟩
  | computableValue =>
    ev_lines hl hm
    rcases hm with rfl | rfl
    · obtain ⟨_, h1, _⟩ := has_line hl (k' := .floatValue) (card := .one) (by decide) (by decide +kernel) (by ev_yes hl) ih
      exact ⟨_, .computableF h1⟩
    · obtain ⟨_, h1, _⟩ := has_line hl (k' := .intValue) (card := .one) (by decide) (by decide +kernel) (by ev_yes hl) ih
      exact ⟨_, .computableI h1⟩
  | primitiveValue =>
    ev_lines hl hm
    rcases hm with rfl | rfl
    · obtain ⟨_, h1, _⟩ := has_line hl (k' := .boolValue) (card := .one) (by decide) (by decide +kernel) (by ev_yes hl) ih
      exact ⟨_, .primitiveB h1⟩
    · obtain ⟨_, h1, _⟩ := has_line hl (k' := .stringValue) (card := .one) (by decide) (by decide +kernel) (by ev_yes hl) ih
      exact ⟨_, .primitiveS h1⟩
  | stringValue =>
    ev_lines hl hm
    subst hm
    obtain ⟨_, h1⟩ := has_text hl (s := "EVERYTHING_EXCEPT_QUOTATION") (by decide) (by ev_yes hl)
    exact ⟨_, .text h1⟩
  | boolValue =>
    ev_lines hl hm
    rcases hm with rfl | rfl
    · exact ⟨_, .yes (by ev_yes hl)⟩
    · exact ⟨_, .no (by ev_yes hl)⟩
  | intValue =>
    ev_lines hl hm
    subst hm
    obtain ⟨_, h1⟩ := has_text hl (s := "INT_PATTERN") (by decide) (by ev_yes hl)
    cases he : r.exists (lit "MINUS") with
    | false =>
      obtain ⟨z, hz⟩ := literal_int h h1 he
      exact ⟨_, .positive h1 ((C72_unsigned _ _ _).mp hz).1 he⟩
    | true =>
      obtain ⟨z, hz⟩ := literal_neg h h1 he
      obtain ⟨n, _, hn, _⟩ := (C72_negative _ _ _).mp hz
      exact ⟨_, .negative h1 hn he⟩
  | floatValue =>
    ev_lines hl hm
    subst hm
    obtain ⟨a, b, h1, x, hx⟩ := has_float hl (by decide) (by ev_yes hl)
    cases he : r.exists (lit "MINUS") with
    | false => rw [he] at hx; exact ⟨_, .float h1 he hx⟩
    | true => rw [he] at hx; exact ⟨_, .negativeFloat h1 he hx⟩
  | variableDeclarations =>
    ev_lines hl hm
    subst hm
    obtain ⟨_, h1, _, rfl⟩ := has_line hl (k' := .variableDeclaration) (card := .one) (by decide) (by decide +kernel) (by ev_yes hl) ih
    obtain ⟨_, h2⟩ := has_any hl (k' := .commaVariableDeclaration) (card := .star) (mk := fun x => .other (.decl x)) (by decide) (fun _ h => h) ih
    exact ⟨_, .declarations h1 h2⟩
  | commaVariableDeclaration =>
    ev_lines hl hm
    subst hm
    obtain ⟨_, h1, _⟩ := has_line hl (k' := .variableDeclaration) (card := .one) (by decide) (by decide +kernel) (by ev_yes hl) ih
    exact ⟨_, .commaDeclaration h1⟩
  | variableDeclaration =>
    ev_lines hl hm
    subst hm
    obtain ⟨_, h1, _, rfl⟩ := has_line hl (k' := .declarativeType) (card := .one) (by decide) (by decide +kernel) (by ev_yes hl) ih
    obtain ⟨_, h2, _, rfl, _⟩ := has_line hl (k' := .variableName) (card := .one) (by decide) (by decide +kernel) (by ev_yes hl) ih
    exact ⟨_, .declaration h1 h2⟩
  | declarativeType =>
    ev_lines hl hm
    rcases hm with rfl | rfl | rfl
    · obtain ⟨_, h1, _, rfl⟩ := has_line hl (k' := .primitiveType) (card := .one) (by decide) (by decide +kernel) (by ev_yes hl) ih
      exact ⟨_, .typePrimitive h1⟩
    · obtain ⟨_, h1, _, rfl⟩ := has_line hl (k' := .computableType) (card := .one) (by decide) (by decide +kernel) (by ev_yes hl) ih
      exact ⟨_, .typeComputable h1⟩
    · obtain ⟨_, h1, _, rfl⟩ := has_line hl (k' := .listType) (card := .one) (by decide) (by decide +kernel) (by ev_yes hl) ih
      exact ⟨_, .typeList h1⟩
  | listType =>
    ev_lines hl hm
    subst hm
    obtain ⟨_, h1, _⟩ := has_line hl (k' := .declarativeType) (card := .one) (by decide) (by decide +kernel) (by ev_yes hl) ih
    exact ⟨_, .listType h1⟩
  | primitiveType =>
    ev_lines hl hm
    rcases hm with rfl | rfl
    · exact ⟨_, .bool (by ev_yes hl)⟩
    · exact ⟨_, .string (by ev_yes hl)⟩
  | computableType =>
    ev_lines hl hm
    rcases hm with rfl | rfl | rfl
    · exact ⟨_, .floatType (by ev_yes hl)⟩
    · exact ⟨_, .uintType (by ev_yes hl)⟩
    · exact ⟨_, .intType (by ev_yes hl)⟩
  | variableName =>
    ev_lines hl hm
    subst hm
    obtain ⟨_, h1⟩ := has_text hl (s := "FIRST_LETTER") (by decide) (by ev_yes hl)
    obtain ⟨_, h2⟩ := has_text hl (s := "MIN_MAJ_LETTERS") (by decide) (by ev_yes hl)
    exact ⟨_, .name h1 h2⟩

/-- In every tree of the grammar, an object is written. -/
theorem written_exists (r : Root) : ∀ {k : Kind}, Conf cfg k r → ∃ v, Written cfg k r v := by
  induction hs : sizeOf r using Nat.strongRecOn generalizing r with
  | _ s ih =>
    subst hs
    intro k h
    obtain ⟨line, hl⟩ := h.line
    exact written_line h hl fun u k hu hc => ih _ hu u rfl hc

end Verif.Base
