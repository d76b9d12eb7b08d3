import Verif.Lemmas.BaseReads
import Verif.Lemmas.BaseCheck
import Verif.Props.BaseParser

/-!
# C74, C75: parts of the tree which the parser of the base language confuses

`Trigger` looks for a name in the whole tree below the root, in an arbitrary order. For the names which also occur deeper, the part of
another element may be read instead of the own one. The claims C74 (operations, conditions) and C75 (lists with commas) are thus false; the
theorems give, for every tree of the shape, a wrong reading beside the right one.
-/

namespace Verif.Base
open Verif.Patterns Verif.Lexer

/-- The parser may read a root as the value. -/
abbrev MayBe (cfg : Cfg) (u : Root) (v : BVal) : Prop := ExecuteRun (baseEvents cfg) u (.ok [.other v])

/-! ## C74 -/

theorem suffix_parts {cfg : Cfg} {s o b : Root} (h : Conf cfg .operationSuffix s) (ho : Child s (lit "operator") o)
    (hb : Child s (lit "operationElement") b) {f : Nat} {e : OpElement} (h1 : MayBe cfg o (.flag16 f)) (h2 : MayBe cfg b (.element e)) :
    MayBe cfg s (.suffix (.mk f e)) := by
  refine exec_of h ?_ (by simp)
  rw [evOf, evOperationSuffix]
  exact opt_may (k' := .operator) (f := asFlag16) (child_exists ho) (may_own .operator h ho h1) rfl
    (by exact opt_may (k' := .operationElement) (f := asElement) (child_exists hb) (may_own .operationElement h hb h2) rfl (by exact (run_done _ _).mpr rfl))

/-- C74 (violation): every operation `a ∘ b` may be read as itself, and may be read as `b ∘ b`. -/
theorem C74_violation_operands (cfg : Cfg) (r a s o b : Root) (h : Conf cfg .operationWithSuffix r) (ha : Child r (lit "operationElement") a)
    (hs : Child r (lit "operationSuffix") s) (ho : Child s (lit "operator") o) (hb : Child s (lit "operationElement") b) (f : Nat)
    (x y : OpElement) (h1 : MayBe cfg a (.element x)) (h2 : MayBe cfg o (.flag16 f)) (h3 : MayBe cfg b (.element y)) :
    MayBe cfg r (.operation (.suffixed x (.mk f y))) ∧ MayBe cfg r (.operation (.suffixed y (.mk f y))) := by
  have hsc : Conf cfg .operationSuffix s := part_conf (k' := .operationSuffix) h hs
  have hsv := suffix_parts hsc ho hb h2 h3
  have key : ∀ z, MayRead cfg .operationElement r (.other (.element z)) → MayBe cfg r (.operation (.suffixed z (.mk f y))) := by
    intro z hz
    refine exec_of h ?_ (by simp)
    rw [evOf, evOperationWithSuffix]
    exact opt_may (k' := .operationElement) (f := asElement) (child_exists ha) hz rfl
      (by exact opt_may (k' := .operationSuffix) (f := asSuffix) (child_exists hs) (may_own .operationSuffix h hs hsv) rfl (by exact (run_done _ _).mpr rfl))
  exact ⟨key x (may_own .operationElement h ha h1), key y (may_sub h (child_children hs) (by decide +kernel) (may_own .operationElement hsc hb h3))⟩

/-- C74 (violation): every `if a { if b { … } … }` may be read as an if declaration with the condition `b`. -/
theorem C74_violation_if (cfg : Cfg) (r a b i d c : Root) (is : List Root) (h : Conf cfg .ifDeclaration r) (ha : Child r (lit "ifOperation") a)
    (hb : Child r (lit "instructions") b) (hi : Children b (lit "instruction") (i :: is)) (hd : Child i (lit "ifDeclaration") d)
    (hc : Child d (lit "ifOperation") c) (x y : Operation) (l : List Instruction) (h1 : MayBe cfg a (.operation x)) (h2 : MayBe cfg c (.operation y))
    (h3 : MayBe cfg b (.instructions l)) : MayBe cfg r (.ifDecl (x, some l)) ∧ MayBe cfg r (.ifDecl (y, some l)) := by
  have hbc : Conf cfg .instructions b := part_conf (k' := .instructions) h hb
  have hic : Conf cfg .instruction i := parts_conf (k' := .instruction) hbc hi i (by simp)
  have hdc : Conf cfg .ifDeclaration d := part_conf (k' := .ifDeclaration) hic hd
  have key : ∀ z, MayRead cfg .ifOperation r (.other (.operation z)) → MayBe cfg r (.ifDecl (z, some l)) := by
    intro z hz
    refine exec_of h ?_ (by simp)
    rw [evOf, evIfDeclaration]
    exact opt_may (k' := .ifOperation) (f := asOperation) (child_exists ha) hz rfl
      (by exact opt_may (k' := .instructions) (f := asInstructions) (child_exists hb) (may_own .instructions h hb h3) rfl (by exact (run_done _ _).mpr rfl))
  exact ⟨key x (may_own .ifOperation h ha h1), key y (may_sub h (child_children hb) (by decide +kernel) (may_sub hbc hi (by decide +kernel)
    (may_sub hic (child_children hd) (by decide +kernel) (may_own .ifOperation hdc hc h2))))⟩

/-- C74 (violation): every `for a { for b { … } … }` may be read as a for declaration with the statement `b`. -/
theorem C74_violation_for (cfg : Cfg) (r a b i d c : Root) (is : List Root) (h : Conf cfg .forDeclaration r) (ha : Child r (lit "forStatement") a)
    (hb : Child r (lit "instructions") b) (hi : Children b (lit "instruction") (i :: is)) (hd : Child i (lit "forDeclaration") d)
    (hc : Child d (lit "forStatement") c) (x y : ForStatement) (l : List Instruction) (h1 : MayBe cfg a (.forStatement x))
    (h2 : MayBe cfg c (.forStatement y)) (h3 : MayBe cfg b (.instructions l)) :
    MayBe cfg r (.forDecl (x, some l)) ∧ MayBe cfg r (.forDecl (y, some l)) := by
  have hbc : Conf cfg .instructions b := part_conf (k' := .instructions) h hb
  have hic : Conf cfg .instruction i := parts_conf (k' := .instruction) hbc hi i (by simp)
  have hdc : Conf cfg .forDeclaration d := part_conf (k' := .forDeclaration) hic hd
  have key : ∀ z, MayRead cfg .forStatement r (.other (.forStatement z)) → MayBe cfg r (.forDecl (z, some l)) := by
    intro z hz
    refine exec_of h ?_ (by simp)
    rw [evOf, evForDeclaration]
    exact need_may (k' := .forStatement) (f := asForStatement) hz rfl
      (by exact opt_may (k' := .instructions) (f := asInstructions) (child_exists hb) (may_own .instructions h hb h3) rfl (by exact (run_done _ _).mpr rfl))
  exact ⟨key x (may_own .forStatement h ha h1), key y (may_sub h (child_children hb) (by decide +kernel) (may_sub hbc hi (by decide +kernel)
    (may_sub hic (child_children hd) (by decide +kernel) (may_own .forStatement hdc hc h2))))⟩

/-- What may be read for a name in the tree. -/
theorem may_first {cfg : Cfg} {k' : Kind} {r u : Root} (hf : FirstIn k'.name r u) : ∀ {k : Kind}, Conf cfg k r → ∀ {v : V},
    ExecuteRun (baseEvents cfg) u (.ok [v]) → MayRead cfg k' r v := by
  induction hf with
  | here h => intro k hc v hx; exact may_own k' hc h hx
  | @there r w u s ws h hne _ ih =>
    intro k hc v hx
    obtain ⟨n, hn, h1, hcs⟩ := h
    obtain ⟨line, hl⟩ := hc.line
    have hcw : ∃ c ∈ n.containers, c.root = some w := by
      have : some w ∈ n.containers.map RContainer.root := by rw [hcs]; simp
      obtain ⟨c, h2, h3⟩ := List.mem_map.mp this
      exact ⟨c, h2, h3⟩
    obtain ⟨c, hc2, hcw⟩ := hcw
    obtain ⟨_, ⟨sy, card⟩, hp, hpn, _⟩ := hl.treeNode hn hc2 hcw
    cases sy with
    | rule sy => exact absurd (hl.rules sy card hp n hn hpn c hc2) (by simp [hcw])
    | tok k2 => exact may_sub hc ⟨n, hn, h1, hcs⟩ hne (ih (hl.conf k2 card hp n hn hpn c hc2 w hcw) hx)

/-- C74 (violation): `∘ e` where `e` contains an operation `b • c` may be read as `∘ e`, and may be read as `• e`. -/
theorem C74_violation_operator (cfg : Cfg) (s o e o2 : Root) (h : Conf cfg .operationSuffix s) (ho : Child s (lit "operator") o)
    (he : Child s (lit "operationElement") e) (ho2 : FirstIn (lit "operator") e o2) (f g : Nat) (x : OpElement) (h1 : MayBe cfg o (.flag16 f))
    (h2 : MayBe cfg o2 (.flag16 g)) (h3 : MayBe cfg e (.element x)) :
    MayBe cfg s (.suffix (.mk f x)) ∧ MayBe cfg s (.suffix (.mk g x)) := by
  have key : ∀ z, MayRead cfg .operator s (.other (.flag16 z)) → MayRead cfg .operationElement s (.other (.element x)) → MayBe cfg s (.suffix (.mk z x)) := by
    intro z hz hx
    refine exec_of h ?_ (by simp)
    rw [evOf, evOperationSuffix]
    exact opt_may (k' := .operator) (f := asFlag16) (child_exists ho) hz rfl
      (by exact opt_may (k' := .operationElement) (f := asElement) (child_exists he) hx rfl (by exact (run_done _ _).mpr rfl))
  have hx := may_own .operationElement h he h3
  exact ⟨key f (may_own .operator h ho h1) hx,
    key g (may_first (k' := .operator) (.there (child_children he) (by decide +kernel) ho2) h h2) hx⟩

/-- C74 (violation): `l[i]`, where an element `m[j]` is found first in `l`, may be read as `l[i]`, and may be read as `l[j]`. -/
theorem C74_violation_fetch (cfg : Cfg) (r l i j : Root) (h : Conf cfg .listFetchElement r) (hl : Child r (lit "totalListValue") l)
    (hi : Child r (lit "listElementFetcher") i) (hj : FirstIn (lit "listElementFetcher") l j) (x : TotalListValue) (y z : IndexValue)
    (h1 : MayBe cfg l (.totalValue x)) (h2 : MayBe cfg i (.index y)) (h3 : MayBe cfg j (.index z)) :
    MayBe cfg r (.fetch (.mk x y)) ∧ MayBe cfg r (.fetch (.mk x z)) := by
  have key : ∀ z, MayRead cfg .listElementFetcher r (.other (.index z)) → MayBe cfg r (.fetch (.mk x z)) := by
    intro z hz
    refine exec_of h ?_ (by simp)
    rw [evOf, evListFetchElement]
    exact call_may (k' := .totalListValue) (may_own .totalListValue h hl h1) (by exact call_may (k' := .listElementFetcher) hz (by exact (run_done _ _).mpr rfl))
  exact ⟨key y (may_own .listElementFetcher h hi h2),
    key z (may_first (k' := .listElementFetcher) (.there (child_children hl) (by decide +kernel) hj) h h3)⟩

/-- C74 (violation): `l[i:j]`, where a slice `m[k:l]` is found first in `l`, may be read as `l[i:j]`, and may be read with the bounds of the other. -/
theorem C74_violation_slice (cfg : Cfg) (r l d d2 : Root) (h : Conf cfg .slice r) (hl : Child r (lit "listValue") l)
    (hd : Child r (lit "sliceDelimiter") d) (hd2 : FirstIn (lit "sliceDelimiter") l d2) (x : ListValue) (y z : SliceDelimiter)
    (h1 : MayBe cfg l (.listValue x)) (h2 : MayBe cfg d (.delimiter y)) (h3 : MayBe cfg d2 (.delimiter z)) :
    MayBe cfg r (.slice (.mk x y)) ∧ MayBe cfg r (.slice (.mk x z)) := by
  have key : ∀ z, MayRead cfg .sliceDelimiter r (.other (.delimiter z)) → MayBe cfg r (.slice (.mk x z)) := by
    intro z hz
    refine exec_of h ?_ (by simp)
    rw [evOf, evSlice]
    exact call_may (k' := .listValue) (may_own .listValue h hl h1) (by exact call_may (k' := .sliceDelimiter) hz (by exact (run_done _ _).mpr rfl))
  exact ⟨key y (may_own .sliceDelimiter h hd h2),
    key z (may_first (k' := .sliceDelimiter) (.there (child_children hl) (by decide +kernel) hd2) h h3)⟩

/-! ## C75 -/

/-- The readings of the elements after the commas. -/
abbrev Reads {α : Type} (cfg : Cfg) (mk : α → BVal) (us : List Root) (l : List α) : Prop := List.Forall₂ (fun u a => MayBe cfg u (mk a)) us l

theorem reads_split {α : Type} {cfg : Cfg} {mk : α → BVal} {f : V → Option α} (hf : ∀ a, f (.other (mk a)) = some a) {us : List Root} {l : List α}
    (h : Reads cfg mk us l) : List.Forall₂ (fun u v => ExecuteRun (baseEvents cfg) u (.ok [v])) us (l.map fun a => .other (mk a)) ∧
      List.Forall₂ (fun v a => f v = some a) (l.map fun a => .other (mk a)) l := by
  induction h with
  | nil => exact ⟨.nil, .nil⟩
  | cons h1 _ ih => exact ⟨.cons h1 ih.1, .cons (hf _) ih.2⟩

/-- C75 (violation): every list `a, b, …` of names may be read as itself, and may be read as `b, b, …`. -/
theorem C75_violation_names (cfg : Cfg) (r a c b : Root) (cs : List Root) (h : Conf cfg .assigneeNames r) (ha : Child r (lit "assigneeName") a)
    (hc : Children r (lit "commaAssigneeName") (c :: cs)) (hb : Child c (lit "assigneeName") b) (x y : AssigneeName) (l : List AssigneeName)
    (h1 : MayBe cfg a (.assigneeName x)) (h2 : MayBe cfg b (.assigneeName y)) (h3 : Reads cfg .assigneeName (c :: cs) l) :
    MayBe cfg r (.assigneeNames (x :: l)) ∧ MayBe cfg r (.assigneeNames (y :: l)) := by
  have hcc : Conf cfg .commaAssigneeName c := parts_conf (k' := .commaAssigneeName) h hc c (by simp)
  obtain ⟨h4, h5⟩ := reads_split (f := asAssigneeName) (fun _ => rfl) h3
  have key : ∀ z, MayRead cfg .assigneeName r (.other (.assigneeName z)) → MayBe cfg r (.assigneeNames (z :: l)) := by
    intro z hz
    refine exec_of h ?_ (by simp)
    rw [evOf, evAssigneeNames]
    exact comma_may h (f := asAssigneeName) (item := .assigneeName) (comma := .commaAssigneeName) hz rfl hc (by simp) h4 h5 (by exact (run_done _ _).mpr rfl)
  exact ⟨key x (may_own .assigneeName h ha h1), key y (may_sub h hc (by decide +kernel) (may_own .assigneeName hcc hb h2))⟩

/-- C75 (violation): the same for the names of a declaration. -/
theorem C75_violation_firsts (cfg : Cfg) (r a c b : Root) (cs : List Root) (h : Conf cfg .assigneeNameFirsts r)
    (ha : Child r (lit "assigneeNameFirst") a) (hc : Children r (lit "commaAssigneeFirst") (c :: cs)) (hb : Child c (lit "assigneeNameFirst") b)
    (x y : AssigneeNameFirst) (l : List AssigneeNameFirst) (h1 : MayBe cfg a (.assigneeFirst x)) (h2 : MayBe cfg b (.assigneeFirst y))
    (h3 : Reads cfg .assigneeFirst (c :: cs) l) : MayBe cfg r (.assigneeFirsts (x :: l)) ∧ MayBe cfg r (.assigneeFirsts (y :: l)) := by
  have hcc : Conf cfg .commaAssigneeFirst c := parts_conf (k' := .commaAssigneeFirst) h hc c (by simp)
  obtain ⟨h4, h5⟩ := reads_split (f := asAssigneeFirst) (fun _ => rfl) h3
  have key : ∀ z, MayRead cfg .assigneeNameFirst r (.other (.assigneeFirst z)) → MayBe cfg r (.assigneeFirsts (z :: l)) := by
    intro z hz
    refine exec_of h ?_ (by simp)
    rw [evOf, evAssigneeNameFirsts]
    exact comma_may h (f := asAssigneeFirst) (item := .assigneeNameFirst) (comma := .commaAssigneeFirst) hz rfl hc (by simp) h4 h5 (by exact (run_done _ _).mpr rfl)
  exact ⟨key x (may_own .assigneeNameFirst h ha h1), key y (may_sub h hc (by decide +kernel) (may_own .assigneeNameFirst hcc hb h2))⟩

/-- C75 (violation): the same for the values of an assignment or a list: `[1, 2, 3]` may be read as `[2, 2, 3]`. -/
theorem C75_violation_values (cfg : Cfg) (r a c b : Root) (cs : List Root) (h : Conf cfg .assignables r) (ha : Child r (lit "assignable") a)
    (hc : Children r (lit "commaAssignable") (c :: cs)) (hb : Child c (lit "assignable") b) (x y : Assignable) (l : List Assignable)
    (h1 : MayBe cfg a (.assignable x)) (h2 : MayBe cfg b (.assignable y)) (h3 : Reads cfg .assignable (c :: cs) l) :
    MayBe cfg r (.assignables (x :: l)) ∧ MayBe cfg r (.assignables (y :: l)) := by
  have hcc : Conf cfg .commaAssignable c := parts_conf (k' := .commaAssignable) h hc c (by simp)
  obtain ⟨h4, h5⟩ := reads_split (f := asAssignable) (fun _ => rfl) h3
  have key : ∀ z, MayRead cfg .assignable r (.other (.assignable z)) → MayBe cfg r (.assignables (z :: l)) := by
    intro z hz
    refine exec_of h ?_ (by simp)
    rw [evOf, evAssignables]
    exact comma_may h (f := asAssignable) (item := .assignable) (comma := .commaAssignable) hz rfl hc (by simp) h4 h5 (by exact (run_done _ _).mpr rfl)
  exact ⟨key x (may_own .assignable h ha h1), key y (may_sub h hc (by decide +kernel) (may_own .assignable hcc hb h2))⟩

/-- C75 (violation): the same for the declarations of variables. -/
theorem C75_violation_declarations (cfg : Cfg) (r a c b : Root) (cs : List Root) (h : Conf cfg .variableDeclarations r)
    (ha : Child r (lit "variableDeclaration") a) (hc : Children r (lit "commaVariableDeclaration") (c :: cs)) (hb : Child c (lit "variableDeclaration") b)
    (x y : VarDecl) (l : List VarDecl) (h1 : MayBe cfg a (.decl x)) (h2 : MayBe cfg b (.decl y)) (h3 : Reads cfg .decl (c :: cs) l) :
    MayBe cfg r (.decls (x :: l)) ∧ MayBe cfg r (.decls (y :: l)) := by
  have hcc : Conf cfg .commaVariableDeclaration c := parts_conf (k' := .commaVariableDeclaration) h hc c (by simp)
  obtain ⟨h4, h5⟩ := reads_split (f := asDecl) (fun _ => rfl) h3
  have key : ∀ z, MayRead cfg .variableDeclaration r (.other (.decl z)) → MayBe cfg r (.decls (z :: l)) := by
    intro z hz
    refine exec_of h ?_ (by simp)
    rw [evOf, evVariableDeclarations]
    exact comma_may h (f := asDecl) (item := .variableDeclaration) (comma := .commaVariableDeclaration) hz rfl hc (by simp) h4 h5 (by exact (run_done _ _).mpr rfl)
  exact ⟨key x (may_own .variableDeclaration h ha h1), key y (may_sub h hc (by decide +kernel) (may_own .variableDeclaration hcc hb h2))⟩

/-! ## Examples -/

theorem exName_reads (a b : String) (h : Conf exCfg .variableName (exName a b)) :
    ExecuteRun (baseEvents exCfg) (exName a b) (.ok [.text (lit a ++ lit b)]) := by
  refine exec_of h ?_ (by simp)
  rw [evOf, evVariableName]
  refine (run_done _ _).mpr ?_
  simp [Node.content, Node.containers, RContainer.content, rl]

theorem exElement_reads (a b : String) (h : Conf exCfg .operationElement (exElement a b)) : MayBe exCfg (exElement a b) (.element (.var (lit a ++ lit b))) := by
  have hc : Child (exElement a b) (lit "variableName") (exName a b) := ⟨_, .head _, rfl, _, rfl, rfl⟩
  refine exec_of h ?_ (by simp)
  rw [evOf, evOperationElement, if_neg (show ¬ (exElement a b).exists (lit "boolValue") = true from fun h => absurd h (by simp [exElement, tree, tk, Root.exists, Root.nodes, Node.name, exName, Root.name]; rfl))]
  refine opt_may (k' := .variableName) (f := asText) (child_exists hc) (may_own .variableName h hc
    (exName_reads a b (part_conf (k' := .variableName) h hc))) rfl ?_
  exact (run_done _ _).mpr rfl

theorem exAssignee_reads (a b : String) (h : Conf exCfg .assigneeName (exAssignee a b)) :
    MayBe exCfg (exAssignee a b) (.assigneeName (.var (lit a ++ lit b))) := by
  have hc : Child (exAssignee a b) (lit "variableName") (exName a b) := ⟨_, .head _, rfl, _, rfl, rfl⟩
  have hcc := part_conf (k' := .variableName) h hc
  have hne : lit a ++ lit b ≠ [] := by
    obtain ⟨line, hl⟩ := hcc.line
    have : lit a ≠ [] := (hl.containers _ (.head _) _ (.head _)).2
    simp [this]
  refine exec_of h ?_ (by simp)
  rw [evOf, evAssigneeName]
  refine opt_may (k' := .variableName) (f := asText) (child_exists hc) (may_own .variableName h hc (exName_reads a b hcc)) rfl ?_
  rw [ret, textOr, Option.getD_some, assigneeNameNow, if_pos hne]
  exact (run_done _ _).mpr rfl

theorem exComma_reads (a b : String) (h : Conf exCfg .commaAssigneeName (exComma a b)) :
    MayBe exCfg (exComma a b) (.assigneeName (.var (lit a ++ lit b))) := by
  have hc : Child (exComma a b) (lit "assigneeName") (exAssignee a b) := ⟨_, .tail _ (.head _), rfl, _, rfl, rfl⟩
  refine exec_of_result h ?_ (by simp)
  rw [evOf, evCommaAssigneeName]
  exact pass_may (k' := .assigneeName) (may_own .assigneeName h hc (exAssignee_reads a b (part_conf (k' := .assigneeName) h hc)))

/-- `ab + cd` may be read as `cd + cd`. -/
example : MayBe exCfg exSum (.operation (.suffixed (.var (lit "ab")) (.mk Operator.plus.number (.var (lit "cd"))))) ∧
    MayBe exCfg exSum (.operation (.suffixed (.var (lit "cd")) (.mk Operator.plus.number (.var (lit "cd"))))) := by
  have ha : Child exSum (lit "operationElement") (exElement "a" "b") := ⟨_, .head _, rfl, _, rfl, rfl⟩
  have hs : Child exSum (lit "operationSuffix") exSuffix := ⟨_, .tail _ (.head _), rfl, _, rfl, rfl⟩
  have ho : Child exSuffix (lit "operator") exPlus := ⟨_, .head _, rfl, _, rfl, rfl⟩
  have hb : Child exSuffix (lit "operationElement") (exElement "c" "d") := ⟨_, .tail _ (.head _), rfl, _, rfl, rfl⟩
  have hsc := part_conf (k' := .operationSuffix) exSum_conf hs
  obtain ⟨v, hv, f, rfl⟩ := reading exPlus_conf
  have hp : MayBe exCfg exPlus (.flag16 Operator.plus.number) := by
    have hc : Child exPlus (lit "operatorArithmetic") (tree .operatorArithmetic "+" [rl "PLUS" "+"]) := ⟨_, .head _, rfl, _, rfl, rfl⟩
    have hcc := part_conf (k' := .operatorArithmetic) exPlus_conf hc
    refine exec_of_result exPlus_conf ?_ (by simp)
    rw [evOf, evOperator, if_pos (show exPlus.exists (lit "operatorArithmetic") = true from rfl)]
    refine pass_may (k' := .operatorArithmetic) (may_own .operatorArithmetic exPlus_conf hc (exec_of hcc ?_ (by simp)))
    exact (run_done _ _).mpr rfl
  exact C74_violation_operands exCfg exSum _ _ _ _ exSum_conf ha hs ho hb _ _ _
    (exElement_reads "a" "b" (part_conf (k' := .operationElement) exSum_conf ha)) hp
    (exElement_reads "c" "d" (part_conf (k' := .operationElement) hsc hb))

/-- `if ab { if cd { break } break }` and `for ix, va := ab { for ix, va := cd { break } break }` have the shape. -/
example : (∃ x y l, MayBe exCfg exNestedIf (.ifDecl (x, some l)) ∧ MayBe exCfg exNestedIf (.ifDecl (y, some l))) ∧
    ∃ x y l, MayBe exCfg exNestedFor (.forDecl (x, some l)) ∧ MayBe exCfg exNestedFor (.forDecl (y, some l)) := by
  constructor
  · have ha : Child exNestedIf (lit "ifOperation") (exCondition "a" "b") := ⟨_, .head _, rfl, _, rfl, rfl⟩
    have hb : Child exNestedIf (lit "instructions") exIfBody := ⟨_, .tail _ (.tail _ (.head _)), rfl, _, rfl, rfl⟩
    have hi : Children exIfBody (lit "instruction") [tree .instruction "if cd { break }" [tk exInnerIf], exBreak] := ⟨_, .head _, rfl, rfl⟩
    have hd : Child (tree .instruction "if cd { break }" [tk exInnerIf]) (lit "ifDeclaration") exInnerIf := ⟨_, .head _, rfl, _, rfl, rfl⟩
    have hc : Child exInnerIf (lit "ifOperation") (exCondition "c" "d") := ⟨_, .head _, rfl, _, rfl, rfl⟩
    have hbc := part_conf (k' := .instructions) exNestedIf_conf hb
    have hic := parts_conf (k' := .instruction) hbc hi _ (.head _)
    have hdc := part_conf (k' := .ifDeclaration) hic hd
    obtain ⟨v1, h1, x, rfl⟩ := reading (part_conf (k' := .ifOperation) exNestedIf_conf ha)
    obtain ⟨v2, h2, y, rfl⟩ := reading (part_conf (k' := .ifOperation) hdc hc)
    obtain ⟨v3, h3, l, rfl⟩ := reading hbc
    exact ⟨x, y, l, C74_violation_if exCfg _ _ _ _ _ _ _ exNestedIf_conf ha hb hi hd hc x y l h1 h2 h3⟩
  · have ha : Child exNestedFor (lit "forStatement") (exStatement "a" "b") := ⟨_, .tail _ (.head _), rfl, _, rfl, rfl⟩
    have hb : Child exNestedFor (lit "instructions") exForBody := ⟨_, .tail _ (.tail _ (.tail _ (.head _))), rfl, _, rfl, rfl⟩
    have hi : Children exForBody (lit "instruction") [tree .instruction "for ix, va := cd { break }" [tk exInnerFor], exBreak] := ⟨_, .head _, rfl, rfl⟩
    have hd : Child (tree .instruction "for ix, va := cd { break }" [tk exInnerFor]) (lit "forDeclaration") exInnerFor := ⟨_, .head _, rfl, _, rfl, rfl⟩
    have hc : Child exInnerFor (lit "forStatement") (exStatement "c" "d") := ⟨_, .tail _ (.head _), rfl, _, rfl, rfl⟩
    have hbc := part_conf (k' := .instructions) exNestedFor_conf hb
    have hic := parts_conf (k' := .instruction) hbc hi _ (.head _)
    have hdc := part_conf (k' := .forDeclaration) hic hd
    obtain ⟨v1, h1, x, rfl⟩ := reading (part_conf (k' := .forStatement) exNestedFor_conf ha)
    obtain ⟨v2, h2, y, rfl⟩ := reading (part_conf (k' := .forStatement) hdc hc)
    obtain ⟨v3, h3, l, rfl⟩ := reading hbc
    exact ⟨x, y, l, C74_violation_for exCfg _ _ _ _ _ _ _ exNestedFor_conf ha hb hi hd hc x y l h1 h2 h3⟩

/-- `ab,cd,ef` may be read as `cd,cd,ef`. -/
example : MayBe exCfg exNames (.assigneeNames [.var (lit "ab"), .var (lit "cd"), .var (lit "ef")]) ∧
    MayBe exCfg exNames (.assigneeNames [.var (lit "cd"), .var (lit "cd"), .var (lit "ef")]) := by
  have ha : Child exNames (lit "assigneeName") (exAssignee "a" "b") := ⟨_, .head _, rfl, _, rfl, rfl⟩
  have hc : Children exNames (lit "commaAssigneeName") [exComma "c" "d", exComma "e" "f"] := ⟨_, .tail _ (.head _), rfl, rfl⟩
  have hb : Child (exComma "c" "d") (lit "assigneeName") (exAssignee "c" "d") := ⟨_, .tail _ (.head _), rfl, _, rfl, rfl⟩
  have hcc := parts_conf (k' := .commaAssigneeName) exNames_conf hc
  exact C75_violation_names exCfg exNames _ _ _ _ exNames_conf ha hc hb _ _ _
    (exAssignee_reads "a" "b" (part_conf (k' := .assigneeName) exNames_conf ha))
    (exAssignee_reads "c" "d" (part_conf (k' := .assigneeName) (hcc _ (.head _)) hb))
    (.cons (exComma_reads "c" "d" (hcc _ (.head _))) (.cons (exComma_reads "e" "f" (hcc _ (.tail _ (.head _)))) .nil))

/-- The same shape for the other lists. -/
example : Conf exCfg .assigneeNameFirsts exFirsts ∧ Children exFirsts (lit "commaAssigneeFirst") [exFirstComma "c" "d", exFirstComma "e" "f"] ∧
    Child (exFirstComma "c" "d") (lit "assigneeNameFirst") (exFirst "c" "d") ∧
    Conf exCfg .assignables exValues ∧ Children exValues (lit "commaAssignable") [exValueComma "c" "d", exValueComma "e" "f"] ∧
    Child (exValueComma "c" "d") (lit "assignable") (exValue "c" "d") ∧
    Conf exCfg .variableDeclarations exDecls ∧ Children exDecls (lit "commaVariableDeclaration") [exDeclComma "c" "d"] ∧
    Child (exDeclComma "c" "d") (lit "variableDeclaration") (exDecl "c" "d") :=
  ⟨exFirsts_conf, ⟨_, .tail _ (.head _), rfl, rfl⟩, ⟨_, .tail _ (.head _), rfl, _, rfl, rfl⟩,
   exValues_conf, ⟨_, .tail _ (.head _), rfl, rfl⟩, ⟨_, .tail _ (.head _), rfl, _, rfl, rfl⟩,
   exDecls_conf, ⟨_, .tail _ (.head _), rfl, rfl⟩, ⟨_, .tail _ (.head _), rfl, _, rfl, rfl⟩⟩

/-- `+ (cd * ef)`, `[ab[1]][2]` and `[ab[1:]][2:]`. -/
example : Conf exCfg .operationSuffix exPlusProduct ∧ Child exPlusProduct (lit "operator") exPlus ∧ Child exPlusProduct (lit "operationElement") exProduct ∧
    FirstIn (lit "operator") exProduct exTimes := by
  refine ⟨exPlusProduct_conf, ⟨_, .head _, rfl, _, rfl, rfl⟩, ⟨_, .tail _ (.head _), rfl, _, rfl, rfl⟩, ?_⟩
  refine .there (vs := []) ⟨_, .head _, rfl, rfl⟩ (by decide) (.there (vs := []) (s := lit "operation") ⟨_, .tail _ (.head _), rfl, rfl⟩ (by decide)
    (.there (vs := []) ⟨_, .head _, rfl, rfl⟩ (by decide) (.there (vs := []) (s := lit "operationSuffix") ⟨_, .tail _ (.head _), rfl, rfl⟩ (by decide) (.here ⟨_, .head _, rfl, _, rfl, rfl⟩))))

example : Conf exCfg .listFetchElement exFetchFetch ∧ Child exFetchFetch (lit "totalListValue") exFetchList ∧
    Child exFetchFetch (lit "listElementFetcher") (exAt "2") ∧ FirstIn (lit "listElementFetcher") exFetchList (exAt "1") := by
  refine ⟨exFetchFetch_conf, ⟨_, .head _, rfl, _, rfl, rfl⟩, ⟨_, .tail _ (.head _), rfl, _, rfl, rfl⟩, ?_⟩
  refine .there (vs := []) ⟨_, .head _, rfl, rfl⟩ (by decide) (.there (vs := []) ⟨_, .head _, rfl, rfl⟩ (by decide)
    (.there (vs := []) ⟨_, .head _, rfl, rfl⟩ (by decide) (.there (vs := []) (s := lit "assignables") ⟨_, .tail _ (.head _), rfl, rfl⟩ (by decide)
    (.there (vs := []) ⟨_, .head _, rfl, rfl⟩ (by decide) (.there (vs := []) ⟨_, .head _, rfl, rfl⟩ (by decide) (.there (vs := []) ⟨_, .head _, rfl, rfl⟩ (by decide)
    (.here ⟨_, .tail _ (.head _), rfl, _, rfl, rfl⟩)))))))

example : Conf exCfg .slice exSliceSlice ∧ Child exSliceSlice (lit "listValue") exSliceList ∧
    Child exSliceSlice (lit "sliceDelimiter") (exBound "2") ∧ FirstIn (lit "sliceDelimiter") exSliceList (exBound "1") := by
  refine ⟨exSliceSlice_conf, ⟨_, .head _, rfl, _, rfl, rfl⟩, ⟨_, .tail _ (.tail _ (.head _)), rfl, _, rfl, rfl⟩, ?_⟩
  refine .there (vs := []) ⟨_, .head _, rfl, rfl⟩ (by decide) (.there (vs := []) (s := lit "assignables") ⟨_, .tail _ (.head _), rfl, rfl⟩ (by decide)
    (.there (vs := []) ⟨_, .head _, rfl, rfl⟩ (by decide) (.there (vs := []) ⟨_, .head _, rfl, rfl⟩ (by decide) (.there (vs := []) ⟨_, .head _, rfl, rfl⟩ (by decide)
    (.here ⟨_, .tail _ (.tail _ (.head _)), rfl, _, rfl, rfl⟩)))))

end Verif.Base
