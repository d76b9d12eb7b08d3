import Verif.Lemmas.BaseConf

/-! # The events of the base language deliver objects for conforming root trees -/

namespace Verif.Base
open Verif.Patterns Verif.Lexer

/-- Every outcome of a program satisfies a property. -/
def Ends (cfg : Cfg) (p : P) (Q : Out V → Prop) : Prop := ∀ o, ProgRun (baseEvents cfg) p o → Q o

def Card.single : Card → Bool
  | .one => true
  | .opt => true
  | _ => false

/-- No line allows several of a token. -/
def singleKind (k' : Kind) : Bool :=
  allKinds.all fun k => (grammar k).all fun line => line.all fun p => p.1 ≠ .tok k' || p.2.single

def hasPart (line : List (Sym × Card)) (name : Str) : Bool := line.any fun p => p.1.name = name && p.2.mandatory
def lacksPart (line : List (Sym × Card)) (name : Str) : Bool := decide (name ∉ channelNames) && line.all fun p => p.1.name ≠ name

variable {cfg : Cfg} {k : Kind} {r : Root} {line : List (Sym × Card)} {α : Type} {Q : Out V → Prop}

theorem Line.present_exists (h : Line cfg k r line) {name : Str} (hp : hasPart line name = true) : r.exists name = true := by
  simp only [hasPart, List.any_eq_true, Bool.and_eq_true, decide_eq_true_eq] at hp
  obtain ⟨p, h1, h2, h3⟩ := hp
  exact h.exists name p h1 h2 h3

theorem Line.absent_exists (h : Line cfg k r line) {name : Str} (hp : lacksPart line name = true) : r.exists name = false := by
  simp only [lacksPart, Bool.and_eq_true, decide_eq_true_eq, List.all_eq_true] at hp
  exact h.not_exists name hp.1 hp.2

theorem ends_done {o : Out V} (h : Q o) : Ends cfg (.done o) Q := by
  intro o' ho
  cases ho
  exact h

theorem ends_call {name : Str} {p : List V → P}
    (hx : ∀ x, TriggerRun (baseEvents cfg) name r x → ∃ l, x = .ok l ∧ Ends cfg (p l) Q) : Ends cfg (call name r p) Q := by
  intro o ho
  cases ho with
  | triggerPanic h => obtain ⟨l, h, _⟩ := hx _ h; simp at h
  | trigger h _ ho =>
    obtain ⟨l, rfl, h2⟩ := hx _ h
    exact h2 o ho

theorem ends_call_tok (h : Line cfg k r line) (ih : AllInside cfg r) (k' : Kind) {p : List V → P} (he : r.exists k'.name = true)
    (hk : ∀ l, l ≠ [] → (∀ v ∈ l, Good k' v) → Ends cfg (p l) Q) : Ends cfg (call k'.name r p) Q := by
  refine ends_call fun x hx => ?_
  obtain ⟨n, l, rfl, hl, hn, hat, hf, _⟩ := trigger_tok h ih he hx
  refine ⟨l, rfl, hk l hl ?_⟩
  clear hl hx hk
  generalize n.containers = cs at hf
  induction hf with
  | nil => simp
  | cons h1 _ ih => obtain ⟨u, _, _, h4, _⟩ := h1; simpa using ⟨h4.1, ih⟩

theorem ends_need (h : Line cfg k r line) (ih : AllInside cfg r) (k' : Kind) {f : V → Option α} {p : α → P}
    (he : r.exists k'.name = true) (hk : ∀ v, Good k' v → ∃ a, f v = some a ∧ Ends cfg (p a) Q) : Ends cfg (need k'.name r f p) Q := by
  refine ends_call_tok h ih k' he fun l hl hg => ?_
  cases l with
  | nil => exact absurd rfl hl
  | cons v l =>
    obtain ⟨a, ha, h⟩ := hk v (hg v (by simp))
    simpa [assertFirst, assert, ha, step] using h

theorem ends_opt_yes (h : Line cfg k r line) (ih : AllInside cfg r) (k' : Kind) {f : V → Option α} {p : Option α → P}
    (he : r.exists k'.name = true) (hk : ∀ v, Good k' v → ∃ a, f v = some a ∧ Ends cfg (p (some a)) Q) :
    Ends cfg (opt k'.name r f p) Q := by
  rw [opt, if_pos he]
  exact ends_need h ih k' he hk

theorem ends_opt_no {name : Str} {f : V → Option α} {p : Option α → P}
    (he : r.exists name = false) (hk : Ends cfg (p none) Q) : Ends cfg (opt name r f p) Q := by
  rw [opt, if_neg (by simp [he])]
  exact hk

theorem ends_opt (h : Line cfg k r line) (ih : AllInside cfg r) (k' : Kind) {f : V → Option α} {p : Option α → P}
    (hk : ∀ v, Good k' v → ∃ a, f v = some a ∧ Ends cfg (p (some a)) Q) (hn : Ends cfg (p none) Q) :
    Ends cfg (opt k'.name r f p) Q := by
  cases he : r.exists k'.name with
  | true => exact ends_opt_yes h ih k' he hk
  | false => exact ends_opt_no he hn

theorem single_card {k' k2 : Kind} (hs : singleKind k' = true) {line2 : List (Sym × Card)} {card : Card}
    (h1 : line2 ∈ grammar k2) (h2 : (Sym.tok k', card) ∈ line2) : card.single = true := by
  simp only [singleKind, List.all_eq_true, Bool.or_eq_true, decide_eq_true_eq] at hs
  rcases hs k2 (mem_all k2) line2 h1 _ h2 with h | h
  · exact absurd rfl h
  · exact h

theorem ends_pass_of (h : Line cfg k r line) (ih : AllInside cfg r) (k' : Kind) (he : r.exists k'.name = true)
    (hs : ∀ n, n.name = k'.name → FoundAt cfg r line k'.name n → (∃ k2 line2 card, line2 ∈ grammar k2 ∧ (Sym.tok k', card) ∈ line2 ∧
      card.Allows n.containers.length) → n.containers.length ≤ 1)
    (hk : ∀ v, Good k' v → GoodAt k r v) : Ends cfg (pass k'.name r) (Delivers k r) := by
  refine ends_call fun x hx => ?_
  obtain ⟨n, l, rfl, hl, hn, hat, hf, hcard⟩ := trigger_tok h ih he hx
  refine ⟨l, rfl, ends_done ?_⟩
  have hlen : l.length ≤ 1 := hf.length_eq ▸ hs n hn hat hcard
  generalize n.containers = cs at hf
  cases hf with
  | nil => exact absurd rfl hl
  | cons h1 h2 =>
    cases h2 with
    | cons => simp at hlen
    | nil =>
      obtain ⟨u, _, _, h4, _⟩ := h1
      exact ⟨_, hk _ h4.1, .inr rfl⟩

theorem ends_pass (h : Line cfg k r line) (ih : AllInside cfg r) (k' : Kind) (he : r.exists k'.name = true)
    (hs : singleKind k' = true) (hk : ∀ v, Good k' v → GoodAt k r v) : Ends cfg (pass k'.name r) (Delivers k r) := by
  refine ends_pass_of h ih k' he ?_ hk
  rintro n _ _ ⟨k2, line2, card, h1, h2, h3⟩
  have := single_card hs h1 h2
  cases card <;> simp_all [Card.single, Card.Allows]

theorem ends_ret {o : Out α} {a : α} {mk : α → BVal} (ho : o = .ok a) (hg : GoodAt k r (.other (mk a))) :
    Ends cfg (ret o mk) (Delivers k r) := by
  subst ho
  exact ends_done ⟨_, hg, .inl rfl⟩

theorem ends_ret' {o : Out α} {mk : α → BVal} (ho : ∃ a, o = .ok a ∧ GoodAt k r (.other (mk a))) :
    Ends cfg (ret o mk) (Delivers k r) := by
  obtain ⟨a, h1, h2⟩ := ho
  exact ends_ret h1 h2

theorem assertAll_ok {f : V → Option α} {l : List V} (h : ∀ v ∈ l, ∃ a, f v = some a) :
    ∃ as, assertAll f l = .ok as ∧ as.length = l.length := by
  induction l with
  | nil => exact ⟨[], rfl, rfl⟩
  | cons v l ih =>
    obtain ⟨a, ha⟩ := h v (by simp)
    obtain ⟨as, h1, h2⟩ := ih fun v hv => h v (by simp [hv])
    exact ⟨a :: as, by simp [assertAll, assert, ha, h1, bind, Out.bind, pure], by simp [h2]⟩

theorem ends_comma (h : Line cfg k r line) (ih : AllInside cfg r) (k' kc : Kind) {f : V → Option α} {p : List α → P}
    (he : r.exists k'.name = true) (hf : ∀ v, Good k' v → ∃ a, f v = some a) (hfc : ∀ v, Good kc v → ∃ a, f v = some a)
    (hk : ∀ a as, (r.exists kc.name = true → as ≠ []) → Ends cfg (p (a :: as)) Q) :
    Ends cfg (commaList k'.name kc.name f r p) Q := by
  refine ends_need h ih k' he fun v hv => ?_
  obtain ⟨a, ha⟩ := hf v hv
  refine ⟨a, ha, ?_⟩
  split
  · rename_i hex
    refine ends_call_tok h ih kc hex fun l hl hg => ?_
    obtain ⟨as, h1, h2⟩ := assertAll_ok (f := f) fun v hv => hfc v (hg v hv)
    simp only [h1, step]
    refine hk a as fun _ => ?_
    rintro rfl
    exact hl (List.length_eq_zero_iff.mp (by simpa using h2.symm))
  · rename_i hex
    exact hk a [] fun h => absurd h hex

/-! ## The events -/

/-- Only a token with several names is special. -/
theorem goodAt {v : V} (hk : k ≠ .assigneeNames) (h : Good k v) : GoodAt k r v := ⟨h, fun e => absurd e hk⟩

macro "ev_lines" h:ident hm:ident : tactic => `(tactic| (have $hm:ident := Line.mem $h; simp only [grammar, List.mem_cons, List.not_mem_nil, or_false] at $hm:ident))
macro "ev_yes" h:ident : tactic => `(tactic| exact Line.present_exists $h (by decide +kernel))
macro "ev_no" h:ident : tactic => `(tactic| exact Line.absent_exists $h (by decide +kernel))
macro "ev_opt" h:ident ih:ident k:term : tactic => `(tactic| first
  | (refine ends_opt_yes $h $ih $k (by ev_yes $h) ?_; (first | (rintro v ⟨x, hx⟩; subst hx) | (rintro v ⟨x, hx, hy⟩; subst hx)); refine ⟨_, rfl, ?_⟩)
  | refine ends_opt_no (by ev_no $h) ?_
  | (refine ends_opt $h $ih $k ?_ ?_; · (first | (rintro v ⟨x, hx⟩; subst hx) | (rintro v ⟨x, hx, hy⟩; subst hx)); refine ⟨_, rfl, ?_⟩))

macro "ev_need" h:ident ih:ident k:term : tactic => `(tactic| (refine ends_need $h $ih $k (by ev_yes $h) ?_; (first | (rintro v ⟨x, hx⟩; subst hx) | (rintro v ⟨x, hx, hy⟩; subst hx)); refine ⟨_, rfl, ?_⟩))
macro "ev_fin" : tactic => `(tactic| exact ends_ret rfl (goodAt (by decide) ⟨_, rfl⟩))
macro "ev_through" h:ident ih:ident k:term : tactic => `(tactic|
  exact ends_pass $h $ih $k (by ev_yes $h) (by decide +kernel) (fun _ hv => goodAt (by decide) hv))

theorem safe_program (h : Line cfg .program r line) (ih : AllInside cfg r) :
    Ends cfg (evProgram r) (Delivers .program r) := by
  ev_lines h hm
  subst hm
  ev_need h ih .instructions
  refine ends_opt h ih .headerVariables ?_ ?_
  · rintro v ⟨x, rfl⟩; exact ⟨_, rfl, by ev_fin⟩
  · ev_fin

theorem safe_headerVariables (h : Line cfg .headerVariables r line) (ih : AllInside cfg r) :
    Ends cfg (evHeaderVariables r) (Delivers .headerVariables r) := by
  ev_lines h hm
  subst hm
  refine ends_call_tok h ih .headerVariable (by ev_yes h) fun l hl hg => ?_
  obtain ⟨as, h1, h2⟩ := assertAll_ok (f := asHeader) (l := l) fun v hv => by obtain ⟨x, rfl⟩ := hg v hv; exact ⟨_, rfl⟩
  simp only [h1, step]
  cases as with
  | nil => exact absurd (List.length_eq_zero_iff.mp (by simpa using h2.symm)) hl
  | cons a as => ev_fin

theorem safe_instructions (h : Line cfg .instructions r line) (ih : AllInside cfg r) :
    Ends cfg (evInstructions r) (Delivers .instructions r) := by
  ev_lines h hm
  subst hm
  refine ends_call_tok h ih .instruction (by ev_yes h) fun l hl hg => ?_
  obtain ⟨as, h1, h2⟩ := assertAll_ok (f := asInstruction) (l := l) fun v hv => by obtain ⟨x, rfl⟩ := hg v hv; exact ⟨_, rfl⟩
  simp only [h1, step]
  cases as with
  | nil => exact absurd (List.length_eq_zero_iff.mp (by simpa using h2.symm)) hl
  | cons a as => ev_fin

theorem safe_headerVariable (h : Line cfg .headerVariable r line) (ih : AllInside cfg r) :
    Ends cfg (evHeaderVariable r) (Delivers .headerVariable r) := by
  ev_lines h hm
  subst hm
  refine ends_call_tok h ih .inputOutput (by ev_yes h) fun l1 hl1 hg1 => ?_
  refine ends_call_tok h ih .variableDeclaration (by ev_yes h) fun l2 hl2 hg2 => ?_
  refine ends_call fun x hx => ?_
  obtain ⟨m, rfl, -, -, h1, h2⟩ := trigger_rule h (by intro k; cases k <;> decide) (by ev_yes h) hx
  refine ⟨_, rfl, ?_⟩
  obtain ⟨x1, l1, rfl⟩ := List.exists_cons_of_ne_nil hl1
  obtain ⟨x2, l2, rfl⟩ := List.exists_cons_of_ne_nil hl2
  obtain ⟨c, cs, hc⟩ := List.exists_cons_of_ne_nil h1
  obtain ⟨y1, rfl⟩ := hg1 x1 (by simp)
  obtain ⟨y2, rfl⟩ := hg2 x2 (by simp)
  have h3 := h2 c (by simp [hc])
  simp only [hc, List.map_cons, assertFirst, assert, asDecl, asText, asBool, step]
  refine ends_ret (a := ⟨!r.exists (lit "QUESTION_MARK"), y1, y2, c.content⟩) ?_ (goodAt (by decide) ⟨_, rfl⟩)
  simp [headerVariableNow, h3]

theorem safe_inputOutput (h : Line cfg .inputOutput r line) (ih : AllInside cfg r) :
    Ends cfg (evInputOutput r) (Delivers .inputOutput r) := by
  ev_lines h hm
  rcases hm with rfl | rfl
  all_goals
    exact ends_done ⟨_, goodAt (by decide) ⟨_, rfl⟩, .inl rfl⟩

theorem safe_instruction (h : Line cfg .instruction r line) (ih : AllInside cfg r) :
    Ends cfg (evInstruction r) (Delivers .instruction r) := by
  ev_lines h hm
  rcases hm with rfl | rfl | rfl | rfl | rfl | rfl | rfl
  all_goals
    ev_opt h ih .assignment
    ev_opt h ih .variableDeclaration
    ev_opt h ih .ifDeclaration
    ev_opt h ih .forDeclaration
    ev_opt h ih .voidFuncCalls
    ev_opt h ih .direction
    ev_opt h ih .intIncrement
    ev_fin

theorem safe_voidFuncCalls (h : Line cfg .voidFuncCalls r line) (ih : AllInside cfg r) :
    Ends cfg (evVoidFuncCalls r) (Delivers .voidFuncCalls r) := by
  ev_lines h hm
  subst hm
  ev_opt h ih .logFuncCall
  ev_fin

theorem safe_logFuncCall (h : Line cfg .logFuncCall r line) (ih : AllInside cfg r) :
    Ends cfg (evLogFuncCall r) (Delivers .logFuncCall r) := by
  ev_lines h hm
  subst hm
  ev_through h ih .assignable

theorem safe_direction (h : Line cfg .direction r line) : Ends cfg (evDirection r) (Delivers .direction r) := by
  ev_lines h hm
  rcases hm with rfl | rfl
  · have h1 : r.exists (lit "BREAK") = true := by ev_yes h
    simp only [evDirection, h1]
    ev_fin
  · have h1 : r.exists (lit "BREAK") = false := by ev_no h
    have h2 : r.exists (lit "CONTINUE") = true := by ev_yes h
    simp only [evDirection, h1, h2]
    ev_fin

theorem safe_forDeclaration (h : Line cfg .forDeclaration r line) (ih : AllInside cfg r) :
    Ends cfg (evForDeclaration r) (Delivers .forDeclaration r) := by
  ev_lines h hm
  subst hm
  ev_need h ih .forStatement
  refine ends_opt h ih .instructions ?_ ?_
  · rintro v ⟨x, rfl⟩; exact ⟨_, rfl, by ev_fin⟩
  · ev_fin

theorem safe_ifDeclaration (h : Line cfg .ifDeclaration r line) (ih : AllInside cfg r) :
    Ends cfg (evIfDeclaration r) (Delivers .ifDeclaration r) := by
  ev_lines h hm
  subst hm
  ev_opt h ih .ifOperation
  refine ends_opt h ih .instructions ?_ ?_
  · rintro v ⟨x, rfl⟩; exact ⟨_, rfl, by ev_fin⟩
  · ev_fin

theorem safe_ifOperation (h : Line cfg .ifOperation r line) (ih : AllInside cfg r) :
    Ends cfg (evIfOperation r) (Delivers .ifOperation r) := by
  ev_lines h hm
  subst hm
  ev_through h ih .operation

theorem safe_assignment (h : Line cfg .assignment r line) (ih : AllInside cfg r) :
    Ends cfg (evAssignment r) (Delivers .assignment r) := by
  ev_lines h hm
  subst hm
  ev_opt h ih .assignee
  ev_opt h ih .assignables
  ev_fin

theorem safe_assignee (h : Line cfg .assignee r line) (ih : AllInside cfg r) :
    Ends cfg (evAssignee r) (Delivers .assignee r) := by
  ev_lines h hm
  rcases hm with rfl | rfl
  all_goals
    ev_opt h ih .assigneeNameFirsts
    ev_opt h ih .assigneeNames
    ev_fin

theorem safe_assigneeNameFirsts (h : Line cfg .assigneeNameFirsts r line) (ih : AllInside cfg r) :
    Ends cfg (evAssigneeNameFirsts r) (Delivers .assigneeNameFirsts r) := by
  ev_lines h hm
  subst hm
  refine ends_comma h ih .assigneeNameFirst .commaAssigneeFirst (by ev_yes h) (by rintro v ⟨x, rfl⟩; exact ⟨_, rfl⟩) (by rintro v ⟨x, rfl⟩; exact ⟨_, rfl⟩) fun a as has => ?_
  ev_fin

theorem safe_commaAssigneeFirst (h : Line cfg .commaAssigneeFirst r line) (ih : AllInside cfg r) :
    Ends cfg (evCommaAssigneeFirst r) (Delivers .commaAssigneeFirst r) := by
  ev_lines h hm
  subst hm
  ev_through h ih .assigneeNameFirst

theorem safe_assigneeNameFirst (h : Line cfg .assigneeNameFirst r line) (ih : AllInside cfg r) :
    Ends cfg (evAssigneeNameFirst r) (Delivers .assigneeNameFirst r) := by
  ev_lines h hm
  rcases hm with rfl | rfl
  all_goals
    ev_opt h ih .variableDeclaration
    ev_opt h ih .assigneeName
    ev_fin

theorem safe_assigneeNames (h : Line cfg .assigneeNames r line) (ih : AllInside cfg r) :
    Ends cfg (evAssigneeNames r) (Delivers .assigneeNames r) := by
  ev_lines h hm
  subst hm
  refine ends_comma h ih .assigneeName .commaAssigneeName (by ev_yes h) (by rintro v ⟨x, rfl⟩; exact ⟨_, rfl⟩) (by rintro v ⟨x, rfl⟩; exact ⟨_, rfl⟩) fun a as has => ?_
  refine ends_ret rfl ⟨⟨_, rfl⟩, fun _ hex => ?_⟩
  obtain ⟨b, bs, rfl⟩ := List.exists_cons_of_ne_nil (has hex)
  exact ⟨_, _, _, rfl⟩

theorem safe_commaAssigneeName (h : Line cfg .commaAssigneeName r line) (ih : AllInside cfg r) :
    Ends cfg (evCommaAssigneeName r) (Delivers .commaAssigneeName r) := by
  ev_lines h hm
  subst hm
  ev_through h ih .assigneeName

theorem safe_slice (h : Line cfg .slice r line) (ih : AllInside cfg r) :
    Ends cfg (evSlice r) (Delivers .slice r) := by
  ev_lines h hm
  subst hm
  refine ends_call_tok h ih .listValue (by ev_yes h) fun l1 hl1 hg1 => ?_
  refine ends_call_tok h ih .sliceDelimiter (by ev_yes h) fun l2 hl2 hg2 => ?_
  obtain ⟨x1, l1, rfl⟩ := List.exists_cons_of_ne_nil hl1
  obtain ⟨x2, l2, rfl⟩ := List.exists_cons_of_ne_nil hl2
  obtain ⟨y1, rfl⟩ := hg1 x1 (by simp)
  obtain ⟨y2, rfl⟩ := hg2 x2 (by simp)
  ev_fin

theorem safe_listFetchElement (h : Line cfg .listFetchElement r line) (ih : AllInside cfg r) :
    Ends cfg (evListFetchElement r) (Delivers .listFetchElement r) := by
  ev_lines h hm
  subst hm
  refine ends_call_tok h ih .totalListValue (by ev_yes h) fun l1 hl1 hg1 => ?_
  refine ends_call_tok h ih .listElementFetcher (by ev_yes h) fun l2 hl2 hg2 => ?_
  obtain ⟨x1, l1, rfl⟩ := List.exists_cons_of_ne_nil hl1
  obtain ⟨x2, l2, rfl⟩ := List.exists_cons_of_ne_nil hl2
  obtain ⟨y1, rfl⟩ := hg1 x1 (by simp)
  obtain ⟨y2, rfl⟩ := hg2 x2 (by simp)
  ev_fin

theorem safe_listAppend (h : Line cfg .listAppend r line) (ih : AllInside cfg r) :
    Ends cfg (evListAppend r) (Delivers .listAppend r) := by
  ev_lines h hm
  subst hm
  refine ends_call_tok h ih .listValue (by ev_yes h) fun l1 hl1 hg1 => ?_
  refine ends_call_tok h ih .singleAssignable (by ev_yes h) fun l2 hl2 hg2 => ?_
  obtain ⟨x1, l1, rfl⟩ := List.exists_cons_of_ne_nil hl1
  obtain ⟨x2, l2, rfl⟩ := List.exists_cons_of_ne_nil hl2
  obtain ⟨y1, rfl⟩ := hg1 x1 (by simp)
  obtain ⟨y2, rfl⟩ := hg2 x2 (by simp)
  ev_fin

theorem safe_assignables (h : Line cfg .assignables r line) (ih : AllInside cfg r) :
    Ends cfg (evAssignables r) (Delivers .assignables r) := by
  ev_lines h hm
  subst hm
  refine ends_comma h ih .assignable .commaAssignable (by ev_yes h) (by rintro v ⟨x, rfl⟩; exact ⟨_, rfl⟩) (by rintro v ⟨x, rfl⟩; exact ⟨_, rfl⟩) fun a as has => ?_
  ev_fin

theorem safe_commaAssignable (h : Line cfg .commaAssignable r line) (ih : AllInside cfg r) :
    Ends cfg (evCommaAssignable r) (Delivers .commaAssignable r) := by
  ev_lines h hm
  subst hm
  ev_through h ih .assignable

theorem safe_assignable (h : Line cfg .assignable r line) (ih : AllInside cfg r) :
    Ends cfg (evAssignable r) (Delivers .assignable r) := by
  ev_lines h hm
  rcases hm with rfl | rfl
  all_goals
    ev_opt h ih .totalListAssignable
    ev_opt h ih .singleAssignable
    ev_fin

theorem safe_singleAssignable (h : Line cfg .singleAssignable r line) (ih : AllInside cfg r) :
    Ends cfg (evSingleAssignable r) (Delivers .singleAssignable r) := by
  ev_lines h hm
  rcases hm with rfl | rfl | rfl | rfl
  all_goals
    ev_opt h ih .declarableValue
    ev_opt h ih .operation
    ev_opt h ih .listAssignableToAssignables
    ev_opt h ih .listFetchElement
    ev_fin

theorem safe_listAssignableToAssignables (h : Line cfg .listAssignableToAssignables r line) (ih : AllInside cfg r) :
    Ends cfg (evListAssignableToAssignables r) (Delivers .listAssignableToAssignables r) := by
  ev_lines h hm
  rcases hm with rfl | rfl
  all_goals
    ev_through h ih .totalListAssignable

theorem safe_totalListAssignable (h : Line cfg .totalListAssignable r line) (ih : AllInside cfg r) :
    Ends cfg (evTotalListAssignable r) (Delivers .totalListAssignable r) := by
  ev_lines h hm
  rcases hm with rfl | rfl | rfl
  all_goals
    ev_opt h ih .listValue
    ev_opt h ih .slice
    ev_opt h ih .listAppend
    ev_fin

theorem safe_listAssignable (h : Line cfg .listAssignable r line) (ih : AllInside cfg r) :
    Ends cfg (evListAssignable r) (Delivers .listAssignable r) := by
  ev_lines h hm
  subst hm
  cases he : r.exists (lit "assignables") with
  | true =>
    rw [evListAssignable, if_pos he]
    exact ends_pass h ih .assignables he (by decide +kernel) (fun _ hv => goodAt (by decide) hv)
  | false =>
    rw [evListAssignable, if_neg (by simp [he])]
    ev_fin

theorem safe_sliceDelimiter (h : Line cfg .sliceDelimiter r line) (ih : AllInside cfg r) :
    Ends cfg (evSliceDelimiter r) (Delivers .sliceDelimiter r) := by
  ev_lines h hm
  subst hm
  refine ends_call_tok h ih .indexValue (by ev_yes h) fun l hl hg => ?_
  match l, hl, hg with
  | [x1], _, hg =>
    obtain ⟨y1, rfl⟩ := hg x1 (by simp)
    ev_fin
  | x1 :: x2 :: l, _, hg =>
    obtain ⟨y1, rfl⟩ := hg x1 (by simp)
    obtain ⟨y2, rfl⟩ := hg x2 (by simp)
    ev_fin

theorem safe_operationFuncCalls (h : Line cfg .operationFuncCalls r line) (ih : AllInside cfg r) :
    Ends cfg (evOperationFuncCalls r) (Delivers .operationFuncCalls r) := by
  ev_lines h hm
  subst hm
  ev_opt h ih .isNullFuncCall
  ev_fin

theorem safe_isNullFuncCall (h : Line cfg .isNullFuncCall r line) (ih : AllInside cfg r) :
    Ends cfg (evIsNullFuncCall r) (Delivers .isNullFuncCall r) := by
  ev_lines h hm
  subst hm
  ev_through h ih .operation

theorem safe_operationWithSuffix (h : Line cfg .operationWithSuffix r line) (ih : AllInside cfg r) :
    Ends cfg (evOperationWithSuffix r) (Delivers .operationWithSuffix r) := by
  ev_lines h hm
  subst hm
  ev_opt h ih .operationElement
  refine ends_opt h ih .operationSuffix ?_ ?_
  · rintro v ⟨x, rfl⟩; exact ⟨_, rfl, by ev_fin⟩
  · rename_i x
    refine ends_ret' ?_
    cases x <;> exact ⟨_, rfl, goodAt (by decide) ⟨_, rfl⟩⟩

theorem safe_operationSuffix (h : Line cfg .operationSuffix r line) (ih : AllInside cfg r) :
    Ends cfg (evOperationSuffix r) (Delivers .operationSuffix r) := by
  ev_lines h hm
  subst hm
  ev_opt h ih .operator
  ev_opt h ih .operationElement
  ev_fin

theorem safe_operatorArithmetic (h : Line cfg .operatorArithmetic r line) (ih : AllInside cfg r) :
    Ends cfg (evOperatorArithmetic r) (Delivers .operatorArithmetic r) := by
  ev_lines h hm
  rcases hm with rfl | rfl | rfl | rfl
  all_goals
    exact ends_done ⟨_, goodAt (by decide) ⟨_, rfl⟩, .inl rfl⟩

theorem safe_operatorRelational (h : Line cfg .operatorRelational r line) (ih : AllInside cfg r) :
    Ends cfg (evOperatorRelational r) (Delivers .operatorRelational r) := by
  ev_lines h hm
  rcases hm with rfl | rfl | rfl | rfl
  all_goals
    exact ends_done ⟨_, goodAt (by decide) ⟨_, rfl⟩, .inl rfl⟩

theorem safe_operatorLogical (h : Line cfg .operatorLogical r line) (ih : AllInside cfg r) :
    Ends cfg (evOperatorLogical r) (Delivers .operatorLogical r) := by
  ev_lines h hm
  rcases hm with rfl | rfl
  all_goals
    exact ends_done ⟨_, goodAt (by decide) ⟨_, rfl⟩, .inl rfl⟩

theorem safe_primitiveType (h : Line cfg .primitiveType r line) (ih : AllInside cfg r) :
    Ends cfg (evPrimitiveType r) (Delivers .primitiveType r) := by
  ev_lines h hm
  rcases hm with rfl | rfl
  all_goals
    exact ends_done ⟨_, goodAt (by decide) ⟨_, rfl⟩, .inl rfl⟩

theorem safe_computableType (h : Line cfg .computableType r line) (ih : AllInside cfg r) :
    Ends cfg (evComputableType r) (Delivers .computableType r) := by
  ev_lines h hm
  rcases hm with rfl | rfl | rfl
  all_goals
    exact ends_done ⟨_, goodAt (by decide) ⟨_, rfl⟩, .inl rfl⟩

theorem safe_intIncrement (h : Line cfg .intIncrement r line) (ih : AllInside cfg r) :
    Ends cfg (evIntIncrement r) (Delivers .intIncrement r) := by
  ev_lines h hm
  subst hm
  ev_need h ih .variableName
  ev_need h ih .intIncrementValue
  rename_i s hs x
  refine ends_ret (a := ⟨s, x⟩) ?_ (goodAt (by decide) ⟨_, rfl⟩)
  simp [intIncrementNow, hs]

theorem safe_variableDeclarations (h : Line cfg .variableDeclarations r line) (ih : AllInside cfg r) :
    Ends cfg (evVariableDeclarations r) (Delivers .variableDeclarations r) := by
  ev_lines h hm
  subst hm
  refine ends_comma h ih .variableDeclaration .commaVariableDeclaration (by ev_yes h) (by rintro v ⟨x, rfl⟩; exact ⟨_, rfl⟩) (by rintro v ⟨x, rfl⟩; exact ⟨_, rfl⟩) fun a as has => ?_
  ev_fin

theorem safe_commaVariableDeclaration (h : Line cfg .commaVariableDeclaration r line) (ih : AllInside cfg r) :
    Ends cfg (evCommaVariableDeclaration r) (Delivers .commaVariableDeclaration r) := by
  ev_lines h hm
  subst hm
  ev_through h ih .variableDeclaration

theorem safe_listType (h : Line cfg .listType r line) (ih : AllInside cfg r) :
    Ends cfg (evListType r) (Delivers .listType r) := by
  ev_lines h hm
  subst hm
  ev_through h ih .declarativeType

end Verif.Base
