import Verif.Props.LexerTotal
import Verif.Lemmas.BaseLexer

/-!
# The left recursion of the shipped grammar is guarded
-/

namespace Verif.Base
open Verif.Patterns Verif.Lexer Verif.Cardinality

/-- The classes of the tokens of `tokens.alex` which may begin with each other. -/
def krank : Kind → Nat
  | .headerVariable | .voidFuncCalls | .indexValue | .ifDeclaration | .operationFuncCalls | .operator | .assigneeName | .listValue | .intIncrement | .computableValue | .primitiveValue | .declarativeType => 2
  | .headerVariables | .slice | .sliceDelimiter | .operationSuffix | .assigneeNames | .declarableValue | .variableDeclaration => 4
  | .operation | .operationWithSuffix | .operationElement => 5
  | .forStatement | .assigneeNameFirst | .totalListAssignable | .variableDeclarations => 6
  | .assigneeNameFirsts | .listAssignableToAssignables | .totalListValue => 8
  | .assignee | .listFetchElement => 10
  | .assignment | .singleAssignable => 12
  | .instruction | .assignable => 14
  | .instructions | .assignables => 16
  | .program => 18
  | _ => 0

/-- How many first parts lead to a rule. -/
def kfirst : Kind → Nat
  | .headerVariable | .voidFuncCalls | .sliceDelimiter | .ifDeclaration | .operationElement | .operationFuncCalls | .operator | .assigneeName | .totalListValue | .listValue | .intIncrement | .computableValue | .primitiveValue | .declarativeType => 1
  | .headerVariables | .slice | .operationWithSuffix | .operationSuffix | .assigneeNames | .listFetchElement | .totalListAssignable | .declarableValue | .variableDeclaration => 2
  | .program | .forStatement | .operation | .assigneeNameFirst | .assignable | .singleAssignable | .listAssignableToAssignables | .variableDeclarations => 3
  | .assigneeNameFirsts | .assignables => 4
  | .assignee => 5
  | .assignment => 6
  | .instruction => 7
  | .instructions => 8
  | _ => 0

/-- The tokens which do not lead to an operation. -/
def calm : Kind → Bool
  | .headerVariables | .headerVariable | .inputOutput | .direction | .sliceDelimiter | .indexValue | .operator | .operatorArithmetic | .operatorRelational | .operatorLogical | .assignee | .assigneeNameFirsts | .commaAssigneeFirst | .assigneeNameFirst | .assigneeNames | .commaAssigneeName | .assigneeName | .listElementFetcher | .intIncrement | .intIncrementValue | .declarableValue | .computableValue | .primitiveValue | .stringValue | .boolValue | .intValue | .floatValue | .variableDeclarations | .commaVariableDeclaration | .variableDeclaration | .declarativeType | .listType | .primitiveType | .computableType | .variableName => true
  | _ => false

def Rep.mayMiss : Rep → Bool
  | .opt | .star => true
  | .times n => n % 2 ^ 64 == 0
  | _ => false

def Piece.mayMiss : Piece → Bool
  | .switch => true
  | .part _ rep _ => rep.mayMiss

def Piece.calm : Piece → Bool
  | .part (.tok v) _ _ => Base.calm v
  | _ => true

/-- The first part of the first line is a rule, or leads to one in fewer steps. -/
def firstOkB (k : Kind) : Bool :=
  match source k with
  | [] => true
  | l :: _ => match l.filter (fun p => p ≠ .switch) with
    | .part (.tok u) _ _ :: _ => decide (kfirst u < kfirst k)
    | _ => true

/-- What a token begins with. -/
def leftOkB (k : Kind) : Bool :=
  (List.range (source k).length).all fun i => match (source k)[i]? with
    | none => true
    | some l => (List.range l.length).all fun j => match l[j]? with
      | some (.part (.tok u) _ _) => !((l.take j).all Piece.mayMiss) || decide (krank u < krank k) ||
        (krank k == 5 && krank u == 5 && !((l.take j).contains .switch) && (l.take j).all Piece.calm && ((source k).take i).all fun l => l.all Piece.calm)
      | _ => true

def calmOkB (k : Kind) : Bool := !(calm k) || (krank k != 5 && (source k).all fun l => l.all Piece.calm)

theorem first_okB (k : Kind) : firstOkB k = true := by cases k <;> decide +kernel
theorem left_okB (k : Kind) : leftOkB k = true := by cases k <;> decide +kernel
theorem calm_okB (k : Kind) : calmOkB k = true := by cases k <;> decide +kernel

def kindOf (n : Str) : Option Kind := tokenKinds.find? fun k => k.name = n

theorem kindOf_name (k : Kind) : kindOf k.name = some k := by
  unfold kindOf
  cases h : tokenKinds.find? (fun k' => decide (k'.name = k.name)) with
  | none =>
    rw [List.find?_eq_none] at h
    simpa using h k (C91_all_kinds k).1
  | some k' =>
    have := List.find?_some h
    simp at this
    rw [name_inj this]

def brank (n : Str) : Nat := (kindOf n).elim 0 krank
def bfirst (n : Str) : Nat := (kindOf n).elim 0 kfirst

theorem brank_name (k : Kind) : brank k.name = krank k := by simp [brank, kindOf_name]
theorem bfirst_name (k : Kind) : bfirst k.name = kfirst k := by simp [bfirst, kindOf_name]

theorem mayMiss_of {rep : Rep} (h : SpecAllows (rep.card.getD .mandatory) 0) : rep.mayMiss = true := by
  cases rep with
  | one => simp [Rep.card, SpecAllows] at h
  | opt => rfl
  | plus => simp [Rep.card, SpecAllows] at h
  | star => rfl
  | times n =>
    simp only [Rep.card, Option.getD_some, SpecAllows, UInt64.toNat_ofNat'] at h
    simp only [Rep.mayMiss, beq_iff_eq]
    exact h.symm

theorem forall2_split {α β : Type} {R : α → β → Prop} {l : List α} {a b : List β} (h : List.Forall₂ R l (a ++ b)) :
    ∃ la lb, l = la ++ lb ∧ List.Forall₂ R la a ∧ List.Forall₂ R lb b :=
  ⟨l.take a.length, l.drop a.length, (List.take_append_drop _ _).symm, List.forall₂_take_append _ _ _ h, List.forall₂_drop_append _ _ _ h⟩

section
variable {rs : RuleSet} {ts cs : TokenSet} (h : BaseRead rs ts cs)
include h

omit h in
/-- The tokens behind a piece. -/
theorem piece_tok {p : Piece} {e : GElement} (hp : PieceIs rs p (.element e)) {u : Str} {specs : List GSpec} (hu : e.content = .token u specs) :
    ∃ k rep spec, p = .part (.tok k) rep spec ∧ u = k.name := by
  cases p with
  | switch => cases hp
  | part s rep spec =>
    cases s with
    | tok k => obtain ⟨e', h1, _, h2⟩ := hp; cases h1; rw [hu] at h2; cases h2; exact ⟨k, rep, spec, rfl, rfl⟩
    | rule s => obtain ⟨e', r, h1, _, h2, _⟩ := hp; cases h1; rw [hu] at h2; cases h2

theorem calm_reach {v w : Str} (hr : ReachesName ts.list v w) : ∀ {k : Kind}, v = k.name → calm k = true → ∃ k', w = k'.name ∧ calm k' = true := by
  induction hr with
  | refl => intro k hv hc; exact ⟨k, hv, hc⟩
  | @tail b c _ hm ih =>
    intro k hv hc
    obtain ⟨k1, rfl, hc1⟩ := ih hv hc
    obtain ⟨t, ht, hn, gl, hl, e, he, specs, hx⟩ := hm
    obtain ⟨k2, hk2⟩ := h.token ht
    have : k2 = k1 := name_inj (hk2.1.symm.trans hn)
    subst this
    obtain ⟨l, hls, hp⟩ := h.line hk2 hl
    obtain ⟨p, hpm, hpe⟩ := (forall2_mem hp).2 _ he
    obtain ⟨k3, rep, spec, rfl, rfl⟩ := piece_tok hpe hx
    have hco := calm_okB k2
    simp only [calmOkB, hc1, Bool.not_true, Bool.false_or, Bool.and_eq_true, List.all_eq_true] at hco
    exact ⟨k3, rfl, hco.2 l hls _ hpm⟩

theorem BaseRead.guarded : WellGuarded ts.list brank bfirst := by
  refine ⟨?_, ?_, ?_⟩
  · intro t ht
    have ho := h.ordinary
    exact ⟨ho.1 t (by simp [ht]), ho.rules t (by simp [ht])⟩
  · intro t ht pre e post after hm hpre u specs hu
    obtain ⟨k, hk⟩ := h.token ht
    have hf := hk.2.2
    rw [hm] at hf
    cases hs : source k with
    | nil => rw [hs] at hf; cases hf
    | cons l ls =>
      rw [hs] at hf
      cases hf with
      | cons hl _ =>
        obtain ⟨lp, lq, rfl, h1, h2⟩ := forall2_split hl
        cases h2 with
        | @cons p _ lq' _ hpe hq =>
          obtain ⟨k', rep, spec, rfl, rfl⟩ := piece_tok hpe hu
          have hsw : ∀ q ∈ lp, q = .switch := by
            intro q hq
            obtain ⟨i, hi, hqi⟩ := (forall2_mem h1).1 _ hq
            cases q with
            | switch => rfl
            | part s rep spec =>
              exfalso
              cases s with
              | tok k => obtain ⟨e', rfl, _⟩ := hqi; exact hpre _ hi
              | rule s => obtain ⟨e', r, rfl, _⟩ := hqi; exact hpre _ hi
          have hfil : lp.filter (fun p => p ≠ .switch) = [] := by
            rw [List.filter_eq_nil_iff]
            intro q hq
            simp [hsw q hq]
          have hok := first_okB k
          simp only [firstOkB, hs, List.filter_append, hfil, List.nil_append] at hok
          simp at hok
          rw [hk.1, bfirst_name, bfirst_name]
          exact hok
  · intro t ht before pre e hleft u specs hu
    obtain ⟨k, hk⟩ := h.token ht
    obtain ⟨⟨post, after, hm⟩, hopt⟩ := hleft
    have hf := hk.2.2
    rw [hm] at hf
    obtain ⟨sb, sr, hsrc, h1, h2⟩ := forall2_split hf
    cases h2 with
    | @cons l _ sa _ hl ha =>
    obtain ⟨lp, lq, rfl, h3, h4⟩ := forall2_split hl
    cases h4 with
    | @cons p _ lq' _ hpe hq =>
    obtain ⟨k', rep, spec, rfl, rfl⟩ := piece_tok hpe hu
    have hmiss : lp.all Piece.mayMiss = true := by
      rw [List.all_eq_true]
      intro q hq
      obtain ⟨i, hi, hqi⟩ := (forall2_mem h3).1 _ hq
      cases q with
      | switch => rfl
      | part s rep spec =>
        have : ∃ e, i = .element e ∧ e.card = rep.card := by
          cases s with
          | tok k => obtain ⟨e', h1, h2, _⟩ := hqi; exact ⟨e', h1, h2⟩
          | rule s => obtain ⟨e', r, h1, h2, _⟩ := hqi; exact ⟨e', h1, h2⟩
        obtain ⟨e', rfl, hcard⟩ := this
        have := hopt _ hi
        rw [GElement.times, hcard] at this
        exact mayMiss_of this
    have hok := left_okB k
    simp only [leftOkB, List.all_eq_true, List.mem_range] at hok
    have hi := hok sb.length (by rw [hsrc]; simp)
    rw [hsrc] at hi
    simp only [List.getElem?_append_right (le_refl _), Nat.sub_self, List.getElem?_cons_zero, List.take_left] at hi
    simp only [List.all_eq_true, List.mem_range] at hi
    have hj := hi lp.length (by simp)
    simp only [List.getElem?_append_right (le_refl _), Nat.sub_self, List.getElem?_cons_zero, List.take_left, hmiss] at hj
    rw [hk.1, brank_name, brank_name]
    simp only [Bool.not_true, Bool.false_or, Bool.or_eq_true, Bool.and_eq_true, decide_eq_true_eq, beq_iff_eq, Bool.not_eq_true', List.all_eq_true] at hj
    refine hj.imp_right ?_
    rintro ⟨⟨⟨⟨j1, j2⟩, j3⟩, j4⟩, j5⟩
    have hcalm : ∀ (l : List Piece) (gl : GLine), List.Forall₂ (PieceIs rs) l gl → (∀ q ∈ l, q.calm = true) → ∀ v, GLine.Has gl v → ∀ w, ReachesName ts.list v w → brank w ≠ krank k := by
      intro l gl hlg hc v hv w hw
      obtain ⟨x, hx, specs, hxv⟩ := hv
      obtain ⟨q, hq, hqx⟩ := (forall2_mem hlg).2 _ hx
      obtain ⟨kv, rep, spec, rfl, rfl⟩ := piece_tok hqx hxv
      obtain ⟨kw, rfl, hcw⟩ := calm_reach h hw rfl (hc _ hq)
      have hco := calm_okB kw
      simp only [calmOkB, hcw, Bool.not_true, Bool.false_or, Bool.and_eq_true, bne_iff_ne, ne_eq] at hco
      rw [brank_name, j1]
      exact hco.1
    refine ⟨by omega, ?_, ?_⟩
    · intro hsw
      obtain ⟨q, hq, hqs⟩ := (forall2_mem h3).2 _ hsw
      cases q with
      | switch =>
        have : lp.contains .switch = true := by simpa using hq
        rw [this] at j3
        cases j3
      | part s rep spec =>
        cases s with
        | tok k => obtain ⟨e', h1, _⟩ := hqs; cases h1
        | rule s => obtain ⟨e', r, h1, _⟩ := hqs; cases h1
    · rintro gl (rfl | hgl)
      · exact hcalm lp _ h3 j4
      · obtain ⟨l, hl, hlg⟩ := (forall2_mem h1).2 _ hgl
        exact hcalm l gl hlg (j5 l hl)
end

/-- The shipped lexer always ends: for every token and every script there is one outcome, which is that of every run with enough steps. -/
theorem base_ends (k : Kind) (script : Str) : ∃ F r, ∀ (x : Setting) (order : List Path → Nat → List Path), AnyOrder order → ∀ fuel, F ≤ fuel →
    x.ast order fuel k.name script = some r := by
  obtain ⟨ps, rs, ts, cs, hs, hb, _⟩ := shipped
  obtain ⟨t, ht, _, p, chans, hp, hrun⟩ := base_matchers hs k
  have hts := hb.tokensNow
  obtain ⟨F, r, hF⟩ := C97_guarded_ends { tokens := ts } ts.list hts ⟨fun _ => rfl, fun _ => rfl⟩ brank bfirst hb.guarded t ht cs hb.apart 64 p chans
    (hp 64 (by omega)) (fun _ => chans) (fun _ => List.Perm.refl _) script ⟨false, fun _ => none, 0⟩ rfl
  refine ⟨F, r.1, fun x order ho fuel hf => ?_⟩
  rw [x.ast_eq hs, hrun _ x.enough]
  have := C94_order _ _ t cs hb.apart p chans (hp 64 (by omega)) (order chans) (fun _ => chans) (ho chans) (fun _ => List.Perm.refl _)
    ⟨false, fun _ => none, 0⟩ ⟨false, fun _ => none, 0⟩ rfl rfl fuel script
  dsimp only
  rw [this, hF fuel hf]
  rfl

end Verif.Base
