import Verif.Lemmas.LexerWork2
import Verif.Props.BaseTotal

/-!
# The work of the shipped lexer on opening brackets
-/

namespace Verif.Base
open Verif.Patterns Verif.Lexer Verif.Cardinality

/-! ## Counting the visits -/

/-- The text of a rule with a constant. -/
def ruleConst (s : String) : Option Str :=
  match baseRules.find? (fun x => x.1 = lit s) with
  | some (_, .constant c) => some c
  | _ => none

/-- No line of the token can begin at a text which begins with `pre`. -/
def deadK : Nat → Kind → Str → Bool
  | 0, _, _ => false
  | d + 1, k, pre => (source k).all fun l => match l with
    | .part (.rule s) .one _ :: _ => match ruleConst s with
      | some c => !(c.isPrefixOf pre) && !(pre.isPrefixOf c)
      | none => false
    | .part (.tok k') .one _ :: _ => deadK d k' pre
    | .part (.tok k') .plus _ :: _ => deadK d k' pre
    | _ => false

/-- The visits in a line behind `pre`, when `ref` gives those in a token. -/
def lineCnt (stack : List Kind) (ref : Kind → Str → Nat) : List Piece → Str → Nat
  | .part (.rule s) .one _ :: l, pre => match ruleConst s with
    | some c => if c.isPrefixOf pre then lineCnt stack ref l (pre.drop c.length) else 0
    | none => 0
  | .part (.tok k) rep spec :: l, pre => ref k pre + if rep = .opt ∧ spec = none ∧ k ∉ stack ∧ deadK 8 k pre = true then lineCnt stack ref l pre else 0
  | _, _ => 0

/-- Visits of the recursive token `X` behind `pre` which the reading of the token `k` makes. -/
def cnt (X : Kind) : Nat → List Kind → Kind → Str → Nat
  | 0, _, _, _ => 0
  | d + 1, stack, k, pre => ((source k).map fun l =>
      lineCnt stack (fun k' pre => if k' ∈ stack then (if k' = X ∧ pre = [] then 1 else 0) else cnt X d (k' :: stack) k' pre) l pre).sum

/-- The tokens around a list. -/
def around : Kind → Option Kind
  | .assignables => some .assignable
  | .assignable => some .totalListAssignable
  | .totalListAssignable => some .listValue
  | .listValue => some .listAssignable
  | .listAssignable => some .assignables
  | _ => none

/-! ## Only rules stand where the channels are switched off -/

theorem source_loud (k : Kind) : ∀ l ∈ source k, Piece.switch ∈ l → ∀ p ∈ l, p = .switch ∨ ∃ s rep spec, p = .part (.rule s) rep spec := by
  have key : (source k).all (fun l => !(l.contains .switch) || l.all fun p => match p with | .part (.tok _) _ _ => false | _ => true) = true := by
    cases k <;> decide +kernel
  intro l hl hs p hp
  rw [List.all_eq_true] at key
  have := key l hl
  simp only [Bool.or_eq_true, Bool.not_eq_true', List.all_eq_true] at this
  rcases this with h | h
  · exact absurd (List.elem_iff.mpr hs) (by simpa using h)
  · have := h p hp
    cases p with
    | switch => exact .inl rfl
    | part s rep spec =>
      cases s with
      | tok k => simp at this
      | rule s => exact .inr ⟨_, _, _, rfl⟩

theorem switch_rules {g : PathEnv} {stack : List Str} {parent : Str} {n : Nat} {l : GLine} {x : Line} (hx : UnfLine g stack parent n l x)
    (hr : ∀ e, .element e ∈ l → ∃ r, e.content = .rule r) (c : PContainer) (hc : Instruction.container c ∈ x) : ∃ r k, c = .rule r k := by
  induction x generalizing l with
  | nil => simp at hc
  | cons i x ih =>
    cases hx with
    | switch hx => exact ih hx (fun e he => hr e (by simp [he])) (by simpa using hc)
    | elem h1 hx =>
      simp only [List.mem_cons, Instruction.container.injEq] at hc
      rcases hc with rfl | hc
      · obtain ⟨r, hr⟩ := hr _ (List.mem_cons_self ..)
        cases h1 with
        | rule h1 => exact ⟨_, _, rfl⟩
        | recur h1 => rw [h1] at hr; cases hr
        | replaced h1 => rw [h1] at hr; cases hr
        | declared h1 => rw [h1] at hr; cases hr
        | missing h1 => rw [h1] at hr; cases hr
      · exact ih hx (fun e he => hr e (by simp [he])) hc

theorem switch_in {g : PathEnv} {stack : List Str} {parent : Str} {n : Nat} {l : GLine} {x : Line} (hx : UnfLine g stack parent n l x)
    (hc : Instruction.channelSwitch ∈ x) : GInstr.channelSwitch ∈ l := by
  induction x generalizing l with
  | nil => simp at hc
  | cons i x ih =>
    cases hx with
    | switch hx => simp
    | elem h1 hx =>
      simp at hc
      exact List.mem_cons_of_mem _ (ih hx hc)

section
variable {g : PathEnv} (hg : TokensOk g) (hclosed : GClosed g)
  (hA : ∀ t ∈ g.tokens.list, t.not = none ∧ ∀ l ∈ t.must, .channelSwitch ∈ l → ∀ e, .element e ∈ l → ∃ r, e.content = .rule r)
include hg hclosed hA

mutual
theorem unf_loud : ∀ {stack : List Str} {t : GToken} {e : Element}, Unf g stack t e → t ∈ g.tokens.list → Loud e
  | _, t, _, .mk (must := must) (not := not) _ _ h3 h4 _, ht => by
    have key := unfLines_loud h3 (hA t ht).2
    have hn := h4 (hA t ht).1
    refine .mk ?_ ?_
    · rw [hn, List.append_nil]
      exact fun l hl => (key l hl).1
    · rw [hn, List.append_nil]
      exact fun l hl => (key l hl).2
theorem unfLines_loud : ∀ {stack : List Str} {parent : Str} {ls : List GLine} {xs : List Line}, UnfLines g stack parent ls xs →
    (∀ l ∈ ls, .channelSwitch ∈ l → ∀ e, .element e ∈ l → ∃ r, e.content = .rule r) → ∀ x ∈ xs, LoudLine x
  | _, _, _, _, .nil, _ => by simp
  | _, _, _, _, .cons _ h2 h3, h => by
    have k1 := unfLine_loud h2
    have k2 := unfLines_loud h3 (fun l hl => h l (by simp [hl]))
    intro x hx
    rcases List.mem_cons.mp hx with rfl | hx
    · exact ⟨k1, fun hsw c hc => switch_rules h2 (h _ (by simp) (switch_in h2 hsw)) c hc⟩
    · exact k2 x hx
theorem unfLine_loud : ∀ {stack : List Str} {parent : Str} {n : Nat} {l : GLine} {x : Line}, UnfLine g stack parent n l x →
    ∀ c, Instruction.container c ∈ x → LoudC c
  | _, _, _, _, _, .nil => by simp
  | _, _, _, _, _, .switch h => by
    have := unfLine_loud h
    intro c hc
    exact this c (by simpa using hc)
  | _, _, _, _, _, .elem h1 h2 => by
    have k1 := unfC_loud h1
    have k2 := unfLine_loud h2
    intro c hc
    simp only [List.mem_cons, Instruction.container.injEq] at hc
    rcases hc with rfl | hc
    · exact k1
    · exact k2 c hc
theorem unfC_loud : ∀ {stack : List Str} {parent : Str} {n : Nat} {e : GElement} {c : PContainer}, UnfC g stack parent n e c → LoudC c
  | _, _, _, _, _, .recur _ _ _ _ _ => .recursive
  | _, _, _, _, _, .replaced _ _ _ h4 => by rw [hclosed.1] at h4; cases h4
  | _, _, _, _, _, .missing _ _ _ _ _ h6 => by rw [hclosed.2] at h6; cases h6
  | _, _, _, _, _, .declared _ _ _ _ h5 h6 => .token (unf_loud h6 ((hg.find _ _).mp h5).1)
  | _, _, _, _, _, .rule _ => .rule
end
end

section
variable {rs : RuleSet} {ts cs : TokenSet} (h : BaseRead rs ts cs) {env : Env} {v : Str → Option LineMatch} {deps : List Element}
include h

theorem BaseRead.switches : ∀ t ∈ ts.list, t.not = none ∧ ∀ l ∈ t.must, .channelSwitch ∈ l → ∀ e, .element e ∈ l → ∃ r, e.content = .rule r := by
  intro t ht
  obtain ⟨k, hk⟩ := h.token ht
  refine ⟨hk.2.1, ?_⟩
  intro l hl hsw e he
  obtain ⟨sl, hs, hp⟩ := h.line hk hl
  obtain ⟨p, hp1, hp2⟩ := (forall2_mem hp).2 _ hsw
  have : p = .switch := by
    cases p with
    | switch => rfl
    | part s rep spec =>
      cases s with
      | tok k => obtain ⟨e', h1, _⟩ := hp2; cases h1
      | rule s => obtain ⟨e', r, h1, _⟩ := hp2; cases h1
  subst this
  obtain ⟨q, hq1, hq2⟩ := (forall2_mem hp).2 _ he
  rcases source_loud k sl hs hp1 q hq1 with rfl | ⟨s, rep, spec, rfl⟩
  · cases hq2
  · obtain ⟨e', r, h1, _, h2, _⟩ := hq2
    cases h1
    exact ⟨r, h2⟩

theorem BaseRead.loud (H : Guarded { tokens := ts } env v deps brank bfirst) {stack : List Str} {t : GToken} {e : Element} (hu : Unf { tokens := ts } stack t e)
    (ht : t ∈ ts.list) : Loud e := unf_loud H.tokens H.closed h.switches hu ht

theorem BaseRead.fetch_loud (H : Guarded { tokens := ts } env v deps brank bfirst) (nm : Str) (e : Element) (hf : fetch deps nm = .ok e) : Loud e := by
  obtain ⟨u, hu, _, hx⟩ := H.fetched hf
  exact h.loud H hx hu
end

end Verif.Base
