import Verif.Lemmas.BaseEval
import Verif.Props.Grammar

/-!
# Lemmas: the shipped grammar compiles
-/

set_option maxRecDepth 100000

namespace Verif.Base
open Verif.Patterns Verif.Lexer Verif.Cardinality

/-- The source is complete, and no token is its own line. -/
def sourceOk (k : Kind) : Bool :=
  !k.name.isEmpty && !(source k).isEmpty && (source k).all fun l => !l.isEmpty &&
    match l.filter (fun p => p ≠ .switch) with
    | [.part s _ _] => s != .tok k
    | _ => true

theorem source_ok (k : Kind) : sourceOk k = true := by cases k <;> decide +kernel

theorem pieces_filter {rs : RuleSet} {l : List Piece} {gl : GLine} (h : List.Forall₂ (PieceIs rs) l gl) :
    List.Forall₂ (PieceIs rs) (l.filter (fun p => p ≠ .switch)) (gl.filter (fun i => i ≠ .channelSwitch)) := by
  induction h with
  | nil => exact .nil
  | @cons p i l gl hpi _ ih =>
    cases p with
    | switch => obtain rfl := hpi; simpa using ih
    | part s rep spec =>
      have hi : i ≠ .channelSwitch := by
        rintro rfl
        cases s with
        | tok k => obtain ⟨e, h, _⟩ := hpi; cases h
        | rule k => obtain ⟨e, r, h, _⟩ := hpi; cases h
      simp only [List.filter_cons, hi, ne_eq, reduceCtorEq, not_false_eq_true, decide_true, if_true]
      exact .cons hpi ih

section
variable {rs : RuleSet} {ts cs : TokenSet} (h : BaseRead rs ts cs)
include h

theorem BaseRead.complete {t : GToken} (ht : t ∈ ts.list) : GComplete t ∧ GDeclared { tokens := ts } t ∧ GProgress { tokens := ts } t := by
  obtain ⟨k, hk⟩ := h.token ht
  have hs := source_ok k
  simp only [sourceOk, Bool.and_eq_true, List.all_eq_true] at hs
  obtain ⟨⟨s1, s2⟩, s3⟩ := hs
  have hlines : t.lines = t.must := by simp [GToken.lines, hk.2.1]
  have hl : ∀ gl ∈ t.lines, ∃ l ∈ source k, List.Forall₂ (PieceIs rs) l gl := fun gl hg => h.line hk (hlines ▸ hg)
  refine ⟨⟨?_, ?_, ?_, ?_⟩, ?_, ?_⟩
  · rw [hk.1]; simpa using s1
  · intro h0
    have := hk.2.2
    rw [h0] at this
    cases hsrc : source k with
    | nil => simp [hsrc] at s2
    | cons a l => rw [hsrc] at this; cases this
  · intro gl hg h0
    obtain ⟨l, hm, hp⟩ := hl gl hg
    subst h0
    cases hp
    have := s3 _ hm
    simp at this
  · intro gl hg e he name specs hc sp hsp
    obtain ⟨l, hm, hp⟩ := hl gl hg
    obtain ⟨s, rep, spec, _, hp⟩ := part_of h hp he
    cases s with
    | rule s => obtain ⟨e', r', h1, _, h2, _⟩ := hp; cases h1; rw [hc] at h2; cases h2
    | tok k' =>
      obtain ⟨e', h1, _, h2⟩ := hp
      cases h1
      rw [hc] at h2
      cases h2
      cases spec with
      | none => simp [specsOf] at hsp
      | some x =>
        simp [specsOf] at hsp
        subst hsp
        simp only [GSpecContent.name]
        have hs := source_ok x.1
        simp only [sourceOk, Bool.and_eq_true] at hs
        simpa using hs.1.1
  · intro gl hg e he name specs hc
    obtain ⟨l, hm, hp⟩ := hl gl hg
    obtain ⟨s, rep, spec, _, hp⟩ := part_of h hp he
    cases s with
    | rule s => obtain ⟨e', r', h1, _, h2, _⟩ := hp; cases h1; rw [hc] at h2; cases h2
    | tok k' =>
      obtain ⟨e', h1, _, h2⟩ := hp
      cases h1
      rw [hc] at h2
      cases h2
      obtain ⟨u, hu, hku⟩ := h.kind k'
      exact .inr (.inl ⟨u, hu, hku.1⟩)
  · intro _ gl hg e specs hc h0
    obtain ⟨l, hm, hp⟩ := hl gl hg
    have hf := pieces_filter hp
    rw [h0] at hf
    have := s3 _ hm
    have h2 := this.2
    generalize l.filter (fun p => p ≠ .switch) = fl at hf h2
    cases hf with
    | cons hx hn =>
      cases hn
      rename_i p
      cases p with
      | switch => cases hx
      | part s rep spec =>
        simp only at h2
        cases s with
        | rule s => obtain ⟨e', r', h1, _, h2, _⟩ := hx; cases h1; rw [hc] at h2; cases h2
        | tok k' =>
          obtain ⟨e', h1, _, h3⟩ := hx
          cases h1
          rw [hc] at h3
          have : k' = k := name_inj (by rw [← hk.1]; exact (GContent.token.inj h3).1.symm)
          subst this
          simp at h2

theorem BaseRead.channelComplete {t : GToken} (ht : t ∈ cs.list) : GComplete t ∧ GDeclared { tokens := ts } t := by
  obtain ⟨x, hx, hn, h1, h2, r, e, h3, h4, h5, h6⟩ := h.channel ht
  have hlines : t.lines = [[.element e]] := by simp [GToken.lines, h1, h3]
  refine ⟨⟨?_, ?_, ?_, ?_⟩, ?_⟩
  · rw [hn]
    simp only [List.mem_cons, List.not_mem_nil, or_false] at hx
    rcases hx with rfl | rfl | rfl <;> decide
  · simp [h3]
  · simp [hlines]
  · intro l hl e' he' name specs hc
    simp [hlines] at hl
    subst hl
    simp at he'
    subst he'
    rw [h4] at hc
    cases hc
  · intro l hl e' he' name specs hc
    simp [hlines] at hl
    subst hl
    simp at he'
    subst he'
    rw [h4] at hc
    cases hc

theorem BaseRead.length : ts.list.length = 63 := by
  have := h.tokens.length_eq
  rw [← this]
  rfl

theorem BaseRead.path {t : GToken} (ht : t ∈ ts.list ∨ t ∈ cs.list) {d : Nat} (hd : 63 < d) : ∃ p, toPath { tokens := ts } d t = .ok p := by
  refine (C66_compiles_iff _ ts.list (by exact h.tokensNow) t d (by rw [h.length]; exact hd)).mpr ⟨fun u hu => h.complete hu, ?_⟩
  rcases ht with ht | ht
  · exact ⟨(h.complete ht).1, (h.complete ht).2.1⟩
  · exact h.channelComplete ht

theorem BaseRead.matcher {t : GToken} (ht : t ∈ ts.list) {d : Nat} (hd : 63 < d) : ∃ p ps, matcherNow { tokens := ts } d t (some cs) = .ok (p, ps) := by
  obtain ⟨p, hp⟩ := h.path (.inl ht) hd
  have : ∀ l, (∀ c ∈ l, c ∈ cs.list) → ∃ ps, channelPaths { tokens := ts } d l = .ok ps := by
    intro l
    induction l with
    | nil => intro _; exact ⟨[], rfl⟩
    | cons c l ih =>
      intro hl
      obtain ⟨q, hq⟩ := h.path (.inr (hl c List.mem_cons_self)) hd
      obtain ⟨qs, hqs⟩ := ih fun x hx => hl x (List.mem_cons_of_mem _ hx)
      exact ⟨q :: qs, by simp [channelPaths, hq, hqs]⟩
  obtain ⟨ps, hps⟩ := this cs.list fun _ h => h
  exact ⟨p, ps, by simp [matcherNow, hp, hps]⟩
end

end Verif.Base
