import Verif.Lemmas.BaseTotal
import Verif.Props.LexerAnswers

/-!
# Property C99: the shipped lexer answers on every text
-/

namespace Verif.Base
open Verif.Patterns Verif.Lexer Verif.Cardinality

theorem toRules_codes {content : Str} {ps : PatternSet} {rs : RuleSet} (h : Text.toRules content ps = .ok rs) : ∀ r ∈ rs.list, r.name ≠ [] ∧ r.code ≠ [] := by
  unfold Text.toRules at h
  simp only [Out.bind_eq_ok] at h
  obtain ⟨l, h1, h2⟩ := h
  have hl := (C38_unique_find l rs h2).1
  rw [hl]
  clear h2 hl
  generalize Regex.findAll Text.reRuleEntry content = ms at h1
  induction ms generalizing l with
  | nil => simp [mapOut] at h1; subst h1; simp
  | cons m ms ih =>
    simp only [mapOut, Out.bind_eq_ok] at h1
    obtain ⟨r, hr, l', hl', h1⟩ := h1
    simp at h1
    subst h1
    intro r' hr'
    rcases List.mem_cons.mp hr' with rfl | hr'
    · unfold Text.ruleOf at hr
      simp only [Out.bind_eq_ok] at hr
      obtain ⟨x, _, hr⟩ := hr
      have := (C65_rule_builder _ _ _ _ _).mp hr
      exact ⟨by rw [this.2.2.2.2.1]; exact this.1, by rw [this.2.2.2.2.2.1]; exact this.2.1⟩
    · exact ih l' hl' r' hr'

theorem baseRules_made : ∀ x ∈ baseRules, match x.2 with | .constant c => c ≠ [] | .pattern ps _ => ps ≠ [] := by
  simp only [baseRules, List.forall_mem_cons]
  simp [lit]

theorem base_made {ps : PatternSet} {rs : RuleSet} {ts cs : TokenSet} (hs : Shipped ps rs ts cs) : ∀ t, t ∈ ts.list ∨ t ∈ cs.list → TokenMade t := by
  have hb := shipped_read hs
  have hr : ∀ r ∈ rs.list, RuleMade r := by
    intro r hr
    obtain ⟨h1, h2⟩ := toRules_codes hs.rules r hr
    refine ⟨h1, h2, ?_⟩
    have hw := hb.rule_wf hr
    have hc := baseRules_made (r.name, r.content) (by rw [← hb.rules]; exact List.mem_map_of_mem hr)
    dsimp only at hc
    unfold RuleWF at hw
    split at hc
    · rename_i c heq
      rw [heq]; exact hc
    · rename_i ps k heq
      rw [heq] at hw ⊢
      exact ⟨hc, hw⟩
  rintro t (ht | ht)
  · obtain ⟨k, hk⟩ := hb.token ht
    refine ⟨hk.2.1, ?_, ?_⟩
    · intro l hl e he r her
      obtain ⟨sl, _, hf⟩ := hb.line hk hl
      obtain ⟨piece, _, hp⟩ := (forall2_mem hf).2 _ he
      cases piece with
      | switch => cases hp
      | part s rep spec =>
        cases s with
        | tok k => obtain ⟨e', h1, _, h2⟩ := hp; cases h1; rw [h2] at her; cases her
        | rule s =>
          obtain ⟨e', r', h1, _, h2, h3⟩ := hp
          cases h1
          rw [h2] at her
          cases her
          exact hr _ (hb.find_rule h3).1
    · intro l ls hm
      have h3 := hk.2.2
      rw [hm] at h3
      cases hsrc : source k with
      | nil => rw [hsrc] at h3; cases h3
      | cons sl sls =>
        rw [hsrc] at h3
        obtain ⟨h4, _⟩ := List.forall₂_cons.mp h3
        have key : ∃ s rep spec, Piece.part s rep spec ∈ sl := by
          have : (source k).head?.any (fun l => l.any fun p => match p with | .part _ _ _ => true | .switch => false) = true := by
            cases k <;> decide +kernel
          rw [hsrc] at this
          simp only [List.head?_cons, Option.any_some, List.any_eq_true] at this
          obtain ⟨x, hx, hx'⟩ := this
          cases x with
          | switch => cases hx'
          | part s rep spec => exact ⟨s, rep, spec, hx⟩
        obtain ⟨s, rep, spec, hin⟩ := key
        obtain ⟨i, hi, hp⟩ := (forall2_mem h4).1 _ hin
        cases s with
        | tok k => obtain ⟨e', h1, _⟩ := hp; exact ⟨e', h1 ▸ hi⟩
        | rule s => obtain ⟨e', r', h1, _⟩ := hp; exact ⟨e', h1 ▸ hi⟩
  · obtain ⟨x, _, hx⟩ := hb.channel ht
    obtain ⟨_, h2, _, r, e, h3, h4, _, h5⟩ := hx
    refine ⟨h2, ?_, ?_⟩
    · intro l hl e' he r' her
      rw [h3] at hl
      simp at hl
      subst hl
      simp at he
      subst he
      rw [h4] at her
      cases her
      exact hr _ (hb.find_rule h5).1
    · intro l ls hm
      rw [h3] at hm
      simp at hm
      exact ⟨e, by rw [← hm.1]; simp⟩

/-- C99: with the shipped texts `AST` answers on every script for every token: there is one syntax tree or one mistake which is the result of all runs with
enough steps, whatever the order of the channels, the file system and the depth of the stack (from 64 on). There is no error, no panic and no endless run. -/
theorem C99_base_total (k : Kind) (script : Str) : ∃ F a, ∀ (x : Setting) (order : List Path → Nat → List Path), AnyOrder order → ∀ fuel, F ≤ fuel →
    x.ast order fuel k.name script = some (.ok a) := by
  obtain ⟨F, r, hF⟩ := base_ends k script
  obtain ⟨ps, rs, ts, cs, hs, hb, _⟩ := shipped
  obtain ⟨t, ht, _, p, chans, hp, hrun⟩ := base_matchers hs k
  have hx := hF ⟨fun _ _ => .err, fun _ _ => .err, ⟨[], []⟩, 64, le_refl _⟩ (fun l _ => l) (fun l _ => List.Perm.refl _) F (le_refl _)
  rw [Setting.ast_eq _ hs, hrun _ (le_refl _)] at hx
  dsimp only at hx
  cases hr : toAST ⟨p, fun _ => chans⟩ false F script ⟨false, fun _ => none, 0⟩ with
  | none => rw [hr] at hx; cases hx
  | some y =>
    obtain ⟨y, st'⟩ := y
    rw [hr] at hx
    simp at hx
    subst hx
    rcases C98_answers { tokens := ts } ts.list hb.tokensNow ⟨fun _ => rfl, fun _ => rfl⟩ t ht (some cs) (base_made hs) hb.ordinary.fits 64 p chans
      (hp 64 (le_refl _)) (fun _ => chans) (fun _ => List.Perm.refl _) F script _ st' rfl y hr with ⟨a, rfl⟩ | ⟨m, rfl⟩
    · exact ⟨F, _, hF⟩
    · exact ⟨F, _, hF⟩

/-- The hypotheses are met: there are such settings and orders. -/
example (script : Str) : ∃ F a, ∀ fuel, F ≤ fuel →
    (⟨fun _ _ => .err, fun _ _ => .err, ⟨[], []⟩, 64, le_refl _⟩ : Setting).ast (fun l k => if k % 2 = 0 then l else l.reverse) fuel (lit "program") script =
      some (.ok a) := by
  obtain ⟨F, a, h⟩ := C99_base_total .program script
  refine ⟨F, a, fun fuel hf => h _ _ ?_ fuel hf⟩
  intro l k
  dsimp only
  split
  · exact List.Perm.refl _
  · exact List.reverse_perm l

end Verif.Base
