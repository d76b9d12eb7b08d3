import Verif.Lemmas.LexerDiverge

/-! Lines which end early. -/

namespace Verif.Lexer
open Verif.Patterns Verif.Cardinality

theorem blocksValid_snoc (b : BlockMatch) : ∀ l, blocksValid (l ++ [b]) = (blocksValid l && b.isValid)
  | [] => by simp [blocksValid]
  | x :: xs => by simp [blocksValid, blocksValid_snoc b xs, Bool.and_assoc]

theorem blocksDiscoveries_snoc (b : BlockMatch) : ∀ l, blocksDiscoveries (l ++ [b]) = blocksDiscoveries l ++ b.discoveries
  | [] => by simp [blocksDiscoveries]
  | x :: xs => by simp [blocksDiscoveries, blocksDiscoveries_snoc b xs]

/-- At the end of the text an optional part ends the line, whatever stands behind it. -/
theorem line_early {env : Env} (hch : ∀ k, env.channels k = []) (n : Nat) (deps : List Element) {c : PContainer} {k : Card}
    (hc : c.cardinality = .ok k) (hk : k.isValid 0 = true) (tail : Line) (rs : List Rule) :
    ∀ cs : List Str, List.Forall₂ (fun r c => r.content = .constant c ∧ c ≠ []) rs cs → ∀ ch nx acc st,
    blocksValid acc = true → (rs = [] → acc ≠ []) →
    ∃ l st', lineLoop (fun c rem ch next => containerToBlockMatch env (n + 3) c deps rem ch next)
        (mandatoryLine rs ++ .container c :: tail) ch nx cs.flatten acc st = some (.ok (some l), st') ∧
      blocksValid l = true ∧ blocksDiscoveries l = blocksDiscoveries acc ++ cs.flatten := by
  induction rs with
  | nil =>
    intro cs hcs ch nx acc st hv hne
    cases hcs
    refine ⟨acc, st, ?_, hv, by simp⟩
    simp only [mandatoryLine, List.map_nil, List.nil_append, lineLoop, List.flatten_nil, containerToBlockMatch, if_true, hc]
    rw [M.bind_some_ok (a := none) (s1 := st)]
    · simp [hne]
    · rw [M.bind_some_ok (M.lift_run _ _)]; simp [hk]
  | cons r rs ih =>
    intro cs hcs ch nx acc st hv _
    obtain ⟨c', cs, ⟨hc', h0⟩, hcs', rfl⟩ := List.forall₂_cons_left_iff.mp hcs
    obtain ⟨b, st', h1, _, h2, h3⟩ := block_mandatory hch hc' h0 n deps (c' :: cs).flatten ch nx st
    have hb : b.isValid = true := h2.mpr (by simp)
    have hd := h3 hb
    obtain ⟨l, st'', k1, k2, k3⟩ := ih cs hcs' (if nx then ch else false) nx (acc ++ [b]) st'
      (by simp [blocksValid_snoc, hv, hb]) (by simp)
    refine ⟨l, st'', ?_, k2, ?_⟩
    · simp only [mandatoryLine, List.map_cons, List.cons_append, lineLoop]
      rw [M.bind_some_ok h1]
      have hp : c' <+: (c' :: cs).flatten := by simp
      simp only [hb, hd, Bool.not_true, Bool.false_eq_true, if_false, isPrefixOf_iff.mpr hp]
      rw [replaceFirst_prefix hp]
      simp only [List.flatten_cons, List.drop_left]
      exact k1
    · rw [k3, blocksDiscoveries_snoc, hd]; simp

theorem constants_ne {rs : List Rule} {cs : List Str} (h0 : rs ≠ [])
    (h : List.Forall₂ (fun r c => r.content = .constant c ∧ c ≠ []) rs cs) : cs.flatten ≠ [] := by
  cases h with
  | nil => exact absurd rfl h0
  | cons h _ => intro hf; simp at hf; exact h.2 hf.1

theorem InChannels_nil {w : Str} (h : InChannels [] w) : w = [] := by
  cases h with
  | nil => rfl
  | cons h => simp at h

/-- A word of a mandatory constant. -/
theorem InContainer_mandatory {chans deps} {r : Rule} {c w : Str} (hc : r.content = .constant c)
    (h : InContainer chans deps (.rule r .mandatory) w) : w = c := by
  cases h with
  | @rule _ _ _ ws hws hn =>
    simp only [SpecAllows] at hn
    obtain ⟨x, rfl⟩ := List.length_eq_one_iff.mp hn
    have := hws x (by simp)
    simp only [RuleText, hc] at this
    simp [this.1]

theorem InLine_mandatory {deps} (rs : List Rule) : ∀ (cs : List Str) (is : Line) (w : Str),
    List.Forall₂ (fun r c => r.content = .constant c ∧ c ≠ []) rs cs → InLine [] deps (mandatoryLine rs ++ is) w →
    ∃ v, w = cs.flatten ++ v ∧ InLine [] deps is v := by
  induction rs with
  | nil => intro cs is w h hi; cases h; exact ⟨w, by simp, hi⟩
  | cons r rs ih =>
    intro cs is w h hi
    obtain ⟨c', cs, ⟨hc', h0⟩, hcs', rfl⟩ := List.forall₂_cons_left_iff.mp h
    simp only [mandatoryLine, List.map_cons, List.cons_append] at hi
    cases hi with
    | cons hg hu hv =>
      obtain ⟨v, rfl, hv'⟩ := ih cs is _ hcs' hv
      refine ⟨v, ?_, hv'⟩
      rw [InChannels_nil hg, InContainer_mandatory hc' hu]
      simp

theorem InLine_contains {chans deps} {r : Rule} {c : Str} (hc : r.content = .constant c) (is : Line) : ∀ w,
    InLine chans deps is w → .container (.rule r .mandatory) ∈ is → c <:+: w := by
  induction is with
  | nil => simp
  | cons i is ih =>
    intro w h hm
    cases h with
    | switch h => exact ih _ h (by simpa using hm)
    | cons hg hu hv =>
      rcases List.mem_cons.mp hm with hm | hm
      · simp at hm; subst hm
        rw [InContainer_mandatory hc hu]
        exact ⟨_, _, rfl⟩
      · exact (ih _ hv hm).trans (List.suffix_append _ _).isInfix

end Verif.Lexer
