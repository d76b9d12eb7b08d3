import Verif.Lemmas.LexerReadRule
import Verif.Lemmas.LexerFrame

/-! How repeated rules read. -/

namespace Verif.Lexer
open Verif.Patterns Verif.Cardinality

/-- The first match of the result is at the beginning of the text. -/
def AtFront (x : RuleResult) : Prop := ∃ m ms, x.results = some (m :: ms) ∧ m.index = .ok 0

theorem ruleReads_empty {r : Rule} (hw : RuleWF r) : RuleReads r [] none := by
  unfold RuleReads
  unfold RuleWF at hw
  cases hc : r.content with
  | constant c =>
    right
    refine ⟨?_, rfl⟩
    rintro ⟨h1, h2⟩
    exact h1 (by simpa using h2)
  | pattern ps card =>
    rw [hc] at hw
    exact ⟨[], .stop (patternReads_none_empty hw), by simp⟩

theorem tries_below {card : Card} {n : Nat} (h : (tries card).map (· - n) ≠ some 0) : Below card n := by
  intro m hm
  unfold tries at h
  rw [maximum_eq, hm] at h
  simp at h
  omega

theorem tries_full {card : Card} {n : Nat} (hn : n < 2 ^ 64) (h : reachedMax card n = true) (h1 : 0 < n) :
    (tries card).map (· - n) = some 0 := by
  obtain ⟨m, hm, hle⟩ := (reachedMax_iff card n hn).mp h
  unfold tries
  rw [hm]
  simp
  omega

theorem tries_more {card : Card} {n : Nat} (hn : n < 2 ^ 64) (h : ¬ reachedMax card n = true) :
    (tries card).map (· - n) ≠ some 0 := by
  intro e
  apply h
  rw [reachedMax_iff card n hn]
  unfold tries at e
  cases hm : maximum card with
  | none => rw [hm] at e; simp at e
  | some m =>
    rw [hm] at e
    simp at e
    exact ⟨m, rfl, by omega⟩

theorem tries_zero (card : Card) : (tries card).map (· - 0) ≠ some 0 := by
  unfold tries
  cases maximum card with
  | none => simp
  | some m => simp

theorem tries_step {o : Option Nat} {n k : Nat} (h : o.map (· - n) ≠ some 0) : o.map (· - n) = some (k + 1) ↔ o.map (· - (n + 1)) = some k := by
  cases o with
  | none => simp
  | some m =>
    simp at h ⊢
    omega

theorem repeats_tail {R : Reader} {card : Card} {n : Nat} {s w : Str} {ws : List Str} (h : (tries card).map (· - n) ≠ some 0)
    (hw : R s (some w)) (hr : Repeats R ((tries card).map (· - (n + 1))) (s.drop w.length) ws) :
    Repeats R ((tries card).map (· - n)) s (w :: ws) :=
  .more h hw (by rw [limit_succ]; exact hr)

/-- What the loop over a rule finds: the words which are read, and for a constant possibly further copies which are not at their place. -/
structure LoopReads (rule : Rule) (card : Card) (a : Nat) (rem : Str) (new : List RuleResult) (ws : List Str) (st' : St) : Prop where
  repeats : Repeats (RuleReads rule) ((tries card).map (· - a)) rem ws
  cases : (new.map RuleResult.content = ws ∧ (∀ x ∈ new, AtFront x) ∧ ∀ c, rule.content = .constant c → c ≠ [] →
      (tries card).map (· - a) = some ws.length ∨ ¬ c <:+: rem.drop ws.flatten.length) ∨
    ∃ c front x xs, rule.content = .constant c ∧ c ≠ [] ∧ c <:+: rem.drop ws.flatten.length ∧ ¬ c <+: rem.drop ws.flatten.length ∧
      (tries card).map (· - a) ≠ some ws.length ∧ st'.canPrefix = false ∧ new = front ++ x :: xs ∧ front.map RuleResult.content = ws ∧
      (∀ y ∈ front, AtFront y) ∧ ¬ AtFront x ∧ ∀ y ∈ x :: xs, y.content = c

theorem LoopReads.cons {rule : Rule} {card : Card} {a : Nat} {rem : Str} {new : List RuleResult} {ws : List Str} {st' : St} {res : RuleResult}
    (h : (tries card).map (· - a) ≠ some 0) (hr : RuleReads rule rem (some res.content)) (hf : AtFront res)
    (hl : LoopReads rule card (a + 1) (rem.drop res.content.length) new ws st') :
    LoopReads rule card a rem (res :: new) (res.content :: ws) st' := by
  have hd : (rem.drop res.content.length).drop ws.flatten.length = rem.drop (res.content :: ws).flatten.length := by simp
  refine ⟨repeats_tail h hr hl.repeats, ?_⟩
  rcases hl.cases with ⟨h1, h2, h3⟩ | ⟨c, front, x, xs, h1, h2, h3, h4, h5, h6, h7, h8, h9, h10, h11⟩
  · left
    refine ⟨by simp [h1], ?_, ?_⟩
    · intro x hx
      rcases List.mem_cons.mp hx with rfl | hx
      · exact hf
      · exact h2 x hx
    · intro c hc h0
      rcases h3 c hc h0 with h3 | h3
      · exact .inl ((tries_step h).mpr h3)
      · exact .inr (by rw [← hd]; exact h3)
  · right
    refine ⟨c, res :: front, x, xs, h1, h2, by rw [← hd]; exact h3, by rw [← hd]; exact h4, ?_, h6, by simp [h7], by simp [h8], ?_, h10, h11⟩
    · intro e
      exact h5 ((tries_step h).mp e)
    · intro y hy
      rcases List.mem_cons.mp hy with rfl | hy
      · exact hf
      · exact h9 y hy

theorem LoopReads.none {rule : Rule} {card : Card} {a : Nat} {rem : Str} {st' : St} (h : RuleReads rule rem none)
    (hc : ∀ c, rule.content = .constant c → c ≠ [] → ¬ c <:+: rem) : LoopReads rule card a rem [] [] st' :=
  ⟨.stop h, .inl ⟨rfl, by simp, fun c h1 h2 => .inr (by simpa using hc c h1 h2)⟩⟩

theorem infix_nil_ne {c : Str} (h : c ≠ []) : ¬ c <:+: [] := by
  intro h'
  exact h (by simpa using h')

theorem LoopReads.last {rule : Rule} {card : Card} {a : Nat} {st' : St} (hw : RuleWF rule) : LoopReads rule card a [] [] [] st' :=
  .none (ruleReads_empty hw) (fun _ _ h => infix_nil_ne h)

theorem LoopReads.full {rule : Rule} {card : Card} {a : Nat} {rem : Str} {st' : St} (h : (tries card).map (· - a) = some 0) :
    LoopReads rule card a rem [] [] st' :=
  ⟨by rw [h]; exact .full, .inl ⟨rfl, by simp, fun _ _ _ => .inl (by simpa using h)⟩⟩

/-- One result of a rule. -/
theorem toResult_cases {rule : Rule} (hw : RuleWF rule) (rem : Str) : ∃ res, toResult rule rem = .ok res ∧
    ((res.results = none ∧ RuleReads rule rem none ∧ ∀ c, rule.content = .constant c → c ≠ [] → ¬ c <:+: rem) ∨
     (∃ m ms, res.results = some (m :: ms) ∧ m.index = .ok 0 ∧ RuleReads rule rem (some res.content)) ∨
     ∃ c m i, rule.content = .constant c ∧ c ≠ [] ∧ res.content = c ∧ res.results = some [m] ∧ m.index = .ok (i + 1) ∧ RuleReads rule rem none ∧
       c <:+: rem ∧ ¬ c <+: rem) := by
  cases hc : rule.content with
  | constant c =>
    by_cases h0 : c = []
    · subst h0
      refine ⟨⟨rule, none⟩, C37_empty_rule rule hc rem, .inl ⟨rfl, ?_, ?_⟩⟩
      · unfold RuleReads; rw [hc]; exact .inr ⟨by simp, rfl⟩
      · intro c hc' h0
        exact absurd (by simpa using hc'.symm) h0
    · by_cases hp : c <+: rem
      · obtain ⟨x, h1, h2, h3, _⟩ := toResult_front hc h0 hp
        refine ⟨_, h1, .inr (.inl ⟨x, [], rfl, h3, ?_⟩)⟩
        unfold RuleReads; rw [hc]
        exact .inl ⟨h0, hp, by simp [RuleResult.content, h2]⟩
      · have hn : RuleReads rule rem none := by
          unfold RuleReads; rw [hc]; exact .inr ⟨fun h => hp h.2, rfl⟩
        by_cases hi : c <:+: rem
        · obtain ⟨x, i, h1, h2, h3, _⟩ := toResult_behind hc h0 hp hi
          exact ⟨_, h1, .inr (.inr ⟨c, x, i, rfl, h0, by simp [RuleResult.content, h2], rfl, h3, hn, hi, hp⟩)⟩
        · refine ⟨_, toResult_absent hc h0 hi, .inl ⟨rfl, hn, ?_⟩⟩
          intro c' hc' _
          simp at hc'
          subst hc'
          exact hi
  | pattern ps card =>
    obtain ⟨res, h1, h2⟩ := toResult_reads hc hw rem
    refine ⟨res, h1, ?_⟩
    rcases h2 with ⟨h2, h3⟩ | h2
    · exact .inl ⟨h2, h3, by intro c hc'; simp at hc'⟩
    · exact .inr (.inl h2)

theorem repeats_prefix {R : Reader} (hR : ∀ s w, R s (some w) → w <+: s) {lim : Option Nat} {s : Str} {ws : List Str} (h : Repeats R lim s ws) :
    ws.flatten <+: s := by
  induction h with
  | full => simp
  | stop _ => simp
  | @more lim s w ws _ hw _ ih =>
    obtain ⟨t, rfl⟩ := hR _ _ hw
    rw [List.drop_left] at ih
    simpa using ih

theorem patternReads_prefix {ps : List Pattern} {s w : Str} (h : PatternReads ps s (some w)) : w <+: s := by
  obtain ⟨_, _, _, ts, _, _, h1, _, rfl⟩ := h
  exact (SpecLeading_prefix h1).1

theorem ruleReads_prefix {r : Rule} {s w : Str} (h : RuleReads r s (some w)) : w <+: s := by
  unfold RuleReads at h
  split at h
  · rcases h with ⟨_, h, e⟩ | ⟨_, e⟩
    · simp at e; subst e; exact h
    · simp at e
  · obtain ⟨ws, h1, h2⟩ := h
    split at h2
    · simp at h2
    · simp at h2
      subst h2
      exact repeats_prefix (fun _ _ => patternReads_prefix) h1

theorem patternReads_ne {ps : List Pattern} {s w : Str} (h : PatternReads ps s (some w)) : w ≠ [] := by
  obtain ⟨_, _, _, ts, _, _, h5, h6, rfl⟩ := h
  intro e
  have h8 := leading_nonempty h5
  cases ts with
  | nil => exact h6 rfl
  | cons t ts =>
    simp at e
    exact h8 t (by simp) e.1

theorem repeats_ne {R : Reader} (hR : ∀ s w, R s (some w) → w ≠ []) {lim : Option Nat} {s : Str} {ws : List Str} (h : Repeats R lim s ws) :
    ∀ w ∈ ws, w ≠ [] := by
  induction h with
  | full => simp
  | stop _ => simp
  | @more lim s w ws _ hw _ ih =>
    intro x hx
    rcases List.mem_cons.mp hx with rfl | hx
    · exact hR _ _ hw
    · exact ih x hx

theorem ruleReads_ne {r : Rule} {s w : Str} (h : RuleReads r s (some w)) : w ≠ [] := by
  unfold RuleReads at h
  split at h
  · rcases h with ⟨h, _, e⟩ | ⟨_, e⟩
    · simp at e; subst e; exact h
    · simp at e
  · obtain ⟨ws, h1, h2⟩ := h
    split at h2
    · simp at h2
    · rename_i hne
      simp at h2
      subst h2
      have := repeats_ne (fun _ _ => patternReads_ne) h1
      cases ws with
      | nil => exact absurd rfl hne
      | cons x xs =>
        intro e
        simp at e
        exact this x (by simp) e.1

theorem ruleLoop_reads {rule : Rule} (hw : RuleWF rule) (card : Card) (cp : Bool) (len : Nat) (hlen : len < 2 ^ 63) (n : Nat) :
    ∀ rem acc st l st', ruleLoop rule card cp len n rem acc st = some (.ok l, st') → acc.length + rem.length ≤ len →
      (tries card).map (· - acc.length) ≠ some 0 →
      ∃ new ws, l = acc ++ new ∧ LoopReads rule card acc.length rem new ws st' := by
  induction n with
  | zero => intro rem acc st l st' h; simp [ruleLoop] at h
  | succ n ih =>
    intro rem acc st l st' h hal hnz
    unfold ruleLoop at h
    obtain ⟨res, hres, hcases⟩ := toResult_cases hw rem
    rw [hres] at h
    dsimp only at h
    rcases hcases with ⟨h1, h2, h3⟩ | ⟨m, ms, h1, h2, h3⟩ | ⟨c, m, i, h1, h2, h3, h4, h5, h6, h7, h8⟩
    · rw [h1] at h
      simp at h
      obtain ⟨rfl, rfl⟩ := h
      exact ⟨[], [], by simp, .none h2 h3⟩
    · have hf : AtFront res := ⟨m, ms, h1, h2⟩
      have hp := ruleReads_prefix h3
      have hne := ruleReads_ne h3
      have hpos : 0 < res.content.length := List.length_pos_iff.mpr hne
      rw [h1] at h
      dsimp only at h
      obtain ⟨i, s1, hi, h⟩ := M.bind_ok.mp h
      rw [h2] at hi
      simp at hi
      obtain ⟨rfl, rfl⟩ := hi
      obtain ⟨_, s2, hs2, h⟩ := M.bind_ok.mp h
      simp only [gt_iff_lt, lt_irrefl, decide_false, Bool.false_and, Bool.false_eq_true, if_false] at h
      by_cases hl : len ≤ res.content.length
      · rw [if_pos hl] at h
        simp at h
        obtain ⟨rfl, rfl⟩ := h
        refine ⟨[res], [res.content], rfl, .cons hnz h3 hf ?_⟩
        have : rem.drop res.content.length = [] := by
          apply List.drop_eq_nil_of_le
          omega
        rw [this]
        exact .last hw
      rw [if_neg hl] at h
      have hle : ¬ rem.length < res.content.length := not_lt.mpr hp.length_le
      rw [if_neg hle] at h
      have hn : acc.length + 1 < 2 ^ 64 := by omega
      by_cases hr : reachedMax card (acc.length + 1) = true
      · rw [if_pos hr] at h
        simp at h
        obtain ⟨rfl, rfl⟩ := h
        exact ⟨[res], [res.content], rfl, .cons hnz h3 hf (.full (tries_full hn hr (by omega)))⟩
      rw [if_neg hr] at h
      obtain ⟨new, ws, rfl, h4⟩ := ih _ _ _ _ _ h (by simp; omega) (by simpa using tries_more hn hr)
      refine ⟨res :: new, res.content :: ws, by simp, .cons hnz h3 hf (by simpa using h4)⟩
    · rw [h4] at h
      dsimp only at h
      obtain ⟨j, s1, hi, h⟩ := M.bind_ok.mp h
      rw [h5] at hi
      simp at hi
      obtain ⟨rfl, rfl⟩ := hi
      obtain ⟨_, s2, hs2, h⟩ := M.bind_ok.mp h
      have hcp : s2.canPrefix = false := by
        unfold notePrefix at hs2
        simp at hs2
        rw [← hs2]
      have hnf : ¬ AtFront res := by
        rintro ⟨m', ms', e1, e2⟩
        rw [h4] at e1
        simp at e1
        obtain ⟨rfl, _⟩ := e1
        rw [h5] at e2
        simp at e2
      have key : ∀ xs, (∀ y ∈ xs, RuleResult.content y = c) → st'.canPrefix = false → l = acc ++ res :: xs →
          ∃ new ws, l = acc ++ new ∧ LoopReads rule card acc.length rem new ws st' := by
        intro xs hxs hst hl
        refine ⟨res :: xs, [], hl, .stop h6, .inr ⟨c, [], res, xs, h1, h2, by simpa using h7, by simpa using h8, by simpa using hnz, hst, rfl,
          rfl, by simp, hnf, ?_⟩⟩
        intro y hy
        rcases List.mem_cons.mp hy with rfl | hy
        · exact h3
        · exact hxs y hy
      have stop : some (Out.ok (acc ++ [res]), s2) = some (Out.ok l, st') →
          ∃ new ws, l = acc ++ new ∧ LoopReads rule card acc.length rem new ws st' := by
        intro e
        simp at e
        obtain ⟨rfl, rfl⟩ := e
        exact key [] (by simp) hcp rfl
      split at h
      · exact stop (by simpa using h)
      split at h
      · exact stop (by simpa using h)
      split at h
      · simp at h
      split at h
      · exact stop (by simpa using h)
      rename_i hr
      have hn : acc.length + 1 < 2 ^ 64 := by omega
      have hb := tries_below (tries_more hn hr)
      obtain ⟨_, new, rfl, h9⟩ := ruleLoop_text rule card cp len n _ _ _ _ _ h (by simpa using hb)
      refine key new ?_ ?_ (by simp)
      · intro y hy
        have := (h9 hw).results y hy
        unfold RuleText at this
        rw [h1] at this
        exact this.1
      · exact (ruleLoop_keeps (A := fun _ => True) rule card cp len n _ _ _ _ _ hcp h).1

end Verif.Lexer
