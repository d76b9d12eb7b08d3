import Verif.Lemmas.LexerReadLoop
import Verif.Props.Cardinality

/-! What the match of a rule reads. -/

namespace Verif.Lexer
open Verif.Patterns Verif.Cardinality

open Classical in
/-- What a line takes from a match: its text, if it is valid and at the beginning. -/
noncomputable def matchOut (m : Match) (s : Str) : Option Str := if m.isValid = true ∧ m.discoveries <+: s then some m.discoveries else none

theorem isValid_nat {card : Card} {n : Nat} (hn : n < 2 ^ 64) : card.isValid (UInt64.ofNat n) = true ↔ SpecAllows card n := by
  rw [C30_isValid_iff, UInt64.toNat_ofNat_of_lt' (by simpa [UInt64.size] using hn)]

theorem isValid_zero {card : Card} : card.isValid 0 = true ↔ SpecAllows card 0 := by
  rw [C30_isValid_iff]; rfl

theorem allows_above {card : Card} {n : Nat} (h0 : SpecAllows card 0) (hm : AtMost card n) (hn : 0 < n) (hx : ∀ m, maximum card = some m → 1 ≤ m) :
    SpecAllows card n := by
  rcases card with _ | _ | _ | _ | (k | ⟨min, _ | max⟩)
  · have := hm 1 rfl
    simp at this
    simp [SpecAllows]
    omega
  · simp [SpecAllows] at h0
  · simp [SpecAllows] at h0
  · simp [SpecAllows]
  · have h1 := hx k.toNat rfl
    simp [SpecAllows] at h0
    simp [← h0] at h1
  · simp [SpecAllows] at h0 ⊢
    omega
  · have h1 := hx max.toNat rfl
    have := hm max rfl
    simp [SpecAllows] at h0 ⊢
    omega

theorem exact_front {r : RuleMatch} {x : RuleResult} {xs : List RuleResult} (h : r.results = x :: xs) (hf : AtFront x) : r.isExact = true := by
  obtain ⟨m, ms, h1, h2⟩ := hf
  unfold RuleMatch.isExact
  rw [h]
  dsimp only
  split
  · rfl
  rw [h1]
  dsimp only
  unfold Result.index at h2
  cases hd : m.discoveries with
  | nil => rw [hd] at h2; simp at h2
  | cons d ds => rw [hd] at h2; simpa using h2

theorem exact_behind {r : RuleMatch} {x : RuleResult} {xs : List RuleResult} (h : r.results = x :: xs) (hf : ¬ AtFront x) (hc : r.canHavePrefix = false) :
    r.isExact = false := by
  unfold RuleMatch.isExact
  rw [h, hc]
  dsimp only
  cases hx : x.results with
  | none => simp
  | some l =>
    cases l with
    | nil => simp
    | cons m ms =>
      cases hd : m.discoveries with
      | nil => simp [hd]
      | cons d ds =>
        simp only [Bool.false_eq_true, if_false, hd, decide_eq_false_iff_not]
        intro h0
        exact hf ⟨m, ms, hx, by simp [Result.index, hd, h0]⟩

theorem flatten_length_ge {ws : List Str} (h : ∀ w ∈ ws, w ≠ []) : ws.length ≤ ws.flatten.length := by
  induction ws with
  | nil => simp
  | cons w ws ih =>
    have := ih (fun x hx => h x (by simp [hx]))
    have h1 : 0 < w.length := List.length_pos_iff.mpr (h w (by simp))
    simp only [List.length_cons, List.flatten_cons, List.length_append]
    omega

theorem tries_sub_zero (card : Card) : (tries card).map (· - 0) = tries card := by
  cases tries card <;> rfl

theorem wrapRule_valid {r : RuleMatch} (h : r.isValid = true) : wrapRule r = .rule r := by simp [wrapRule, h]

theorem repeats_limit {R : Reader} {lim : Option Nat} {s : Str} {ws : List Str} (h : Repeats R lim s ws) : ∀ {k}, lim = some k → ws.length ≤ k := by
  induction h with
  | full => simp
  | stop _ => simp
  | @more lim s w ws hl _ _ ih =>
    rintro k rfl
    have := ih (k := k - 1) rfl
    have : k ≠ 0 := by rintro rfl; exact hl rfl
    simp
    omega

theorem ruleLoop_count {rule : Rule} (hw : RuleWF rule) (card : Card) (cp : Bool) (len : Nat) (n : Nat) :
    ∀ rem acc st l st', ruleLoop rule card cp len n rem acc st = some (.ok l, st') → l.length ≤ acc.length + rem.length := by
  induction n with
  | zero => intro rem acc st l st' h; simp [ruleLoop] at h
  | succ n ih =>
    intro rem acc st l st' h
    unfold ruleLoop at h
    obtain ⟨res, hres, hcases⟩ := toResult_cases hw rem
    rw [hres] at h
    dsimp only at h
    have key : ∀ m ms, res.results = some (m :: ms) → 0 < res.content.length ∧ 0 < rem.length → l.length ≤ acc.length + rem.length := by
      intro m ms hm hpos
      rw [hm] at h
      dsimp only at h
      obtain ⟨i, s1, hi, h⟩ := M.bind_ok.mp h
      obtain ⟨_, s2, hs2, h⟩ := M.bind_ok.mp h
      have hone : ∀ {x : St}, (pure (acc ++ [res]) : M _) x = some (.ok l, st') → l.length ≤ acc.length + rem.length := by
        intro x hx
        simp at hx
        obtain ⟨rfl, _⟩ := hx
        simp
        omega
      split at h
      · exact hone h
      split at h
      · exact hone h
      split at h
      · simp at h
      split at h
      · exact hone h
      have := ih _ _ _ _ _ h
      simp at this
      omega
    rcases hcases with ⟨h1, _⟩ | ⟨m, ms, h1, h2, h3⟩ | ⟨c, m, i, h1, h2, h3, h4, h5, h6, h7, h8⟩
    · rw [h1] at h
      simp at h
      obtain ⟨rfl, rfl⟩ := h
      omega
    · have h4 : 0 < res.content.length := List.length_pos_iff.mpr (ruleReads_ne h3)
      exact key m ms h1 ⟨h4, lt_of_lt_of_le h4 (ruleReads_prefix h3).length_le⟩
    · have h9 : 0 < res.content.length := by rw [h3]; exact List.length_pos_iff.mpr h2
      exact key m [] h4 ⟨h9, lt_of_lt_of_le h9 (by rw [h3]; exact h7.length_le)⟩

/-- A repeated rule, in the matcher. -/
theorem rule_reads {r : Rule} (hw : RuleWF r) {card : Card} {s : Str} (hlen : s.length < 2 ^ 63) {n : Nat} {ch : Bool} {st st' : St} {m : RuleMatch}
    (h : ruleToRuleMatch n r card s ch st = some (.ok m, st')) : RuleRepeated r card s (matchOut (wrapRule m) s) := by
  unfold ruleToRuleMatch at h
  rw [M.bind_some_ok (M.get_run _)] at h
  obtain ⟨l, s1, hl, h⟩ := M.bind_ok.mp h
  rw [M.bind_some_ok (M.get_run _)] at h
  simp at h
  obtain ⟨rfl, rfl⟩ := h
  have hatm := (ruleLoop_text _ _ _ _ _ _ _ _ _ _ hl (fun _ _ => .inl rfl)).1
  obtain ⟨new, ws, h1, h2, h3⟩ := ruleLoop_reads hw card _ _ hlen _ _ _ _ _ _ hl (by simp) (by simpa using tries_zero card)
  simp only [List.nil_append] at h1
  subst h1
  rw [List.length_nil, tries_sub_zero] at h2
  simp only [List.length_nil, tries_sub_zero] at h3
  have hpre := repeats_prefix (fun _ _ => ruleReads_prefix) h2
  have hwl : ws.length < 2 ^ 63 := by
    have h4 := flatten_length_ge (repeats_ne (fun _ _ => ruleReads_ne) h2)
    have h5 := hpre.length_le
    omega
  refine ⟨ws, h2, ?_⟩
  rcases h3 with ⟨h3, h4, h5⟩ | ⟨c, front, x, xs, h4, h5, h6, h7, h8, h9, h10, h11, h12, h13, h14⟩
  · right
    refine ⟨?_, ?_⟩
    · rintro ⟨c, a1, a2, a3, a4, a5⟩
      rcases h5 c a1 a2 with h5 | h5
      · exact a4 h5
      · exact h5 a5
    · have hcount : l.length = ws.length := by rw [← h3]; simp
      have hdisc : RuleMatch.discoveries ⟨r, card, l, s1.canPrefix && ch⟩ = ws.flatten := by simp [RuleMatch.discoveries, h3]
      have hv : RuleMatch.isValid ⟨r, card, l, s1.canPrefix && ch⟩ = true ↔ SpecAllows card ws.length := by
        unfold RuleMatch.isValid RuleMatch.amount
        simp only [Bool.and_eq_true, hcount]
        rw [isValid_nat (by omega)]
        refine ⟨fun h => h.1, fun hA' => ⟨hA', ?_⟩⟩
        cases l with
        | nil =>
          simp at hcount
          rw [← hcount] at hA'
          unfold RuleMatch.isExact
          simp only
          exact isValid_zero.mpr hA'
        | cons x xs => exact exact_front rfl (h4 x (by simp))
      by_cases hA : SpecAllows card ws.length
      · left
        refine ⟨hA, ?_⟩
        rw [wrapRule_valid (hv.mpr hA)]
        unfold matchOut
        rw [if_pos]
        · simp [Match.discoveries, hdisc]
        · refine ⟨by simpa [Match.isValid] using hv.mpr hA, by simpa [Match.discoveries, hdisc] using hpre⟩
      · have hnv : RuleMatch.isValid ⟨r, card, l, s1.canPrefix && ch⟩ = false := by
          rw [← Bool.not_eq_true, hv]; exact hA
        right
        by_cases h0 : SpecAllows card 0
        · left
          refine ⟨hA, h0, ?_⟩
          have : card.isValid 0 = true := isValid_zero.mpr h0
          simp [wrapRule, hnv, this, matchOut, Match.isValid, Match.discoveries]
        · right
          refine ⟨hA, h0, ?_⟩
          have : ¬ card.isValid 0 = true := fun h => h0 (isValid_zero.mp h)
          simp [wrapRule, this, matchOut, Match.isValid, hnv]
  · subst h10
    cases front with
    | nil =>
      simp at h11
      subst h11
      right
      refine ⟨by rintro ⟨_, _, _, h, _⟩; exact h rfl, ?_⟩
      have hnv : RuleMatch.isValid ⟨r, card, [] ++ x :: xs, s1.canPrefix && ch⟩ = false := by
        unfold RuleMatch.isValid
        rw [exact_behind (x := x) (xs := xs) rfl h13 (by simp [h9])]
        simp
      by_cases h0 : SpecAllows card 0
      · left
        refine ⟨h0, ?_⟩
        have : card.isValid 0 = true := isValid_zero.mpr h0
        simp only [wrapRule, hnv, this, matchOut]
        simp [Match.isValid, Match.discoveries]
      · right; right
        refine ⟨h0, h0, ?_⟩
        have : ¬ card.isValid 0 = true := fun h => h0 (isValid_zero.mp h)
        simp only [wrapRule, hnv, this, matchOut]
        simp [Match.isValid]
        simp [List.nil_append] at hnv
        simp [hnv]
    | cons y ys =>
      left
      have hwne : ws ≠ [] := by
        intro e
        rw [e] at h11
        simp at h11
      refine ⟨⟨c, h4, h5, hwne, h8, h6⟩, ?_⟩
      have hex : RuleMatch.isExact ⟨r, card, (y :: ys) ++ x :: xs, s1.canPrefix && ch⟩ = true :=
        exact_front (x := y) (xs := ys ++ x :: xs) rfl (h12 y (by simp))
      have hnp : ¬ RuleMatch.discoveries ⟨r, card, (y :: ys) ++ x :: xs, s1.canPrefix && ch⟩ <+: s := by
        intro hp
        apply h7
        have : RuleMatch.discoveries ⟨r, card, (y :: ys) ++ x :: xs, s1.canPrefix && ch⟩ = ws.flatten ++ (c ++ (xs.map RuleResult.content).flatten) := by
          simp only [RuleMatch.discoveries, List.map_append, h11, List.flatten_append, List.map_cons, List.flatten_cons, h14 x (by simp)]
        rw [this] at hp
        obtain ⟨t, ht⟩ := hp
        refine ⟨(xs.map RuleResult.content).flatten ++ t, ?_⟩
        rw [← ht]
        simp only [List.append_assoc, List.drop_left]
      by_cases hv : RuleMatch.isValid ⟨r, card, (y :: ys) ++ x :: xs, s1.canPrefix && ch⟩ = true
      · rw [wrapRule_valid hv]
        unfold matchOut
        rw [if_neg]
        rintro ⟨_, h⟩
        exact hnp h
      · have hn0 : ¬ card.isValid 0 = true := by
          intro h0
          apply hv
          unfold RuleMatch.isValid RuleMatch.amount
          simp only [Bool.and_eq_true]
          refine ⟨?_, hex⟩
          have h0' := isValid_zero.mp h0
          have hcnt := ruleLoop_count hw _ _ _ _ _ _ _ _ _ hl
          simp only [List.length_nil, Nat.zero_add] at hcnt
          rw [isValid_nat (by omega)]
          refine allows_above h0' hatm (by simp) ?_
          intro k hk
          by_contra hk0
          have hk0 : k = 0 := by omega
          subst hk0
          have ht : tries card = some 1 := by simp [tries, hk]
          have hle := repeats_limit h2 ht
          have hpos : 0 < ws.length := List.length_pos_iff.mpr hwne
          exact h8 (by rw [ht]; congr 1; omega)
        simp only [wrapRule, hn0, matchOut]
        simp only [Bool.false_and, Bool.false_eq_true, if_false, Match.isValid]
        rw [if_neg]
        rintro ⟨h, _⟩
        exact hv h

end Verif.Lexer
