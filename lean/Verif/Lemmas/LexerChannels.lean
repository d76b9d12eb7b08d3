import Verif.Spec.LexerChannels
import Verif.Lemmas.LexerDiverge
import Verif.Lemmas.LexerLost

namespace Verif.Lexer
open Verif.Patterns Verif.Cardinality

/-! ## Tokens from lines -/

theorem token_of_runs {env fuel deps s ch ls st ms st'} (h : LineRuns env fuel deps s ch ls st ms st') {name : Str}
    (hname : name ≠ []) : ∃ x, elementToToken env (fuel + 3) (.mk name ls []) deps s ch st =
      some (.ok (.mk name (x.map (fun l => .mk l none))), st') ∧ BestSpec ms x := by
  obtain ⟨x, hx, hsp⟩ := bestLine_of_runs h
  refine ⟨x, ?_, hsp⟩
  simp only [elementToToken, elementToTokenContent, Element.must, Element.not, Element.name, hname, if_false]
  rw [M.bind_some_ok (a := x.map (fun l => .mk l none)) (s1 := st')]
  · rfl
  · rw [M.bind_some_ok hx]
    cases x <;> simp

theorem best_single {l : List BlockMatch} {x : Option LineMatch} (h : BestSpec [some l] x)
    (hne : blocksValid l = true → blocksDiscoveries l ≠ []) : x = some (.mk 0 l) := by
  have hi : ∀ {i : Nat} {l'}, [some l][i]? = some (some l') → i = 0 ∧ l' = l := by
    intro i l' h
    cases i with
    | zero => simp at h; exact ⟨rfl, h.symm⟩
    | succ i => simp at h
  cases h with
  | good h _ _ => obtain ⟨rfl, rfl⟩ := hi h.1; rfl
  | bad _ h _ => obtain ⟨rfl, rfl⟩ := hi h.1; rfl
  | nothing h1 h2 =>
    cases hv : blocksValid l with
    | true => exact absurd ⟨rfl, hv, hne hv⟩ (h1 0 l)
    | false => exact absurd ⟨rfl, hv⟩ (h2 0 l)

/-- A token with one line. -/
theorem token_single {env : Env} {n : Nat} {line : Line} {deps : List Element} {s : Str} {ch : Bool} {st st' : St}
    {l : List BlockMatch} (h : lineToMatches env n line deps s ch st = some (.ok (some l), st'))
    (hne : blocksValid l = true → blocksDiscoveries l ≠ []) {name : Str} (hname : name ≠ []) :
    elementToToken env (n + 3) (.mk name [line] []) deps s ch st = some (.ok (.mk name (some (.mk (.mk 0 l) none))), st') := by
  obtain ⟨x, hx, hsp⟩ := token_of_runs (LineRuns.cons h (.nil _)) hname
  rw [best_single hsp hne] at hx
  exact hx

/-! ## Copies in front -/

theorem leading (z : Str) (hz : z ≠ []) : ∀ (n : Nat) (s : Str), s.length ≤ n → ∃ k u, s = copies z k ++ u ∧ ¬ z <+: u := by
  have hz1 : 0 < z.length := List.length_pos_iff.mpr hz
  intro n
  induction n with
  | zero =>
    intro s hs
    have : s = [] := List.length_eq_zero_iff.mp (by omega)
    subst this
    exact ⟨0, [], rfl, by simpa using hz⟩
  | succ n ih =>
    intro s hs
    by_cases h : z <+: s
    · obtain ⟨v, rfl⟩ := h
      obtain ⟨k, u, rfl, hu⟩ := ih v (by simp at hs; omega)
      exact ⟨k + 1, u, by rw [copies_succ]; simp, hu⟩
    · exact ⟨0, s, rfl, h⟩

theorem leading_unique {z : Str} : ∀ {k k' : Nat} {u u' : Str}, copies z k ++ u = copies z k' ++ u' → ¬ z <+: u → ¬ z <+: u' →
    k = k' ∧ u = u' := by
  intro k
  induction k with
  | zero =>
    intro k' u u' h h1 h2
    cases k' with
    | zero => exact ⟨rfl, by simpa [copies] using h⟩
    | succ k' =>
      rw [copies_succ] at h
      exact absurd ⟨_, by simpa [copies] using h.symm⟩ h1
  | succ k ih =>
    intro k' u u' h h1 h2
    cases k' with
    | zero =>
      rw [copies_succ] at h
      exact absurd ⟨_, by simpa [copies] using h⟩ h2
    | succ k' =>
      rw [copies_succ, copies_succ] at h
      simp only [List.append_assoc, List.append_cancel_left_eq] at h
      obtain ⟨rfl, rfl⟩ := ih h h1 h2
      exact ⟨rfl, rfl⟩

/-! ## Channels off -/

theorem block_off {env : Env} {r : Rule} {c : Str} (hc : r.content = .constant c)
    (h0 : c ≠ []) (n : Nat) (deps : List Element) (s : Str) (nx : Bool) (st : St) :
    ∃ b st', containerToBlockMatch env (n + 3) (.rule r .mandatory) deps s false nx st = some (.ok (some b), st') ∧
      (b.isValid = true ↔ c <+: s) ∧ (b.isValid = true → b.discoveries = c) := by
  obtain ⟨b, st', h1, _, h2, h3⟩ := block_mandatory (env := ⟨env.root, fun _ => []⟩) (by simp) hc h0 n deps s false nx st
  refine ⟨b, st', ?_, h2, h3⟩
  rw [← h1]
  simp only [containerToBlockMatch, Bool.false_eq_true, if_false, containerToMatch]

/-- A channel of one constant. -/
def constChannel (zn : Str) (rz : Rule) (zd : List Element) : Path := ⟨.mk zn [mandatoryLine [rz]] [], zd⟩

theorem channel_const {env : Env} {zn : Str} (hzn : zn ≠ []) {rz : Rule} {z : Str} (hz : rz.content = .constant z)
    (hz0 : z ≠ []) (n : Nat) (deps : List Element) (s : Str) (st : St) :
    ∃ t st', elementToToken env (n + 7) (.mk zn [mandatoryLine [rz]] []) deps s false st = some (.ok t, st') ∧
      (t.isValid = true ↔ z <+: s) ∧ (t.isValid = true → ∃ c, t.content = some c ∧ c.must.discoveries = z ∧ c.must.isValid = true) := by
  obtain ⟨b, st', h1, h2, h3⟩ := block_off (env := env) hz hz0 n deps s false st
  have hline : ∃ l, lineToMatches env (n + 4) (mandatoryLine [rz]) deps s false st = some (.ok (some l), st') ∧
      (blocksValid l = true ↔ z <+: s) ∧ (blocksValid l = true → blocksDiscoveries l = z) := by
    simp only [lineToMatches, mandatoryLine, List.map_cons, List.map_nil, lineLoop]
    rw [M.bind_some_ok h1]
    refine ⟨[b], ?_, by simpa [blocksValid] using h2, by simpa [blocksValid, blocksDiscoveries] using h3⟩
    cases hb : b.isValid with
    | false => simp only [hb, Bool.not_false, if_true]; rfl
    | true =>
      have hp := h2.mp hb
      have : z.isPrefixOf s = true := isPrefixOf_iff.mpr hp
      simp only [hb, h3 hb, this, Bool.not_true, Bool.false_eq_true, if_false]
      rfl
  obtain ⟨l, h4, h5, h6⟩ := hline
  have hx := token_single h4 (fun hv => by rw [h6 hv]; exact hz0) hzn
  refine ⟨_, _, hx, ?_, ?_⟩
  · simpa [Token.isValid, TokenContent.isValid, LineMatch.isValid] using h5
  · intro hv
    have hv' : blocksValid l = true := by simpa [Token.isValid, TokenContent.isValid, LineMatch.isValid] using hv
    exact ⟨_, rfl, by simp [TokenContent.must, LineMatch.discoveries, hv', h6], by simp [TokenContent.must, LineMatch.isValid, hv']⟩

/-! ## Channels on -/

/-- The number of the copies of the channel text which are skipped. -/
def skipped (ch nx : Bool) (k : Nat) : Nat := if ch then (if nx then k else min k 1) else 0

theorem block_channels {env : Env} {zn : Str} (hzn : zn ≠ []) {rz : Rule} {z : Str} (hz : rz.content = .constant z)
    (hz0 : z ≠ []) {zd : List Element} (hch : ∀ k, env.channels k = [constChannel zn rz zd]) {r : Rule} {c : Str}
    (hc : r.content = .constant c) (h0 : c ≠ []) (deps : List Element) (u : Str) (hu : ¬ z <+: u) (nx : Bool) :
    ∀ (k : Nat) (n : Nat) (ch : Bool) (st : St), 2 * k + 9 ≤ n →
    ∃ b st', containerToBlockMatch env n (.rule r .mandatory) deps (copies z k ++ u) ch nx st = some (.ok (some b), st') ∧
      (b.isValid = true ↔ c <+: copies z (k - skipped ch nx k) ++ u) ∧
      (b.isValid = true → b.discoveries = copies z (skipped ch nx k) ++ c) := by
  intro k
  induction k with
  | zero =>
    intro n ch st hn
    obtain ⟨n, rfl⟩ : ∃ m, n = m + 9 := ⟨n - 9, by omega⟩
    have hsk : skipped ch nx 0 = 0 := by unfold skipped; split <;> simp
    simp only [hsk]
    cases ch with
    | false =>
      obtain ⟨b, st', h1, h2, h3⟩ := block_off (env := env) hc h0 (n + 6) deps u nx st
      exact ⟨b, st', by simpa [copies] using h1, by simpa [copies] using h2, by simpa [copies] using h3⟩
    | true =>
      by_cases hs : u = []
      · subst hs
        obtain ⟨b, st', h1, h2, h3⟩ := block_off (env := env) hc h0 (n + 6) deps [] nx st
        refine ⟨b, st', ?_, by simpa [copies] using h2, by simpa [copies] using h3⟩
        rw [← h1]
        simp only [containerToBlockMatch, copies, List.replicate_zero, List.flatten_nil, List.append_nil, if_true]
      · obtain ⟨t, st1, k1, k2, _⟩ := channel_const (env := env) hzn hz hz0 n zd u { st with ranges := st.ranges + 1 }
        have hv : t.isValid = false := by
          cases hv : t.isValid with
          | false => rfl
          | true => exact absurd (k2.mp hv) hu
        have hf : findChannelBlockMatch env (n + 8) (.rule r .mandatory) deps u nx st = some (.ok none, st1) := by
          simp only [findChannelBlockMatch]
          rw [M.bind_some_ok (M.get_run _), M.bind_some_ok (M.set_run _ _), hch]
          simp only [channelLoop, constChannel]
          rw [M.bind_some_ok (a := none) (s1 := st1)]
          · rfl
          · rw [M.bind_some_ok k1]
            simp [hv]
        obtain ⟨b, st', h1, h2, h3⟩ := block_off (env := env) hc h0 (n + 6) deps u nx st1
        refine ⟨b, st', ?_, by simpa [copies] using h2, by simpa [copies] using h3⟩
        have e : copies z 0 ++ u = u := by simp [copies]
        rw [e, ← h1]
        simp only [containerToBlockMatch, hs, if_false, if_true, Bool.false_eq_true]
        rw [M.bind_some_ok hf, M.bind_some_ok (M.pure_run _ _)]
  | succ k ih =>
    intro n ch st hn
    obtain ⟨n, rfl⟩ : ∃ m, n = m + 9 := ⟨n - 9, by omega⟩
    cases ch with
    | false =>
      obtain ⟨b, st', h1, h2, h3⟩ := block_off (env := env) hc h0 (n + 6) deps (copies z (k + 1) ++ u) nx st
      exact ⟨b, st', h1, by simpa [skipped] using h2, by simpa [skipped, copies] using h3⟩
    | true =>
      have hs : copies z (k + 1) ++ u ≠ [] := by rw [copies_succ]; simp [hz0]
      have hp : z <+: copies z (k + 1) ++ u := by rw [copies_succ]; simp
      obtain ⟨t, st1, k1, k2, k3⟩ := channel_const (env := env) hzn hz hz0 n zd (copies z (k + 1) ++ u)
        { st with ranges := st.ranges + 1 }
      have hv := k2.mpr hp
      obtain ⟨tc, hc1, hc2, hc3⟩ := k3 hv
      obtain ⟨b, st2, h1, h2, h3⟩ := ih (n + 7) nx st1 (by omega)
      have hdrop : replaceFirst (copies z (k + 1) ++ u) z = copies z k ++ u := by
        rw [replaceFirst_prefix hp, copies_succ, List.append_assoc, List.drop_left]
      have hf : findChannelBlockMatch env (n + 8) (.rule r .mandatory) deps (copies z (k + 1) ++ u) nx st =
          some (.ok (some (.mk (some tc.must) (.block b))), st2) := by
        simp only [findChannelBlockMatch]
        rw [M.bind_some_ok (M.get_run _), M.bind_some_ok (M.set_run _ _), hch]
        simp only [channelLoop, constChannel]
        rw [M.bind_some_ok (a := some tc.must) (s1 := st1)]
        · have hpp : z.isPrefixOf (copies z (k + 1) ++ u) = true := isPrefixOf_iff.mpr hp
          simp only [hc2, hpp, Bool.not_true, Bool.false_eq_true, if_false, hdrop]
          rw [M.bind_some_ok h1]
          rfl
        · rw [M.bind_some_ok k1]
          simp [hv, hc1]
      have hsk : k + 1 - skipped true nx (k + 1) = k - skipped nx nx k ∧ skipped true nx (k + 1) = skipped nx nx k + 1 := by
        unfold skipped
        cases nx <;> simp
      refine ⟨.mk (some tc.must) (.block b), st2, ?_, ?_, ?_⟩
      · simp only [containerToBlockMatch, hs, if_false, if_true]
        rw [M.bind_some_ok hf]
        rfl
      · rw [hsk.1, ← h2]
        simp [BlockMatch.isValid, BlockContent.isValid, hc3]
      · intro hb
        have hb' : b.isValid = true := by simpa [BlockMatch.isValid, BlockContent.isValid, hc3] using hb
        rw [hsk.2, copies_succ, List.append_assoc, ← h3 hb']
        simp [BlockMatch.discoveries, BlockContent.discoveries, BlockContent.isValid, BlockMatch.isValid, hc2, hc3, hb']

theorem incomparable {z c : Str} (h1 : ¬ z <+: c) (h2 : ¬ c <+: z) (v : Str) : ¬ z <+: c ++ v := by
  intro h
  rcases List.prefix_or_prefix_of_prefix h (List.prefix_append c v) with h | h
  · exact h1 h
  · exact h2 h

theorem line_channels {env : Env} {zn : Str} (hzn : zn ≠ []) {rz : Rule} {z : Str} (hz : rz.content = .constant z)
    (hz0 : z ≠ []) {zd : List Element} (hch : ∀ k, env.channels k = [constChannel zn rz zd]) (deps : List Element) (n : Nat)
    (items : List (Option Str)) : ∀ line, IsConstLine items line →
    (∀ c, some c ∈ items → c ≠ [] ∧ ¬ z <+: c ∧ ¬ c <+: z) → ∀ ch nx rem acc st, 2 * rem.length + 9 ≤ n → blocksValid acc = true →
    ((∀ i ∈ items, i = none) → acc ≠ []) →
    ∃ l st', lineLoop (fun c rem ch next => containerToBlockMatch env n c deps rem ch next) line ch nx rem acc st =
        some (.ok (some l), st') ∧
      (blocksValid l = true → ∃ w rest, rem = w ++ rest ∧ SwitchText z ch nx items w ∧
        blocksDiscoveries l = blocksDiscoveries acc ++ w) ∧
      (∀ w rest, rem = w ++ rest → SwitchText z ch nx items w → blocksValid l = true) := by
  induction items with
  | nil =>
    intro line hline hcs ch nx rem acc st hn hv hne
    simp only [IsConstLine] at hline
    subst hline
    have := hne (by simp)
    refine ⟨acc, st, ?_, ?_, ?_⟩
    · simp [lineLoop, this]
    · intro _; exact ⟨[], rem, rfl, .nil, by simp⟩
    · intro _ _ _ _; exact hv
  | cons it items ih =>
    intro line hline hcs ch nx rem acc st hn hv hne
    cases it with
    | none =>
      obtain ⟨line', rfl, hline'⟩ := hline
      obtain ⟨l, st', h1, h2, h3⟩ := ih line' hline' (fun c hc => hcs c (by simp [hc])) ch (!nx) rem acc st hn hv
        (fun h => hne (by simpa using h))
      refine ⟨l, st', h1, ?_, ?_⟩
      · intro hl
        obtain ⟨w, rest, e1, e2, e3⟩ := h2 hl
        exact ⟨w, rest, e1, .switch e2, e3⟩
      · intro w rest e1 e2
        cases e2 with
        | switch e2 => exact h3 w rest e1 e2
    | some c =>
      obtain ⟨r, line', rfl, hr, hline'⟩ := hline
      obtain ⟨c0, c1, c2⟩ := hcs c (by simp)
      obtain ⟨k, u, rfl, hu⟩ := leading z hz0 _ rem (le_refl _)
      have hk : k ≤ (copies z k ++ u).length := by
        have : ∀ k, k ≤ (copies z k).length := by
          intro k
          induction k with
          | zero => simp
          | succ k ih =>
            have := List.length_pos_iff.mpr hz0
            rw [copies_succ, List.length_append]; omega
        rw [List.length_append]
        have := this k
        omega
      obtain ⟨b, st1, b1, b2, b3⟩ := block_channels hzn hz hz0 hch hr c0 deps u hu nx k n ch st (by omega)
      simp only [lineLoop]
      rw [M.bind_some_ok b1]
      have hchnx : (if nx then ch else false) = (ch && nx) := by cases nx <;> simp
      -- a text of the line skips exactly these copies
      have hex : ∀ w rest, copies z k ++ u = w ++ rest → SwitchText z ch nx (some c :: items) w →
          ∃ w', w = copies z k ++ c ++ w' ∧ u = c ++ w' ++ rest ∧ skipped ch nx k = k ∧ SwitchText z (ch && nx) nx items w' := by
        intro w rest e1 e2
        cases e2 with
        | @const _ _ _ _ w' j j1 j2 e2 =>
          have e1' : copies z k ++ u = copies z j ++ (c ++ w' ++ rest) := by rw [e1]; simp [copies]
          obtain ⟨rfl, rfl⟩ := leading_unique e1' hu (by rw [List.append_assoc]; exact incomparable c1 c2 _)
          refine ⟨w', rfl, rfl, ?_, e2⟩
          unfold skipped
          cases ch with
          | false => simp [j1 rfl]
          | true => cases nx with
            | false => simp [j2 rfl]
            | true => simp
      cases hb : b.isValid with
      | false =>
        refine ⟨[b], st1, by simp only [hb, Bool.not_false, if_true]; rfl, by simp [blocksValid, hb], ?_⟩
        intro w rest e1 e2
        obtain ⟨w', _, rfl, hs, _⟩ := hex w rest e1 e2
        rw [hs] at b2
        have := b2.mpr (by simp [copies])
        rw [hb] at this
        simp at this
      | true =>
        have hp := b2.mp hb
        have hd := b3 hb
        have hsk : skipped ch nx k ≤ k := by unfold skipped; split <;> [split <;> omega; omega]
        have hsplit : copies z k = copies z (skipped ch nx k) ++ copies z (k - skipped ch nx k) := by
          unfold copies
          rw [← List.flatten_append, List.replicate_append_replicate]
          congr 2; omega
        obtain ⟨post, hpost⟩ := hp
        -- all the copies are skipped
        have hall : skipped ch nx k = k := by
          by_contra hne
          have : z <+: copies z (k - skipped ch nx k) ++ u := by
            obtain ⟨m, hm⟩ : ∃ m, k - skipped ch nx k = m + 1 := ⟨k - skipped ch nx k - 1, by omega⟩
            rw [hm, copies_succ]; simp
          rw [← hpost] at this
          exact incomparable c1 c2 post this
        rw [hall, Nat.sub_self] at hpost
        rw [hall] at hd
        have hu' : u = c ++ post := by simpa [copies] using hpost.symm
        subst hu'
        have hrem : copies z k ++ (c ++ post) = b.discoveries ++ post := by rw [hd]; simp
        have hacc : blocksValid (acc ++ [b]) = true := by rw [blocksValid_snoc]; simp [hv, hb]
        obtain ⟨l, st2, h1, h2, h3⟩ := ih line' hline' (fun c hc => hcs c (by simp [hc])) (ch && nx) nx post (acc ++ [b]) st1
          (by simp at hn; omega) hacc (by simp)
        refine ⟨l, st2, ?_, ?_, ?_⟩
        · have hpp : b.discoveries.isPrefixOf (copies z k ++ (c ++ post)) = true :=
            isPrefixOf_iff.mpr (by rw [hrem]; simp)
          simp only [hb, hpp, Bool.not_true, Bool.false_eq_true, if_false]
          rw [replaceFirst_prefix (by rw [hrem]; simp), hrem, List.drop_left, hchnx]
          exact h1
        · intro hl
          obtain ⟨w, rest, rfl, e2, e3⟩ := h2 hl
          refine ⟨copies z k ++ c ++ w, rest, by simp, .const ?_ ?_ e2, ?_⟩
          · rintro rfl; simpa [skipped] using hall.symm
          · rintro rfl
            unfold skipped at hall
            cases ch <;> simp at hall <;> omega
          · rw [e3, blocksDiscoveries_snoc, hd]; simp
        · intro w rest e1 e2
          obtain ⟨w', _, hu'', _, e2'⟩ := hex w rest e1 e2
          exact h3 w' rest (by simpa using hu'') e2'

theorem switchText_no_switch (z : Str) (cs : List Str) (w : Str) : SwitchText z true true (cs.map some) w ↔
    ∃ js : List Nat, js.length = cs.length ∧ w = (List.zipWith (fun j c => (List.replicate j z).flatten ++ c) js cs).flatten := by
  induction cs generalizing w with
  | nil =>
    constructor
    · intro h; cases h; exact ⟨[], rfl, rfl⟩
    · rintro ⟨js, _, rfl⟩; simpa using SwitchText.nil
  | cons c cs ih =>
    constructor
    · intro h
      cases h with
      | @const _ _ _ _ _ j _ _ h =>
        obtain ⟨js, h1, rfl⟩ := (ih _).mp h
        exact ⟨j :: js, by simp [h1], by simp⟩
    · rintro ⟨js, h1, rfl⟩
      cases js with
      | nil => simp at h1
      | cons j js => exact .const (by simp) (by simp) ((ih _).mpr ⟨js, by simpa using h1, rfl⟩)

theorem switchText_switch_late (z a b : Str) : SwitchText z true true [some a, none, some b] (a ++ z ++ b) := by
  have := SwitchText.const (z := z) (open_ := true) (on := true) (c := a) (j := 0) (by simp) (by simp)
    (.switch (.const (open_ := true) (on := false) (c := b) (j := 1) (by simp) (by simp) .nil))
  simpa using this

theorem switchText_switch_once (z a b : Str) (hz : z ≠ []) (w : Str) :
    SwitchText z true true [none, some a, none, some b] w ↔ w = a ++ b ∨ w = z ++ a ++ b := by
  constructor
  · intro h
    cases h with
    | switch h => cases h with
      | @const _ _ _ _ _ j _ j1 h => cases h with
        | switch h => cases h with
          | @const _ _ _ _ _ i i1 _ h =>
            cases h
            have := i1 rfl
            subst this
            have : j ≤ 1 := j1 rfl
            have : j = 0 ∨ j = 1 := by omega
            rcases this with rfl | rfl
            · exact .inl (by simp)
            · exact .inr (by simp)
  · rintro (rfl | rfl)
    · have := SwitchText.switch (z := z) (open_ := true) (on := true) (.const (c := a) (j := 0) (by simp) (by simp)
        (.switch (.const (open_ := false) (c := b) (j := 0) (by simp) (by simp) .nil)))
      simpa using this
    · have := SwitchText.switch (z := z) (open_ := true) (on := true) (.const (c := a) (j := 1) (by simp) (by simp)
        (.switch (.const (open_ := false) (c := b) (j := 0) (by simp) (by simp) .nil)))
      simpa using this

end Verif.Lexer
