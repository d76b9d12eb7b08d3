import Verif.Lemmas.TextTokens3

/-! Helper lemmas: reading tokens. -/

namespace Verif.Text
open Verif.Regex Verif.Patterns Verif.Cardinality Verif.Lexer

theorem reTokenEntry_needs : reTokenEntry.needs = true := by decide

theorem y_entry {pre name gap fb body v : Str} (h1 : Blank pre) (h2 : TokenName name) (h3 : Blank gap) (h4 : Blank fb)
    (h5 : ∃ c u, body = c :: u ∧ ws c = false) (h6 : semiC ∉ body) :
    ∃ m, Y reTokenEntry (pre ++ (name ++ (gap ++ (colonC :: (fb ++ (body ++ (semiC :: v))))))) m ∧ m.rest = v ∧ m.group 2 = name ∧ m.group 3 = body := by
  obtain ⟨c, u, e, hc⟩ := h5
  obtain ⟨d, q, en, hd, hq⟩ := h2
  have s1 : Stops ws (name ++ (gap ++ (colonC :: (fb ++ (body ++ (semiC :: v)))))) := by
    rw [en]; simp only [List.cons_append, stops_cons]; exact not_blank (.inl hd)
  have s2 : Stops letter (gap ++ (colonC :: (fb ++ (body ++ (semiC :: v))))) := by
    cases gap with
    | nil => rw [List.nil_append, stops_cons]; decide
    | cons x g => rw [List.cons_append, stops_cons]; rcases h3 x List.mem_cons_self with rfl | rfl | rfl | rfl <;> decide
  have s3 : Stops ws (colonC :: (fb ++ (body ++ (semiC :: v)))) := by rw [stops_cons]; decide
  have s4 : Stops ws (body ++ (semiC :: v)) := by rw [e]; simpa using hc
  have s5 : Stops (noneOf [semiC]) (semiC :: v) := by rw [stops_cons]; simp [noneOf]
  have hall : ∀ x ∈ c :: u, noneOf [semiC] x = true := by
    intro x hx
    rw [← e] at hx
    rw [noneOf_iff]
    intro h; simp at h; subst h; exact h6 hx
  have p := y_plus (hall c List.mem_cons_self) (fun x hx => hall x (List.mem_cons_of_mem _ hx)) s5
  rw [← e] at p
  have hY := y_seq (y_star (blank_ws h1) s1) (y_seq (y_grp (n := 2) (y_token ⟨d, q, en, hd, hq⟩ s2)) (y_seq (y_star (blank_ws h3) s3)
    (y_seq (y_reC (c := colonC)) (y_seq (y_star (blank_ws h4) s4) (y_seq (y_grp (n := 3) p) (y_seq (y_reC (c := semiC)) (y_eps v)))))))
  refine ⟨_, y_grp (n := 1) hY, rfl, ?_, ?_⟩
  · simp [group_eq, look_cons]
  · simp [group_eq, look_cons]

theorem f_entry_blank {w : Str} (hw : Blank w) : F reTokenEntry w := by
  refine f_grp (f_star_seq ?_)
  intro u v huv _
  refine f_seq_left (f_grp (f_token ?_))
  cases v with
  | nil => simp
  | cons c v =>
    rw [stops_cons]
    rcases hw c (by rw [← huv]; simp) with rfl | rfl | rfl | rfl <;> decide

theorem scan_entry_blank {w : Str} (hw : Blank w) (a : Bool) : scan reTokenEntry a w = [] := by
  have := scan_skip_append (r := reTokenEntry) (a := a) (a' := a) (u := w) (v := []) reTokenEntry_needs (.inr rfl) (by
    intro u1 u2 h _
    rw [List.append_nil]
    exact f_entry_blank (fun c hc => hw c (by rw [← h]; simp [hc])))
  rw [List.append_nil] at this
  rw [this, scan_fail_nil reTokenEntry_needs]

theorem test_chars {s : TestsT} (h1 : Blank s.gap) (h2 : Blank s.close) (h4 : ∀ x ∈ s.tests, TestOk x) : semiC ∉ s.text := by
  intro hm
  simp only [TestsT.text, List.mem_append, List.mem_flatten, List.mem_map] at hm
  rcases hm with (((hm | hm) | hm) | ⟨t, ⟨x, hx, rfl⟩, hm⟩) | hm
  · revert hm; decide
  · exact blank_free h1 (d := semiC) (by decide) hm
  · revert hm; decide
  · rcases List.mem_append.1 hm with hm | hm
    · exact (h4 x hx).2.1 hm
    · revert hm; decide
  · exact blank_free h2 (d := semiC) (by decide) hm

theorem token_text {rules : RuleSet} {t : TokenT} (h : t.Ok rules) (v : Str) :
    ∃ m g, Y reTokenEntry (t.text ++ v) m ∧ m.rest = v ∧ tokenOf rules m = .ok g ∧ TokenShows rules t g := by
  obtain ⟨h1, h2, h3, h4, h5, h6⟩ := h
  obtain ⟨q1, q2, ⟨c, u, q3, hc⟩, q4⟩ := trimFirst_ok h4
  have hN : ∀ n, t.not = some n → Blank n.gap ∧ n.lines.Ok rules ∧ (trimFirst t.must).Spaced := fun n hn =>
    ⟨(h5 n hn).1, (h5 n hn).2.1, q4 (h5 n hn).2.2⟩
  obtain ⟨must, not, b1, b2, b3⟩ := block_text q1 hN
  have hdd : NoDD plusC (linesText (trimFirst t.must)) := lines_noDD plusC (.inr rfl) q1.2
  -- the block contains no test delimiter
  have hA : ¬ [plusC, plusC, plusC] <:+: linesText (trimFirst t.must) ++ ((t.not.map NotT.text).getD []) := by
    cases hn : t.not with
    | none => simp only [Option.map_none, Option.getD_none, List.append_nil]; exact noDD_infix hdd
    | some n =>
      obtain ⟨n1, n2, n3⟩ := hN n hn
      simp only [Option.map_some, Option.getD_some]
      intro hi
      have e : linesText (trimFirst t.must) ++ n.text = linesText (trimFirst t.must) ++ dashC :: ([] ++ dashC :: ([] ++ dashC :: (n.gap ++ colonC :: linesText n.lines))) := by
        simp [NotT.text, show lit "---" = [dashC, dashC, dashC] by decide, show lit ":" = [colonC] by decide]
      rw [e] at hi
      rcases infix_split (x := dashC) (by decide) (by simp) hi with hi | hi
      · exact noDD_infix hdd hi
      rcases infix_split (x := dashC) (by decide) (by simp) hi with hi | hi
      · simp at hi
      rcases infix_split (x := dashC) (by decide) (by simp) hi with hi | hi
      · simp at hi
      rcases infix_split (x := colonC) (by decide) (by simp) hi with hi | hi
      · exact blank_free n1 (d := plusC) (by decide) (hi.subset (by simp))
      · exact noDD_infix (lines_noDD plusC (.inr rfl) n2.2) hi
  have hA2 : ∀ s, t.tests = some s → ¬ [plusC, plusC, plusC] <:+: linesText (trimFirst t.must) ++ ((t.not.map NotT.text).getD []) ++ [plusC, plusC] := by
    intro s hs
    obtain ⟨s1, s2, s3, s4, s5, s6⟩ := h6 s hs
    cases hn : t.not with
    | none =>
      simp only [Option.map_none, Option.getD_none, List.append_nil]
      exact spaced_no (.inr rfl) q1 (q4 (s5 hn))
    | some n =>
      obtain ⟨n1, n2, n3⟩ := hN n hn
      simp only [Option.map_some, Option.getD_some]
      intro hi
      have e : linesText (trimFirst t.must) ++ n.text ++ [plusC, plusC] =
          linesText (trimFirst t.must) ++ dashC :: ([] ++ dashC :: ([] ++ dashC :: (n.gap ++ colonC :: (linesText n.lines ++ [plusC, plusC])))) := by
        simp [NotT.text, show lit "---" = [dashC, dashC, dashC] by decide, show lit ":" = [colonC] by decide]
      rw [e] at hi
      rcases infix_split (x := dashC) (by decide) (by simp) hi with hi | hi
      · exact noDD_infix hdd hi
      rcases infix_split (x := dashC) (by decide) (by simp) hi with hi | hi
      · simp at hi
      rcases infix_split (x := dashC) (by decide) (by simp) hi with hi | hi
      · simp at hi
      rcases infix_split (x := colonC) (by decide) (by simp) hi with hi | hi
      · exact blank_free n1 (d := plusC) (by decide) (hi.subset (by simp))
      · exact spaced_no (.inr rfl) n2 (s6 n hn) hi
  have hT := tests_text hA hA2 (fun s hs => ⟨(h6 s hs).1, (h6 s hs).2.1, (h6 s hs).2.2.1, (h6 s hs).2.2.2.1⟩)
  -- there is no semicolon
  have hsemi : semiC ∉ linesText (trimFirst t.must) ++ ((t.not.map NotT.text).getD []) ++ ((t.tests.map TestsT.text).getD []) := by
    intro hm
    rcases List.mem_append.1 hm with hm | hm
    · rcases List.mem_append.1 hm with hm | hm
      · exact lines_chars q1.2 (.inl rfl) hm
      · cases hn : t.not with
        | none => simp [hn] at hm
        | some n =>
          obtain ⟨n1, n2, n3⟩ := hN n hn
          rw [hn] at hm
          simp only [Option.map_some, Option.getD_some, NotT.text, List.mem_append] at hm
          rcases hm with ((hm | hm) | hm) | hm
          · revert hm; decide
          · exact blank_free n1 (d := semiC) (by decide) hm
          · revert hm; decide
          · exact lines_chars n2.2 (.inl rfl) hm
    · cases hs : t.tests with
      | none => simp [hs] at hm
      | some s =>
        obtain ⟨s1, s2, s3, s4, s5, s6⟩ := h6 s hs
        rw [hs] at hm
        exact test_chars s1 s2 s4 hm
  obtain ⟨m, m1, m2, m3, m4⟩ := y_entry (v := v) h1 h2 h3 q2 (body := linesText (trimFirst t.must) ++ ((t.not.map NotT.text).getD []) ++ ((t.tests.map TestsT.text).getD []))
    ⟨c, _, by rw [q3]; simp only [List.cons_append]; rfl, hc⟩ hsemi
  have hne : t.name ≠ [] := by obtain ⟨c, u, e, _⟩ := h2; rw [e]; simp
  refine ⟨m, ⟨t.name, must, not, t.tests.map TestsT.tests⟩, ?_, m2, ?_, rfl, trimFirst_shows b2, b3, rfl⟩
  · have e : t.text ++ v = t.pre ++ (t.name ++ (t.gap ++ (colonC :: (firstBlank t.must ++ (linesText (trimFirst t.must) ++ ((t.not.map NotT.text).getD []) ++ ((t.tests.map TestsT.text).getD []) ++ (semiC :: v)))))) := by
      rw [TokenT.text, TokenT.block, trimFirst_text (l := t.must), show lit ":" = [colonC] by decide, show lit ";" = [semiC] by decide]
      simp
    rw [e]; exact m1
  · unfold tokenOf
    rw [m3, m4, hT]
    simp only [Out.bind_ok, b1, gtokenNow, hne, if_false]

theorem tokens_read {rules : RuleSet} {l : List TokenT} {w : Str} (h : ∀ t ∈ l, t.Ok rules) (hw : Blank w) (a : Bool) :
    ∃ gs, mapOut (tokenOf rules) (scan reTokenEntry a (tokensText l ++ w)) = .ok gs ∧ List.Forall₂ (TokenShows rules) l gs := by
  induction l generalizing a with
  | nil => exact ⟨[], by simp [tokensText, scan_entry_blank hw, mapOut], .nil⟩
  | cons t l ih =>
    obtain ⟨m, g, h1, h2, h3, h4⟩ := token_text (h t List.mem_cons_self) (tokensText l ++ w)
    obtain ⟨gs, h5, h6⟩ := ih (fun x hx => h x (List.mem_cons_of_mem _ hx)) true
    refine ⟨g :: gs, ?_, .cons h4 h6⟩
    have e : tokensText (t :: l) ++ w = t.text ++ (tokensText l ++ w) := by simp [tokensText]
    rw [e, scan_hit reTokenEntry_needs h1, h2]
    simp only [mapOut, h3, h5, Out.bind_ok]
    rfl

end Verif.Text
