import Verif.Lemmas.TextTokens2

/-! Helper lemmas: reading blocks, tests and tokens. -/

namespace Verif.Text
open Verif.Regex Verif.Patterns Verif.Cardinality Verif.Lexer

theorem lines_noDD {rules : RuleSet} (d : UInt8) (hd : d = dashC ∨ d = plusC) {l : LinesT} (h : ∀ x ∈ l, x.1.Ok rules ∧ Blank x.2) : NoDD d (linesText l) := by
  induction l with
  | nil => trivial
  | cons x l ih =>
    obtain ⟨h1, h2⟩ := h x List.mem_cons_self
    have hx := line_noDD d hd h1.2.1 (sep_of_ok h1) h2
    cases l with
    | nil => exact hx
    | cons y l =>
      rw [linesText_cons x (by simp), List.append_assoc]
      refine noDD_append hx (noDD_append ?_ (ih (fun z hz => h z (List.mem_cons_of_mem _ hz))) (.inr ?_)) (.inl ?_)
      · rcases hd with rfl | rfl <;> exact noDD_free (by decide)
      · rcases hd with rfl | rfl <;> decide
      · rw [show lit "|" = [pipeC] by decide]; rcases hd with rfl | rfl <;> simp [pipeC, dashC, plusC]

theorem lines_chars {rules : RuleSet} {l : LinesT} (h : ∀ x ∈ l, x.1.Ok rules ∧ Blank x.2) {d : UInt8} (hd : d = semiC ∨ d = colonC) : d ∉ linesText l := by
  induction l with
  | nil => simp [linesText]
  | cons x l ih =>
    obtain ⟨h1, h2⟩ := h x List.mem_cons_self
    have hx : d ∉ lineText x.1 ++ x.2 := by
      intro hm
      rcases List.mem_append.1 hm with hm | hm
      · exact line_chars h1.2.1 (.inr hd) hm
      · exact blank_free h2 (by rcases hd with rfl | rfl <;> decide) hm
    cases l with
    | nil => exact hx
    | cons y l =>
      rw [linesText_cons x (by simp)]
      intro hm
      rcases List.mem_append.1 hm with hm | hm
      · rcases List.mem_append.1 hm with hm | hm
        · exact hx hm
        · rcases hd with rfl | rfl <;> revert hm <;> decide
      · exact ih (fun z hz => h z (List.mem_cons_of_mem _ hz)) hm

theorem lineText_ne {rules : RuleSet} {l : LineT} (h : l.Ok rules) : lineText l ≠ [] := by
  cases l with
  | nil => exact absurd rfl h.1
  | cons x l =>
    obtain ⟨c, u, e, _⟩ := Item.head (h.2.1 x List.mem_cons_self).2
    simp [lineText, e]

theorem lines_ne {rules : RuleSet} {l : LinesT} (h : l.Ok rules) : linesText l ≠ [] := by
  cases l with
  | nil => exact absurd rfl h.1
  | cons x l =>
    have := lineText_ne (h.2 x List.mem_cons_self).1
    cases l with
    | nil => simp [linesText, this]
    | cons y l => rw [linesText_cons x (by simp)]; simp [this]

/-- The lines without the blanks behind the last one. -/
def trimLast : LinesT → LinesT
  | [] => []
  | [x] => [(x.1, [])]
  | x :: y :: l => x :: trimLast (y :: l)

theorem trimLast_ok {rules : RuleSet} : ∀ {l : LinesT}, (∀ x ∈ l, x.1.Ok rules ∧ Blank x.2) → ∀ x ∈ trimLast l, x.1.Ok rules ∧ Blank x.2
  | [], _ => by simp [trimLast]
  | [x], h => by
    intro y hy
    simp only [trimLast, List.mem_singleton] at hy
    subst hy
    exact ⟨(h x (by simp)).1, by intro c hc; simp at hc⟩
  | x :: y :: l, h => by
    intro z hz
    simp only [trimLast, List.mem_cons] at hz
    rcases hz with rfl | hz
    · exact h z (by simp)
    · exact trimLast_ok (fun q hq => h q (List.mem_cons_of_mem _ hq)) z hz

theorem trimLast_ne {l : LinesT} (h : l ≠ []) : trimLast l ≠ [] := by
  rcases l with _ | ⟨x, _ | ⟨y, l⟩⟩
  · exact absurd rfl h
  · simp [trimLast]
  · simp [trimLast]

theorem trimLast_text {rules : RuleSet} : ∀ {l : LinesT}, (∀ x ∈ l, x.1.Ok rules ∧ Blank x.2) → ∃ w, Blank w ∧ linesText l = linesText (trimLast l) ++ w
  | [], _ => ⟨[], by intro c hc; simp at hc, by simp [trimLast]⟩
  | [x], h => ⟨x.2, (h x (by simp)).2, by simp [trimLast, linesText]⟩
  | x :: y :: l, h => by
    obtain ⟨w, h1, h2⟩ := trimLast_text (l := y :: l) (fun q hq => h q (List.mem_cons_of_mem _ hq))
    refine ⟨w, h1, ?_⟩
    have : trimLast (x :: y :: l) = x :: trimLast (y :: l) := rfl
    rw [this, linesText_cons x (by simp), linesText_cons x (trimLast_ne (by simp)), h2]
    simp

theorem trimLast_last {rules : RuleSet} : ∀ {l : LinesT}, l ≠ [] → (∀ x ∈ l, x.1.Ok rules ∧ Blank x.2) → ∀ c ∈ (linesText (trimLast l)).getLast?, Visible c
  | [], h, _ => absurd rfl h
  | [x], _, h => by simpa [trimLast, linesText] using line_last (h x (by simp)).1.2.1
  | x :: y :: l, _, h => by
    have ih := trimLast_last (l := y :: l) (by simp) (fun q hq => h q (List.mem_cons_of_mem _ hq))
    have : trimLast (x :: y :: l) = x :: trimLast (y :: l) := rfl
    rw [this, linesText_cons x (trimLast_ne (by simp))]
    intro c hc
    rw [List.getLast?_append] at hc
    have hne := lines_ne (rules := rules) (l := trimLast (y :: l)) ⟨trimLast_ne (by simp), trimLast_ok (fun q hq => h q (List.mem_cons_of_mem _ hq))⟩
    cases hl : (linesText (trimLast (y :: l))).getLast? with
    | none => simp at hl; exact absurd hl hne
    | some z => rw [hl] at hc; simp at hc; subst hc; exact ih z hl

theorem trimLast_shows {rules : RuleSet} : ∀ {l : LinesT} {out : List GLine}, List.Forall₂ (LineShows rules) (trimLast l) out → List.Forall₂ (LineShows rules) l out
  | [], _, h => h
  | [x], _, h => by
    cases h with
    | cons h1 h2 => exact .cons h1 h2
  | x :: y :: l, _, h => by
    cases h with
    | cons h1 h2 => exact .cons h1 (trimLast_shows h2)

/-- The lines without the blanks in front of the first one. -/
def trimFirst : LinesT → LinesT
  | (x :: l, w) :: ls => (([], x.2) :: l, w) :: ls
  | l => l

def firstBlank : LinesT → Str
  | (x :: _, _) :: _ => x.1
  | _ => []

theorem trimFirst_text {l : LinesT} : linesText l = firstBlank l ++ linesText (trimFirst l) := by
  rcases l with _ | ⟨⟨_ | ⟨x, q⟩, w⟩, _ | ⟨y, l⟩⟩
  · rfl
  · rfl
  · rfl
  · simp [linesText, trimFirst, firstBlank, lineText]
  · rw [show trimFirst ((x :: q, w) :: y :: l) = (([], x.2) :: q, w) :: y :: l from rfl, linesText_cons (x :: q, w) (l := y :: l) (by simp), linesText_cons (([], x.2) :: q, w) (l := y :: l) (by simp)]
    simp [firstBlank, lineText]

theorem trimFirst_ok {rules : RuleSet} {l : LinesT} (h : l.Ok rules) : (trimFirst l).Ok rules ∧ Blank (firstBlank l) ∧
    (∃ c u, linesText (trimFirst l) = c :: u ∧ ws c = false) ∧ (l.Spaced → (trimFirst l).Spaced) := by
  obtain ⟨h1, h2⟩ := h
  rcases l with _ | ⟨⟨_ | ⟨x, q⟩, w⟩, l⟩
  · exact absurd rfl h1
  · exact absurd rfl (h2 _ List.mem_cons_self).1.1
  · obtain ⟨⟨hx1, hx2, hx3⟩, hw⟩ := h2 _ List.mem_cons_self
    refine ⟨⟨by simp [trimFirst], ?_⟩, (hx2 x List.mem_cons_self).1, ?_, ?_⟩
    · intro z hz
      simp only [trimFirst, List.mem_cons] at hz
      rcases hz with rfl | hz
      · refine ⟨⟨by simp, ?_, hx3⟩, hw⟩
        intro y hy
        rcases List.mem_cons.1 hy with rfl | hy
        · exact ⟨by intro c hc; simp at hc, (hx2 x List.mem_cons_self).2⟩
        · exact hx2 y (List.mem_cons_of_mem _ hy)
      · exact h2 z (List.mem_cons_of_mem _ hz)
    · have hs := (Item.head_stops (hx2 x List.mem_cons_self).2 []).1
      obtain ⟨c, u, e, _⟩ := Item.head (hx2 x List.mem_cons_self).2
      rw [e] at hs
      simp at hs
      cases l with
      | nil => exact ⟨c, u ++ (lineText q ++ w), by simp [trimFirst, linesText, lineText, e], hs⟩
      | cons y l =>
        refine ⟨c, u ++ (lineText q ++ w ++ lit "|" ++ linesText (y :: l)), ?_, hs⟩
        rw [show trimFirst ((x :: q, w) :: y :: l) = (([], x.2) :: q, w) :: y :: l from rfl, linesText_cons _ (by simp)]
        simp [lineText, e]
    · intro hsp y hy
      cases l with
      | nil =>
        simp [trimFirst] at hy; subst hy
        exact hsp (x :: q, w) (by simp)
      | cons z l =>
        simp only [trimFirst] at hy
        exact hsp y (by rw [List.getLast?_cons_cons] at hy ⊢; exact hy)

theorem trimFirst_shows {rules : RuleSet} {l : LinesT} {out : List GLine} (h : List.Forall₂ (LineShows rules) (trimFirst l) out) : List.Forall₂ (LineShows rules) l out := by
  rcases l with _ | ⟨⟨_ | ⟨x, q⟩, w⟩, l⟩
  · exact h
  · exact h
  · cases h with
    | cons h1 h2 => exact .cons h1 h2

/-- The last character of spaced lines is a blank. -/
theorem spaced_last {rules : RuleSet} : ∀ {l : LinesT}, l.Ok rules → l.Spaced → ∃ a b, linesText l = a ++ [b] ∧ (b = 32 ∨ b = 9 ∨ b = 13 ∨ b = 10)
  | [], h, _ => absurd rfl h.1
  | [x], h, hs => by
    have hne := hs x (by simp)
    obtain ⟨h1, h2⟩ := h.2 x (by simp)
    refine ⟨lineText x.1 ++ x.2.dropLast, x.2.getLast hne, ?_, h2 _ (List.getLast_mem hne)⟩
    simp [linesText, List.dropLast_append_getLast]
  | x :: y :: l, h, hs => by
    obtain ⟨a, b, h1, h2⟩ := spaced_last (l := y :: l) ⟨by simp, fun q hq => h.2 q (List.mem_cons_of_mem _ hq)⟩ (by
      intro q hq; exact hs q (by rw [List.getLast?_cons_cons]; exact hq))
    exact ⟨lineText x.1 ++ x.2 ++ lit "|" ++ a, b, by rw [linesText_cons x (by simp), h1]; simp, h2⟩

theorem spaced_no {rules : RuleSet} {d : UInt8} (hd : d = dashC ∨ d = plusC) {l : LinesT} (h : l.Ok rules) (hs : l.Spaced) :
    ¬ [d, d, d] <:+: linesText l ++ [d, d] := by
  obtain ⟨a, b, e, hb⟩ := spaced_last h hs
  have h1 := noDD_infix (lines_noDD d hd h.2)
  rw [e] at h1 ⊢
  intro hi
  rw [List.append_assoc] at hi
  rcases infix_split (x := b) (by rcases hb with rfl | rfl | rfl | rfl <;> rcases hd with rfl | rfl <;> decide) (by simp) hi with hi | hi
  · exact h1 (hi.trans ⟨[], [b], by simp⟩)
  · have := hi.length_le; simp at this

/-- The two sections of a block. -/
theorem block_text {rules : RuleSet} {M : LinesT} {N : Option NotT} (hM : M.Ok rules)
    (hN : ∀ n, N = some n → Blank n.gap ∧ n.lines.Ok rules ∧ M.Spaced) :
    ∃ must not, block rules (linesText M ++ ((N.map NotT.text).getD [])) = .ok (must, not) ∧ List.Forall₂ (LineShows rules) M must ∧
      NotShows rules N not := by
  obtain ⟨must, h1, h2⟩ := lines_text hM
  have hdash : lit "---" = [dashC, dashC, dashC] := by decide
  cases N with
  | none =>
    refine ⟨must, none, ?_, h2, trivial⟩
    have : splitSep dashC [dashC, dashC] (linesText M ++ []) = [linesText M] := by
      rw [List.append_nil]; exact splitSep_none (noDD_infix (lines_noDD dashC (.inl rfl) hM.2))
    unfold block
    simp only [Option.map_none, Option.getD_none, this, h1]
    rfl
  | some n =>
    obtain ⟨q1, q2, q3⟩ := hN n rfl
    have hok : (trimLast n.lines).Ok rules := ⟨trimLast_ne q2.1, trimLast_ok q2.2⟩
    obtain ⟨not, p1, p2⟩ := lines_text hok
    refine ⟨must, some not, ?_, h2, trimLast_shows p2⟩
    have hB : ¬ [dashC, dashC, dashC] <:+: n.gap ++ lit ":" ++ linesText n.lines := by
      rw [List.append_assoc, show lit ":" = [colonC] by decide]
      intro hi
      rcases infix_split (x := colonC) (by decide) (by simp) hi with hi | hi
      · exact blank_free q1 (d := dashC) (by decide) (hi.subset (by simp))
      · exact noDD_infix (lines_noDD dashC (.inl rfl) q2.2) hi
    have hsp : splitSep dashC [dashC, dashC] (linesText M ++ n.text) = [linesText M, n.gap ++ lit ":" ++ linesText n.lines] := by
      rw [splitSep_pair]
      refine ⟨by simp [NotT.text, hdash], ?_, hB⟩
      exact spaced_no (.inl rfl) hM q3
    obtain ⟨w, hw, e⟩ := trimLast_text q2.2
    have htrim : trimSpace (n.gap ++ lit ":" ++ linesText n.lines) = colonC :: linesText (trimLast n.lines) := by
      have e2 : n.gap ++ lit ":" ++ linesText n.lines = n.gap ++ (colonC :: linesText (trimLast n.lines)) ++ w := by
        rw [e, show lit ":" = [colonC] by decide]; simp
      rw [e2]
      refine trimSpace_pad q1 hw (by simp [Visible, colonC]) ?_
      intro c hc
      rw [List.getLast?_cons] at hc
      cases hl : (linesText (trimLast n.lines)).getLast? with
      | none => simp at hl; exact absurd hl (lines_ne hok)
      | some z => rw [hl] at hc; simp at hc; subst hc; exact trimLast_last q2.1 q2.2 z hl
    unfold block
    simp only [Option.map_some, Option.getD_some, hsp, h1, htrim, p1, Out.bind_ok]
    rfl

/-! ### Tests -/

theorem tests_noPlus {gap close : Str} {ts : List Str} (hg : Blank gap) (hc : Blank close) (ht : ∀ t ∈ ts, TestOk t) :
    ¬ [plusC, plusC, plusC] <:+: gap ++ lit ":" ++ (ts.map (· ++ lit "###")).flatten ++ close := by
  have hhash : lit "###" = [hashC, hashC, hashC] := by decide
  have key : ∀ ts : List Str, (∀ t ∈ ts, TestOk t) → ¬ [plusC, plusC, plusC] <:+: (ts.map (· ++ lit "###")).flatten ++ close := by
    intro ts
    induction ts with
    | nil => intro _ hi; exact blank_free hc (d := plusC) (by decide) (hi.subset (by simp))
    | cons t ts ih =>
      intro h hi
      rw [List.map_cons, List.flatten_cons, hhash, List.append_assoc, List.append_assoc] at hi
      rcases infix_split (x := hashC) (by decide) (by simp) hi with hi | hi
      · exact (h t List.mem_cons_self).2.2.1 (by rw [show lit "+++" = [plusC, plusC, plusC] by decide]; exact hi)
      · rcases infix_split (a := []) (x := hashC) (by decide) (by simp) hi with hi | hi
        · simp at hi
        · rcases infix_split (a := []) (x := hashC) (by decide) (by simp) hi with hi | hi
          · simp at hi
          · exact ih (fun x hx => h x (List.mem_cons_of_mem _ hx)) (by rw [hhash]; exact hi)
  rw [show lit ":" = [colonC] by decide]
  intro hi
  rw [List.append_assoc, List.append_assoc] at hi
  rcases infix_split (x := colonC) (by decide) (by simp) hi with hi | hi
  · exact blank_free hg (d := plusC) (by decide) (hi.subset (by simp))
  · exact key ts ht hi

theorem tests_split {ts : List Str} (ht : ∀ t ∈ ts, TestOk t) : splitSep hashC [hashC, hashC] ((ts.map (· ++ lit "###")).flatten) = ts ++ [[]] := by
  have hhash : lit "###" = [hashC, hashC, hashC] := by decide
  induction ts with
  | nil => simpa using splitSep_none (c := hashC) (ds := [hashC, hashC]) (s := []) (by simp)
  | cons t ts ih =>
    rw [List.cons_append, splitSep_cons (by simp)]
    refine ⟨_, by simp [hhash]; rfl, ?_, ?_⟩
    · have := (ht t List.mem_cons_self).2.2.2
      rw [show lit "###" = [hashC, hashC, hashC] by decide, show lit "##" = [hashC, hashC] by decide] at this
      exact this
    · have := ih (fun x hx => ht x (List.mem_cons_of_mem _ hx))
      rw [hhash] at this; exact this

theorem tests_text {A : Str} {T : Option TestsT} (hA : ¬ [plusC, plusC, plusC] <:+: A) (hA2 : ∀ s, T = some s → ¬ [plusC, plusC, plusC] <:+: A ++ [plusC, plusC])
    (hT : ∀ s, T = some s → Blank s.gap ∧ Blank s.close ∧ s.tests ≠ [] ∧ (∀ x ∈ s.tests, TestOk x)) :
    testSuite (A ++ ((T.map TestsT.text).getD [])) = .ok (T.map TestsT.tests, A) := by
  cases T with
  | none =>
    unfold testSuite
    simp only [Option.map_none, Option.getD_none, List.append_nil]
    rw [splitSep_none hA]
  | some s =>
    obtain ⟨h1, h2, h3, h4⟩ := hT s rfl
    have hsp : splitSep plusC [plusC, plusC] (A ++ s.text) = [A, s.gap ++ lit ":" ++ (s.tests.map (· ++ lit "###")).flatten ++ s.close] := by
      rw [splitSep_pair]
      refine ⟨by simp [TestsT.text, show lit "+++" = [plusC, plusC, plusC] by decide], hA2 s rfl, tests_noPlus h1 h2 h4⟩
    have htrim : trimSpace (s.gap ++ lit ":" ++ (s.tests.map (· ++ lit "###")).flatten ++ s.close) = colonC :: (s.tests.map (· ++ lit "###")).flatten := by
      rw [show s.gap ++ lit ":" ++ (s.tests.map (· ++ lit "###")).flatten ++ s.close = s.gap ++ (colonC :: (s.tests.map (· ++ lit "###")).flatten) ++ s.close by
        rw [show lit ":" = [colonC] by decide]; simp]
      refine trimSpace_pad h1 h2 (by simp [Visible, colonC]) ?_
      have hl : ∀ ts : List Str, ts ≠ [] → ((ts.map (· ++ lit "###")).flatten).getLast? = some hashC := by
        intro ts
        induction ts with
        | nil => intro h; exact absurd rfl h
        | cons t ts ih =>
          intro _
          rw [List.map_cons, List.flatten_cons, List.getLast?_append]
          cases ts with
          | nil => simp [show lit "###" = [hashC, hashC, hashC] by decide]
          | cons u ts => rw [ih (by simp)]; rfl
      intro c hc
      rw [List.getLast?_cons, hl _ h3] at hc
      simp at hc; subst hc; simp [Visible, hashC]
    unfold testSuite
    simp only [Option.map_some, Option.getD_some, hsp, htrim, if_true]
    rw [tests_split h4]
    have hf : (s.tests ++ [[]]).filter (· ≠ []) = s.tests := by
      rw [List.filter_append]
      have : s.tests.filter (· ≠ []) = s.tests := by
        rw [List.filter_eq_self]
        intro x hx
        simpa using (h4 x hx).1
      rw [this]; simp
    rw [hf]
    simp [gnonEmptyNow, h3]

end Verif.Text
