import Verif.Lemmas.TextTokens

/-! Helper lemmas: reading lines, blocks, tests and tokens. -/

namespace Verif.Text
open Verif.Regex Verif.Patterns Verif.Cardinality Verif.Lexer

theorem sep_of_ok {rules : RuleSet} {l : LineT} (h : l.Ok rules) : Sep rules l.tail := fun x hx =>
  ⟨(h.2.1 x (List.mem_of_mem_tail hx)).1, h.2.2 x hx, (h.2.1 x (List.mem_of_mem_tail hx)).2⟩

theorem item_last {rules : RuleSet} {i : Item} (h : i.Ok rules) : ∀ c ∈ i.text.getLast?, Visible c := by
  have hcard : ∀ k : Option Card, ∀ c ∈ (cardText k).getLast?, Visible c := by
    rintro (_ | (_ | _ | _ | _ | q)) c hc
    · simp [cardText] at hc
    · rw [show cardText (some .optional) = [optC] by decide] at hc; simp at hc; subst hc; simp [Visible, optC]
    · simp [cardText] at hc
    · rw [show cardText (some .nonZeroMultiple) = [plusC] by decide] at hc; simp at hc; subst hc; simp [Visible, plusC]
    · rw [show cardText (some .zeroMultiple) = [starC] by decide] at hc; simp at hc; subst hc; simp [Visible, starC]
    · simp only [cardText] at hc
      rw [specificStr_body, show (openC :: (specificBody q ++ [closeC]) : Str) = (openC :: specificBody q) ++ [closeC] by simp, List.getLast?_append] at hc
      simp at hc; subst hc; simp [Visible, closeC]
  have hlast : ∀ {a b : Str}, b ≠ [] → (∀ c ∈ b.getLast?, Visible c) → ∀ c ∈ (a ++ b).getLast?, Visible c := by
    intro a b hb h c hc
    rw [List.getLast?_append] at hc
    cases hl : b.getLast? with
    | none => simp at hl; exact absurd hl hb
    | some y => rw [hl] at hc; simp at hc; subst hc; exact h y hl
  have hspecs : ∀ s cl, ∀ c ∈ (specsText s cl).getLast?, Visible c := by
    intro s cl c hc
    unfold specsText at hc
    by_cases hs : s.isEmpty
    · simp [hs] at hc
    · rw [if_neg hs, show lit "->" ++ (s.map SpecT.text).flatten ++ cl ++ lit "<-" = (45 :: 62 :: ((s.map SpecT.text).flatten ++ cl ++ [60])) ++ [45] by
        simp [show lit "->" = [45, 62] by decide, show lit "<-" = [60, 45] by decide], List.getLast?_append] at hc
      simp at hc; subst hc; simp [Visible]
  have hname : ∀ {n : Str}, (∀ c ∈ n, LowerLetter c ∨ UpperLetter c ∨ c = 95) → ∀ c ∈ n.getLast?, Visible c := by
    intro n hn c hc
    rcases hn c (List.mem_of_mem_getLast? hc) with h | h | rfl
    · unfold LowerLetter at h; unfold Visible; omega
    · unfold UpperLetter at h; unfold Visible; omega
    · simp [Visible]
  cases i with
  | token n g k s cl =>
    obtain ⟨⟨c, u, e, h1, h2⟩, _⟩ := h
    have hn := hname (n := n) (by
      intro d hd
      rw [e] at hd
      rcases List.mem_cons.1 hd with rfl | hd
      · exact .inl h1
      · have := h2 d hd; tauto)
    simp only [Item.text]
    by_cases hb : cardText k ++ specsText s cl = []
    · rw [if_pos hb, List.append_nil]; exact hn
    · rw [if_neg hb]
      refine hlast (by simp; intro _ h1 h2; exact hb (by simp [h1, h2])) (hlast hb ?_)
      by_cases hs : specsText s cl = []
      · rw [hs, List.append_nil]; exact hcard k
      · exact hlast hs (hspecs s cl)
  | rule n g k =>
    obtain ⟨⟨h1, h2⟩, _⟩ := h
    have hn := hname (n := n) (by intro d hd; have := h2 d hd; tauto)
    simp only [Item.text]
    by_cases hb : cardText k = []
    · rw [if_pos hb, List.append_nil]; exact hn
    · rw [if_neg hb]
      exact hlast (by simp [hb]) (hlast hb (hcard k))
  | switch => intro c hc; rw [show Item.switch.text = [hashC] by decide] at hc; simp at hc; subst hc; simp [Visible, hashC]

theorem line_last {rules : RuleSet} {l : LineT} (h : ∀ x ∈ l, Blank x.1 ∧ x.2.Ok rules) : ∀ c ∈ (lineText l).getLast?, Visible c := by
  induction l with
  | nil => simp [lineText]
  | cons x l ih =>
    have e : lineText (x :: l) = x.1 ++ (x.2.text ++ lineText l) := by simp [lineText]
    rw [e]
    intro c hc
    obtain ⟨d, u, e2, _⟩ := Item.head (h x List.mem_cons_self).2
    have hi := item_last (h x List.mem_cons_self).2
    rw [List.getLast?_append, List.getLast?_append] at hc
    cases hl : (lineText l).getLast? with
    | some y =>
      rw [hl] at hc; simp at hc; subst hc
      exact ih (fun y hy => h y (List.mem_cons_of_mem _ hy)) y hl
    | none =>
      rw [hl] at hc
      simp only [Option.none_or] at hc
      cases hx : x.2.text.getLast? with
      | none => simp at hx; rw [hx] at e2; cases e2
      | some y => rw [hx] at hc; simp at hc; subst hc; exact hi y hx

theorem line_text {rules : RuleSet} {l : LineT} {w : Str} (h : l.Ok rules) (hw : Blank w) :
    ∃ out, line rules (lineText l ++ w) = .ok out ∧ LineShows rules (l, w) out := by
  cases l with
  | nil => exact absurd rfl h.1
  | cons x l =>
    have hsep := sep_of_ok h
    obtain ⟨hx1, hx2⟩ := h.2.1 x List.mem_cons_self
    have hr := reads_items (rules := rules) (w := []) (by intro c hc; simp at hc) _ (x :: l) (Nat.le_refl _) (fun y hy => (h.2.1 y hy).2) hsep
    obtain ⟨out, h1, h2⟩ := hr x l rfl false
    have ht : trimSpace (lineText (x :: l) ++ w) = x.2.text ++ tailText l [] := by
      have e : lineText (x :: l) ++ w = x.1 ++ (x.2.text ++ tailText l []) ++ w := by simp [lineText, tailText]
      rw [e]
      apply trimSpace_pad hx1 hw
      · obtain ⟨c, u, e2, hh⟩ := Item.head hx2
        intro d hd
        rw [e2] at hd; simp at hd; subst hd
        rcases hh with ⟨_, _, _, _, _, _, hc⟩ | ⟨_, _, _, _, hc | hc⟩ | ⟨_, hc, _⟩
        · unfold LowerLetter at hc; unfold Visible; omega
        · unfold UpperLetter at hc; unfold Visible; omega
        · rw [hc]; simp [Visible]
        · rw [hc]; simp [Visible, hashC]
      · have := line_last (rules := rules) (l := ([], x.2) :: l) (by
          intro y hy
          rcases List.mem_cons.1 hy with rfl | hy
          · exact ⟨by intro c hc; simp at hc, hx2⟩
          · exact h.2.1 y (List.mem_cons_of_mem _ hy))
        simpa [lineText, tailText] using this
    have hne : out ≠ [] := by
      rintro rfl
      rw [List.map_cons] at h2
      obtain ⟨w0, i⟩ := x
      cases i <;> cases h2
    refine ⟨out, ?_, h2⟩
    unfold line instructions
    rw [ht, findAll_eq]
    unfold rd at h1
    rw [h1]
    simp [gnonEmptyNow, hne]

theorem linesText_cons (x : LineT × Str) {l : LinesT} (h : l ≠ []) : linesText (x :: l) = lineText x.1 ++ x.2 ++ lit "|" ++ linesText l := by
  cases l with
  | nil => exact absurd rfl h
  | cons y l => rfl

theorem lines_split {rules : RuleSet} {l : LinesT} (h : l.Ok rules) : splitSep pipeC [] (linesText l) = l.map (fun x => lineText x.1 ++ x.2) := by
  obtain ⟨h1, h2⟩ := h
  induction l with
  | nil => exact absurd rfl h1
  | cons x l ih =>
    obtain ⟨hx1, hx2⟩ := h2 x List.mem_cons_self
    have hfree : pipeC ∉ lineText x.1 ++ x.2 := by
      intro hm
      rcases List.mem_append.1 hm with hm | hm
      · exact line_chars hx1.2.1 (.inl rfl) hm
      · exact blank_free hx2 (by decide) hm
    cases l with
    | nil =>
      simp only [linesText, List.map_cons, List.map_nil]
      exact splitSep_none (by rw [mem_of_infix_single]; exact hfree)
    | cons y l =>
      rw [linesText_cons x (by simp), List.map_cons, splitSep_cons (by simp)]
      refine ⟨linesText (y :: l), by rw [show lit "|" = [pipeC] by decide], ?_, ih (by simp) (fun z hz => h2 z (List.mem_cons_of_mem _ hz))⟩
      simp only [List.dropLast_singleton, List.append_nil]
      rw [mem_of_infix_single]; exact hfree

theorem lines_text {rules : RuleSet} {l : LinesT} (h : l.Ok rules) :
    ∃ out, lines rules (linesText l) = .ok out ∧ List.Forall₂ (LineShows rules) l out := by
  have hm : ∃ out, mapOut (line rules) (l.map (fun x => lineText x.1 ++ x.2)) = .ok out ∧ List.Forall₂ (LineShows rules) l out := by
    have h2 := h.2
    clear h
    induction l with
    | nil => exact ⟨[], rfl, .nil⟩
    | cons x l ih =>
      obtain ⟨out, q1, q2⟩ := ih (fun z hz => h2 z (List.mem_cons_of_mem _ hz))
      obtain ⟨hx1, hx2⟩ := h2 x List.mem_cons_self
      obtain ⟨o, q3, q4⟩ := line_text hx1 hx2
      exact ⟨o :: out, by simp only [List.map_cons, mapOut, q3, q1, Out.bind_ok]; rfl, .cons q4 q2⟩
  obtain ⟨out, q1, q2⟩ := hm
  have hne : out ≠ [] := by rintro rfl; cases q2; exact h.1 rfl
  refine ⟨out, ?_, q2⟩
  unfold lines
  rw [lines_split h, q1]
  simp [gnonEmptyNow, hne]

end Verif.Text
