import Verif.Lemmas.TextLine2

/-! Helper lemmas: reading tokens. -/

namespace Verif.Text
open Verif.Regex Verif.Patterns Verif.Cardinality Verif.Lexer

/-! ### Delimiters -/

theorem infix_split {sep a t : Str} {x : UInt8} (hx : x ∉ sep) (hs : sep ≠ []) (h : sep <:+: a ++ x :: t) : sep <:+: a ∨ sep <:+: t := by
  induction a with
  | nil =>
    rcases List.infix_cons_iff.1 h with h | h
    · obtain ⟨c, u, e⟩ : ∃ c u, sep = c :: u := by cases sep with
        | nil => exact absurd rfl hs
        | cons c u => exact ⟨c, u, rfl⟩
      rw [e] at h hx
      have := (List.cons_prefix_cons.1 h).1
      simp [this] at hx
    · exact .inr h
  | cons c a ih =>
    rcases List.infix_cons_iff.1 h with h | h
    · obtain ⟨r, hr⟩ := h
      have hr' : sep ++ r = (c :: a) ++ (x :: t) := hr
      rcases List.append_eq_append_iff.1 hr' with ⟨u, h1, h2⟩ | ⟨u, h1, h2⟩
      · exact .inl ⟨[], u, by rw [h1]; simp⟩
      · cases u with
        | nil => exact .inl ⟨[], [], by rw [h1]; simp⟩
        | cons y u =>
          simp only [List.cons_append, List.cons.injEq] at h2
          rw [h1, ← h2.1] at hx
          simp at hx
    · rcases ih h with h1 | h1
      · exact .inl (h1.trans (List.infix_cons (List.infix_refl _)))
      · exact .inr h1

/-- Never two of the characters `d` in a row. -/
def NoDD (d : UInt8) : Str → Prop
  | [] => True
  | c :: s => ¬ (c = d ∧ s.head? = some d) ∧ NoDD d s

theorem noDD_infix {d : UInt8} {s : Str} (h : NoDD d s) : ¬ [d, d, d] <:+: s := by
  induction s with
  | nil => simp
  | cons c s ih =>
    rintro hi
    rcases List.infix_cons_iff.1 hi with hi | hi
    · obtain ⟨h1, h2⟩ := List.cons_prefix_cons.1 hi
      apply h.1
      obtain ⟨t, ht⟩ := h2
      exact ⟨h1.symm, by rw [← ht]; rfl⟩
    · exact ih h.2 hi

theorem noDD_free {d : UInt8} {s : Str} (h : d ∉ s) : NoDD d s := by
  induction s with
  | nil => trivial
  | cons c s ih => exact ⟨fun hc => h (by simp [hc.1]), ih (fun hm => h (List.mem_cons_of_mem _ hm))⟩

theorem noDD_append {d : UInt8} {a b : Str} (ha : NoDD d a) (hb : NoDD d b) (h : b.head? ≠ some d ∨ a.getLast? ≠ some d) : NoDD d (a ++ b) := by
  induction a with
  | nil => exact hb
  | cons c a ih =>
    refine ⟨?_, ih ha.2 ?_⟩
    · rintro ⟨h1, h2⟩
      cases a with
      | nil =>
        rcases h with h | h
        · exact h (by simpa using h2)
        · simp at h; exact h h1
      | cons x a => exact ha.1 ⟨h1, by simpa using h2⟩
    · rcases h with h | h
      · exact .inl h
      · cases a with
        | nil => right; simp
        | cons x a => right; simpa [List.getLast?_cons_cons] using h

theorem cardText_noDD (d : UInt8) (hd : d = dashC ∨ d = plusC) (k : Option Card) : NoDD d (cardText k) := by
  rcases k with _ | (_ | _ | _ | _ | q)
  · trivial
  · exact noDD_free (by rcases hd with rfl | rfl <;> decide)
  · trivial
  · rw [show cardText (some .nonZeroMultiple) = [plusC] by decide]; simp [NoDD]
  · exact noDD_free (by rcases hd with rfl | rfl <;> decide)
  · apply noDD_free
    simp only [cardText]
    rw [specificStr_body]
    intro hm
    simp only [List.mem_cons, List.mem_append, List.not_mem_nil, or_false] at hm
    rcases hm with rfl | hm | rfl
    · simp [openC, dashC, plusC] at hd
    · rcases body_chars q d hm with h | rfl
      · rcases hd with rfl | rfl <;> simp [dashC, plusC] at h
      · simp [commaC, dashC, plusC] at hd
    · simp [closeC, dashC, plusC] at hd

theorem blank_free {w : Str} (hw : Blank w) {d : UInt8} (hd : d ≠ 32 ∧ d ≠ 9 ∧ d ≠ 13 ∧ d ≠ 10) : d ∉ w := by
  intro hm
  have := hw d hm
  tauto

theorem tokenName_free {n : Str} (h : TokenName n) {d : UInt8} (hd : ¬ LowerLetter d ∧ ¬ UpperLetter d) : d ∉ n := by
  obtain ⟨c, u, rfl, hc, hu⟩ := h
  intro hm
  rcases List.mem_cons.1 hm with rfl | hm
  · exact hd.1 hc
  · have := hu d hm; tauto

theorem ruleName_free {n : Str} (h : RuleName n) {d : UInt8} (hd : ¬ UpperLetter d ∧ d ≠ 95) : d ∉ n := by
  intro hm
  have := h.2 d hm
  tauto

theorem specsText_noDD {rules : RuleSet} (d : UInt8) (hd : d = dashC ∨ d = plusC) {s : List SpecT} {cl : Str} (h : ∀ x ∈ s, x.Ok rules) (hc : Blank cl) :
    NoDD d (specsText s cl) := by
  unfold specsText
  by_cases hs : s.isEmpty
  · simp [hs, NoDD]
  · rw [if_neg hs, show lit "->" ++ (s.map SpecT.text).flatten ++ cl ++ lit "<-" = [45] ++ (62 :: (specsBody s cl ++ [60, 45])) by
      simp [specsBody, show lit "->" = [45, 62] by decide, show lit "<-" = [60, 45] by decide]]
    have hbody : d ∉ 62 :: (specsBody s cl) := by
      intro hm
      rcases List.mem_cons.1 hm with rfl | hm
      · simp [dashC, plusC] at hd
      · have := specsBody_chars h hc d hm
        rcases hd with rfl | rfl <;> simp [LowerLetter, UpperLetter, commaC, openC, closeC, dashC, plusC] at this
    rw [show (62 :: (specsBody s cl ++ [60, 45]) : Str) = (62 :: specsBody s cl) ++ [60, 45] by simp]
    refine noDD_append ?_ (noDD_append (noDD_free hbody) ?_ (.inr ?_)) (.inl ?_)
    · simp [NoDD]
    · rcases hd with rfl | rfl <;> simp [NoDD, dashC, plusC]
    · intro hl
      exact hbody (List.mem_of_mem_getLast? hl)
    · simp; rcases hd with rfl | rfl <;> decide

theorem specsText_last {s : List SpecT} {cl : Str} : (specsText s cl).getLast? ≠ some plusC ∧ (specsText s cl).head? ≠ some plusC := by
  unfold specsText
  by_cases hs : s.isEmpty
  · simp [hs]
  · rw [if_neg hs, show lit "->" ++ (s.map SpecT.text).flatten ++ cl ++ lit "<-" = (45 :: 62 :: ((s.map SpecT.text).flatten ++ cl ++ [60])) ++ [45] by
      simp [show lit "->" = [45, 62] by decide, show lit "<-" = [60, 45] by decide]]
    constructor
    · rw [List.getLast?_append]; simp [plusC]
    · simp [plusC]

theorem item_noDD {rules : RuleSet} (d : UInt8) (hd : d = dashC ∨ d = plusC) {i : Item} (h : i.Ok rules) : NoDD d i.text := by
  have hd1 : ¬ LowerLetter d ∧ ¬ UpperLetter d := by rcases hd with rfl | rfl <;> simp [LowerLetter, UpperLetter, dashC, plusC]
  have hd2 : d ≠ 95 := by rcases hd with rfl | rfl <;> decide
  have hd3 : d ≠ 32 ∧ d ≠ 9 ∧ d ≠ 13 ∧ d ≠ 10 := by rcases hd with rfl | rfl <;> decide
  have pre : ∀ {a b : Str}, d ∉ a → NoDD d b → NoDD d (a ++ b) := fun ha hb =>
    noDD_append (noDD_free ha) hb (.inr (fun hl => ha (List.mem_of_mem_getLast? hl)))
  cases i with
  | token n g k s cl =>
    obtain ⟨h1, h2, h3, h4, h5⟩ := h
    simp only [Item.text]
    refine pre (tokenName_free h1 hd1) ?_
    split
    · trivial
    · refine pre (blank_free h2 hd3) (noDD_append (cardText_noDD d hd k) (specsText_noDD d hd h5 h3) ?_)
      rcases hd with rfl | rfl
      · right
        intro hl
        have := List.mem_of_mem_getLast? hl
        rcases k with _ | (_ | _ | _ | _ | q)
        · simp [cardText] at this
        · revert this; decide
        · simp [cardText] at this
        · revert this; decide
        · revert this; decide
        · simp only [cardText] at hl
          rw [specificStr_body, show (openC :: (specificBody q ++ [closeC]) : Str) = (openC :: specificBody q) ++ [closeC] by simp, List.getLast?_append] at hl
          simp [closeC, dashC] at hl
      · left; exact specsText_last.2
  | rule n g k =>
    obtain ⟨h1, h2, h4, h5⟩ := h
    simp only [Item.text]
    refine pre (ruleName_free h1 ⟨hd1.2, hd2⟩) ?_
    split
    · trivial
    · exact pre (blank_free h2 hd3) (cardText_noDD d hd k)
  | switch => exact noDD_free (by rcases hd with rfl | rfl <;> decide)

theorem line_noDD {rules : RuleSet} (d : UInt8) (hd : d = dashC ∨ d = plusC) {l : LineT} {w : Str} (h : ∀ x ∈ l, Blank x.1 ∧ x.2.Ok rules)
    (hs : Sep rules l.tail) (hw : Blank w) : NoDD d (lineText l ++ w) := by
  have hd3 : d ≠ 32 ∧ d ≠ 9 ∧ d ≠ 13 ∧ d ≠ 10 := by rcases hd with rfl | rfl <;> decide
  induction l with
  | nil => simpa [lineText] using noDD_free (blank_free hw hd3)
  | cons x l ih =>
    obtain ⟨h1, h2⟩ := h x List.mem_cons_self
    have hs' : Sep rules l := hs
    have e : lineText (x :: l) ++ w = x.1 ++ (x.2.text ++ tailText l w) := tailText_cons x l w
    rw [e]
    have ih' := ih (fun y hy => h y (List.mem_cons_of_mem _ hy)) (fun y hy => hs' y (List.mem_of_mem_tail hy))
    refine noDD_append (noDD_free (blank_free h1 hd3)) (noDD_append (item_noDD d hd h2) ih' (.inl ?_)) (.inr ?_)
    · intro hh
      have := blank_head hs' hw d hh
      tauto
    · intro hl
      exact blank_free h1 hd3 (List.mem_of_mem_getLast? hl)

/-- The characters of a line. -/
theorem line_chars {rules : RuleSet} {l : LineT} (h : ∀ x ∈ l, Blank x.1 ∧ x.2.Ok rules) {d : UInt8} (hd : d = pipeC ∨ d = semiC ∨ d = colonC) : d ∉ lineText l := by
  have hd1 : ¬ LowerLetter d ∧ ¬ UpperLetter d := by rcases hd with rfl | rfl | rfl <;> simp [LowerLetter, UpperLetter, pipeC, semiC, colonC]
  have hd2 : d ≠ 95 := by rcases hd with rfl | rfl | rfl <;> decide
  have hd3 : d ≠ 32 ∧ d ≠ 9 ∧ d ≠ 13 ∧ d ≠ 10 := by rcases hd with rfl | rfl | rfl <;> decide
  have hcard : ∀ k, d ∉ cardText k := by
    rintro (_ | (_ | _ | _ | _ | q))
    · simp [cardText]
    · rcases hd with rfl | rfl | rfl <;> decide
    · simp [cardText]
    · rcases hd with rfl | rfl | rfl <;> decide
    · rcases hd with rfl | rfl | rfl <;> decide
    · simp only [cardText]
      rw [specificStr_body]
      intro hm
      simp only [List.mem_cons, List.mem_append, List.not_mem_nil, or_false] at hm
      rcases hm with hm | hm | hm
      · rcases hd with rfl | rfl | rfl <;> revert hm <;> decide
      · rcases body_chars q d hm with h | h
        · rcases hd with rfl | rfl | rfl <;> simp [pipeC, semiC, colonC] at h
        · rcases hd with rfl | rfl | rfl <;> revert h <;> decide
      · rcases hd with rfl | rfl | rfl <;> revert hm <;> decide
  intro hm
  simp only [lineText, List.mem_flatten, List.mem_map] at hm
  obtain ⟨t, ⟨x, hx, rfl⟩, hm⟩ := hm
  obtain ⟨h1, h2⟩ := h x hx
  rcases List.mem_append.1 hm with hm | hm
  · exact blank_free h1 hd3 hm
  · obtain ⟨w0, i⟩ := x
    cases i with
    | token n g k s cl =>
      obtain ⟨q1, q2, q3, q4, q5⟩ := h2
      simp only [Item.text, List.mem_append] at hm
      rcases hm with hm | hm
      · exact tokenName_free q1 hd1 hm
      · split at hm
        · simp at hm
        · simp only [List.mem_append] at hm
          rcases hm with hm | hm | hm
          · exact blank_free q2 hd3 hm
          · exact hcard k hm
          · unfold specsText at hm
            by_cases hs : s.isEmpty
            · simp [hs] at hm
            · rw [if_neg hs, show lit "->" ++ (s.map SpecT.text).flatten ++ cl ++ lit "<-" = [45, 62] ++ specsBody s cl ++ [60, 45] by
                simp [specsBody, show lit "->" = [45, 62] by decide, show lit "<-" = [60, 45] by decide]] at hm
              simp only [List.mem_append] at hm
              rcases hm with (hm | hm) | hm
              · rcases hd with rfl | rfl | rfl <;> revert hm <;> decide
              · have := specsBody_chars q5 q3 d hm
                rcases hd with rfl | rfl | rfl <;> simp [LowerLetter, UpperLetter, commaC, openC, closeC, pipeC, semiC, colonC] at this
              · rcases hd with rfl | rfl | rfl <;> revert hm <;> decide
    | rule n g k =>
      obtain ⟨q1, q2, q4, q5⟩ := h2
      simp only [Item.text, List.mem_append] at hm
      rcases hm with hm | hm
      · exact ruleName_free q1 ⟨hd1.2, hd2⟩ hm
      · split at hm
        · simp at hm
        · simp only [List.mem_append] at hm
          rcases hm with hm | hm
          · exact blank_free q2 hd3 hm
          · exact hcard k hm
    | switch =>
      change d ∈ lit "#" at hm
      rcases hd with rfl | rfl | rfl <;> revert hm <;> decide

end Verif.Text
