import Verif.Lemmas.TextSpec

/-! Helper lemmas: reading a line of a token. -/

namespace Verif.Text
open Verif.Regex Verif.Patterns Verif.Cardinality Verif.Lexer

/-- Everything from here to the end of the line. -/
def tailText (l : LineT) (w : Str) : Str := lineText l ++ w

theorem tailText_cons (x : Str × Item) (l : LineT) (w : Str) : tailText (x :: l) w = x.1 ++ (x.2.text ++ tailText l w) := by
  simp [tailText, lineText]

/-- What is left behind an element: if only its name is written, the blanks behind it are read with it. -/
def aft (bare : Bool) (l : LineT) (w : Str) : Str :=
  match bare, l with
  | false, l => tailText l w
  | true, [] => []
  | true, x :: l => x.2.text ++ tailText l w

/-- The separated items of a line. -/
def Sep (rules : RuleSet) (l : LineT) : Prop := ∀ x ∈ l, Blank x.1 ∧ x.1 ≠ [] ∧ x.2.Ok rules

theorem Item.head {rules : RuleSet} {i : Item} (h : i.Ok rules) : ∃ c u, i.text = c :: u ∧
    ((∃ n g k s cl, i = .token n g k s cl ∧ LowerLetter c) ∨ (∃ n g k, i = .rule n g k ∧ (UpperLetter c ∨ c = 95)) ∨ (i = .switch ∧ c = hashC ∧ u = [])) := by
  cases i with
  | token n g k s cl =>
    obtain ⟨⟨c, u, rfl, hc, _⟩, _⟩ := h
    exact ⟨c, _, by simp only [Item.text, List.cons_append]; rfl, .inl ⟨_, _, _, _, _, rfl, hc⟩⟩
  | rule n g k =>
    obtain ⟨⟨h1, h2⟩, _⟩ := h
    cases n with
    | nil => exact absurd rfl h1
    | cons c u => exact ⟨c, _, by simp only [Item.text, List.cons_append]; rfl, .inr (.inl ⟨_, _, _, rfl, h2 c List.mem_cons_self⟩)⟩
  | switch => exact ⟨hashC, [], by decide, .inr (.inr ⟨rfl, rfl, rfl⟩)⟩

theorem Item.head_stops {rules : RuleSet} {i : Item} (h : i.Ok rules) (v : Str) : Stops ws (i.text ++ v) ∧ Stops sufStart (i.text ++ v) := by
  obtain ⟨c, u, e, hh⟩ := Item.head h
  have hc : LowerLetter c ∨ UpperLetter c ∨ c = 95 ∨ c = hashC := by
    rcases hh with ⟨_, _, _, _, _, _, h⟩ | ⟨_, _, _, _, h | h⟩ | ⟨_, h, _⟩ <;> tauto
  rw [e]
  simp only [List.cons_append, stops_cons]
  refine ⟨not_blank hc, ?_⟩
  rw [Bool.eq_false_iff]
  intro h
  simp [sufStart, oneOf] at h
  rcases h with rfl | rfl | rfl | rfl | rfl <;> simp [LowerLetter, UpperLetter, openC, plusC, starC, optC, dashC, hashC] at hc

theorem blank_head {rules : RuleSet} {l : LineT} {w : Str} (hl : Sep rules l) (hw : Blank w) :
    ∀ c ∈ (tailText l w).head?, c = 32 ∨ c = 9 ∨ c = 13 ∨ c = 10 := by
  intro c hc
  cases l with
  | nil => simp [tailText, lineText] at hc; exact hw c (List.mem_of_mem_head? hc)
  | cons x l =>
    obtain ⟨h1, h2, _⟩ := hl x List.mem_cons_self
    rw [tailText_cons] at hc
    cases hx : x.1 with
    | nil => exact absurd hx h2
    | cons d u =>
      rw [hx] at hc
      simp at hc; subst hc
      exact h1 d (by rw [hx]; simp)

theorem blank_stops {v : Str} (h : ∀ c ∈ v.head?, c = 32 ∨ c = 9 ∨ c = 13 ∨ c = 10) {p : Cls} (hp : p 32 = false ∧ p 9 = false ∧ p 13 = false ∧ p 10 = false) :
    Stops p v := by
  intro c hc
  rcases h c hc with rfl | rfl | rfl | rfl <;> tauto

theorem toCardinality_text {k : Card} (hk : CardOk (some k)) : cardText (some k) ≠ [] ∧ toCardinality (cardText (some k)) = .ok k := by
  obtain ⟨h1, h2⟩ := hk
  have hf := h2 k rfl
  cases k with
  | mandatory => exact absurd rfl h1
  | optional => exact ⟨by decide, by decide +kernel⟩
  | nonZeroMultiple => exact ⟨by decide, by decide +kernel⟩
  | zeroMultiple => exact ⟨by decide, by decide +kernel⟩
  | specific s =>
    refine ⟨by simp [cardText, specificStr_body], ?_⟩
    simp only [cardText]
    rw [toCardinality_specific]
    have h1 : toSpecific (specificStr s) = .ok s := by
      rw [toSpecific_str]
      rcases s with n | ⟨min, _ | max⟩
      · obtain ⟨a, b⟩ := hf
        have : n ≠ 0 := by rintro rfl; simp at a
        simp [b, this]
      · simp only [SpecNumbersFit] at hf; simp [hf]
      · simp only [SpecNumbersFit] at hf; simp [hf]
    rw [h1]; rfl

/-- The element of an item at the beginning of a text. -/
theorem y_item_token {rules : RuleSet} {n g : Str} {k : Option Card} {s : List SpecT} {cl : Str} {l : LineT} {w : Str}
    (h : (Item.token n g k s cl).Ok rules) (hl : Sep rules l) (hw : Blank w) :
    ∃ m b, Y (reElement 2 reToken) ((Item.token n g k s cl).text ++ tailText l w) m ∧ Blank b ∧ m.text = (Item.token n g k s cl).text ++ b ∧
      m.rest = aft (Item.token n g k s cl).bare l w ∧ look m.caps 2 = n ∧ look m.caps 4 = cardText k ∧ look m.caps 10 = specsText s cl := by
  obtain ⟨h1, h2, h3, h4, h5⟩ := h
  have hb := blank_head hl hw
  by_cases hbare : cardText k ++ specsText s cl = []
  · have e1 : (Item.token n g k s cl).text = n := by simp only [Item.text]; rw [if_pos hbare]; simp
    have e2 : (Item.token n g k s cl).bare = true := by simpa [Item.bare] using hbare
    rw [e1, e2]
    have key : ∀ b v, Blank b → Stops ws v → Stops sufStart v → Stops letter (b ++ v) →
        ∃ m, Y (reElement 2 reToken) (n ++ (b ++ v)) m ∧ m.text = n ++ b ∧ m.rest = v ∧ look m.caps 2 = n ∧ look m.caps 4 = cardText k ∧ look m.caps 10 = specsText s cl := by
      intro b v hbl hv1 hv2 hv3
      have := y_element (n := 2) (name := reToken) (nm := n) (g := b) (k := k) (specs := s) (close := cl) (v := v) (rules := rules)
        (by rw [hbare]; exact y_token h1 hv3) hbl (by rw [hbare]; exact hv1) h4.1 h5 h3 hv2
      rw [hbare] at this
      simpa using this
    cases l with
    | nil =>
      obtain ⟨m, q1, q2, q3, q4⟩ := key w [] hw (by simp) (by simp) (by
        have := blank_stops (p := letter) hb (by decide)
        simpa [tailText, lineText] using this)
      exact ⟨m, w, by simpa [tailText, lineText] using q1, hw, q2, q3, q4⟩
    | cons x l =>
      obtain ⟨hx1, hx2, hx3⟩ := hl x List.mem_cons_self
      have hs := Item.head_stops hx3 (tailText l w)
      obtain ⟨m, q1, q2, q3, q4⟩ := key x.1 (x.2.text ++ tailText l w) hx1 hs.1 hs.2 (by
        rw [← tailText_cons]; exact blank_stops hb (by decide))
      exact ⟨m, x.1, by rw [tailText_cons]; exact q1, hx1, q2, q3, q4⟩
  · have e1 : (Item.token n g k s cl).text = n ++ (g ++ (cardText k ++ specsText s cl)) := by simp only [Item.text]; rw [if_neg hbare]
    have e2 : (Item.token n g k s cl).bare = false := by simpa [Item.bare] using hbare
    have hsuf : ∃ c u, cardText k ++ specsText s cl = c :: u ∧ (c = openC ∨ c = plusC ∨ c = starC ∨ c = optC ∨ c = dashC) := by
      by_cases hk : cardText k = []
      · rw [hk] at hbare ⊢
        simp only [List.nil_append] at hbare ⊢
        unfold specsText at hbare ⊢
        by_cases hs : s.isEmpty
        · simp [hs] at hbare
        · rw [if_neg hs]
          exact ⟨45, 62 :: ((s.map SpecT.text).flatten ++ cl ++ lit "<-"), by rw [show lit "->" = [45, 62] by decide]; simp, by decide⟩
      · obtain ⟨c, u, e, hc⟩ : ∃ c u, cardText k = c :: u ∧ (c = openC ∨ c = plusC ∨ c = starC ∨ c = optC ∨ c = dashC) := by
          rcases k with _ | (_ | _ | _ | _ | q)
          · exact absurd rfl hk
          · exact ⟨optC, [], by decide, by decide⟩
          · exact absurd rfl hk
          · exact ⟨plusC, [], by decide, by decide⟩
          · exact ⟨starC, [], by decide, by decide⟩
          · exact ⟨openC, specificBody q ++ [closeC], by simp only [cardText]; exact specificStr_body q, by decide⟩
        exact ⟨c, u ++ specsText s cl, by rw [e]; rfl, hc⟩
    obtain ⟨c, u, e3, hc⟩ := hsuf
    have hstop : Stops ws (cardText k ++ specsText s cl ++ tailText l w) := by
      rw [e3]; simp only [List.cons_append, stops_cons]
      rcases hc with rfl | rfl | rfl | rfl | rfl <;> decide
    have hlet : Stops letter (g ++ (cardText k ++ specsText s cl ++ tailText l w)) := by
      cases g with
      | nil =>
        rw [e3]; simp only [List.nil_append, List.cons_append, stops_cons]
        rcases hc with rfl | rfl | rfl | rfl | rfl <;> decide
      | cons x g =>
        simp only [List.cons_append, stops_cons]
        rcases h2 x List.mem_cons_self with rfl | rfl | rfl | rfl <;> decide
    obtain ⟨m, q1, q2, q3, q4⟩ := y_element (n := 2) (name := reToken) (nm := n) (g := g) (k := k) (specs := s) (close := cl) (v := tailText l w) (rules := rules)
      (y_token h1 hlet) h2 hstop h4.1 h5 h3 (blank_stops hb (by decide))
    refine ⟨m, [], by rw [e1]; simpa using q1, by intro c hc; simp at hc, by rw [e1, q2]; simp, by rw [e2, q3]; rfl, q4⟩

theorem y_item_rule {rules : RuleSet} {n g : Str} {k : Option Card} {l : LineT} {w : Str}
    (h : (Item.rule n g k).Ok rules) (hl : Sep rules l) (hw : Blank w) :
    ∃ m b, Y (reElement 13 reRule) ((Item.rule n g k).text ++ tailText l w) m ∧ Blank b ∧ m.text = (Item.rule n g k).text ++ b ∧
      m.rest = aft (Item.rule n g k).bare l w ∧ look m.caps 13 = n ∧ look m.caps 15 = cardText k := by
  obtain ⟨h1, h2, h4, h5⟩ := h
  have hb := blank_head hl hw
  have hsp : specsText [] [] = [] := rfl
  have hno : ∀ s ∈ ([] : List SpecT), s.Ok rules := by simp
  have hnb : Blank [] := by intro c hc; simp at hc
  by_cases hbare : cardText k = []
  · have e1 : (Item.rule n g k).text = n := by simp only [Item.text]; rw [if_pos hbare]; simp
    have e2 : (Item.rule n g k).bare = true := by simpa [Item.bare] using hbare
    rw [e1, e2]
    have key : ∀ b v, Blank b → Stops ws v → Stops sufStart v → Stops upperU (b ++ v) →
        ∃ m, Y (reElement 13 reRule) (n ++ (b ++ v)) m ∧ m.text = n ++ b ∧ m.rest = v ∧ look m.caps 13 = n ∧ look m.caps 15 = cardText k := by
      intro b v hbl hv1 hv2 hv3
      have := y_element (n := 13) (name := reRule) (nm := n) (g := b) (k := k) (specs := []) (close := []) (v := v) (rules := rules)
        (by rw [hbare, hsp]; exact y_rule h1 hv3) hbl (by rw [hbare, hsp]; exact hv1) h4.1 hno hnb hv2
      rw [hbare, hsp] at this
      obtain ⟨m, q1, q2, q3, q4, q5, _⟩ := this
      exact ⟨m, by simpa using q1, by simpa using q2, q3, q4, by rw [hbare]; exact q5⟩
    cases l with
    | nil =>
      obtain ⟨m, q1, q2, q3, q4⟩ := key w [] hw (by simp) (by simp) (by
        have := blank_stops (p := upperU) hb (by decide)
        simpa [tailText, lineText] using this)
      exact ⟨m, w, by simpa [tailText, lineText] using q1, hw, q2, q3, q4⟩
    | cons x l =>
      obtain ⟨hx1, hx2, hx3⟩ := hl x List.mem_cons_self
      have hs := Item.head_stops hx3 (tailText l w)
      obtain ⟨m, q1, q2, q3, q4⟩ := key x.1 (x.2.text ++ tailText l w) hx1 hs.1 hs.2 (by
        rw [← tailText_cons]; exact blank_stops hb (by decide))
      exact ⟨m, x.1, by rw [tailText_cons]; exact q1, hx1, q2, q3, q4⟩
  · have e1 : (Item.rule n g k).text = n ++ (g ++ cardText k) := by simp only [Item.text]; rw [if_neg hbare]
    have e2 : (Item.rule n g k).bare = false := by simpa [Item.bare] using hbare
    obtain ⟨c, u, e3, hc⟩ : ∃ c u, cardText k = c :: u ∧ (c = openC ∨ c = plusC ∨ c = starC ∨ c = optC ∨ c = dashC) := by
      rcases k with _ | (_ | _ | _ | _ | q)
      · exact absurd rfl hbare
      · exact ⟨optC, [], by decide, by decide⟩
      · exact absurd rfl hbare
      · exact ⟨plusC, [], by decide, by decide⟩
      · exact ⟨starC, [], by decide, by decide⟩
      · exact ⟨openC, specificBody q ++ [closeC], by simp only [cardText]; exact specificStr_body q, by decide⟩
    have hstop : Stops ws (cardText k ++ specsText [] [] ++ tailText l w) := by
      rw [e3]; simp only [List.cons_append, stops_cons]
      rcases hc with rfl | rfl | rfl | rfl | rfl <;> decide
    have hlet : Stops upperU (g ++ (cardText k ++ specsText [] [] ++ tailText l w)) := by
      cases g with
      | nil =>
        rw [e3]; simp only [List.nil_append, List.cons_append, stops_cons]
        rcases hc with rfl | rfl | rfl | rfl | rfl <;> decide
      | cons x g =>
        simp only [List.cons_append, stops_cons]
        rcases h2 x List.mem_cons_self with rfl | rfl | rfl | rfl <;> decide
    obtain ⟨m, q1, q2, q3, q4, q5, _⟩ := y_element (n := 13) (name := reRule) (nm := n) (g := g) (k := k) (specs := []) (close := []) (v := tailText l w) (rules := rules)
      (y_rule h1 hlet) h2 hstop h4.1 hno hnb (blank_stops hb (by decide))
    rw [hsp] at q1 q2
    refine ⟨m, [], by rw [e1]; simpa using q1, by intro c hc; simp at hc, by rw [e1, q2]; simp, by rw [e2, q3]; rfl, q4, q5⟩

/-! ### Instructions of a match -/

/-- The instructions of the three parts of a match. -/
def partToken (rules : RuleSet) (m : M) : Out (List GInstr) :=
  if m.group 1 ≠ [] then do
    let e ← tokenElement rules m
    let i ← ginstrNow false (some e)
    return [i] else .ok []
def partRule (rules : RuleSet) (m : M) : Out (List GInstr) :=
  if m.group 12 ≠ [] then do
    let e ← tokenRuleElement rules m
    let i ← ginstrNow false (some e)
    return [i] else .ok []

theorem instrOf_eq (rules : RuleSet) (m : M) : instrOf rules m = (do
    let a ← (if m.text = [hashC] then .ok [GInstr.channelSwitch] else .ok [])
    let b ← partToken rules m
    let c ← partRule rules m
    return a ++ b ++ c) := by
  unfold instrOf partToken partRule
  by_cases h : m.text = [hashC] <;> simp [h, ginstrNow]

theorem partRule_congr {rules : RuleSet} {m k : M} (h : ∀ n, 12 ≤ n → look m.caps n = look k.caps n) : partRule rules m = partRule rules k := by
  unfold partRule tokenRuleElement buildElement
  simp only [group_eq, h 12 (by omega), h 13 (by omega), h 15 (by omega)]
  rfl

theorem partToken_congr {rules : RuleSet} {m k : M} (h : ∀ n, n ≤ 11 → look m.caps n = look k.caps n) : partToken rules m = partToken rules k := by
  unfold partToken tokenElement buildElement
  simp only [group_eq, h 1 (by omega), h 2 (by omega), h 4 (by omega), h 10 (by omega)]
  rfl

/-- The instructions of the rest of a line. -/
def rd (rules : RuleSet) (a : Bool) (s : Str) : Out (List GInstr) := do
  let l ← mapOut (instrOf rules) (scan reInstr a s)
  return l.flatten

theorem instrOf_empty (rules : RuleSet) (s : Str) : instrOf rules ⟨[], s, []⟩ = .ok [] := by
  simp [instrOf, M.group]

theorem y_instr_empty {s : Str} (h1 : Stops lower s) (h2 : Stops upperU s) (h3 : ∀ x ∈ s.head?, x ≠ hashC) : Y reInstr s ⟨[], s, []⟩ :=
  y_seq (y_opt_none (f_grp (f_seq_left (f_grp (f_token h1))))) (y_seq (y_opt_none (f_grp (f_seq_left (f_grp (f_rule h2)))))
    (y_seq (y_opt_none (f_grp (f_reC h3))) (y_eps s)))

theorem rd_nil (rules : RuleSet) (a : Bool) : rd rules a [] = .ok [] := by
  have h := y_instr_empty (s := []) (by simp) (by simp) (by simp)
  unfold rd
  rw [scan_empty_nil (find_zero h) rfl]
  cases a
  · simp [mapOut, instrOf_empty]
  · simp [mapOut]

theorem rd_skip (rules : RuleSet) (a : Bool) {c : UInt8} (hc : c = 32 ∨ c = 9 ∨ c = 13 ∨ c = 10) (s : Str) : rd rules a (c :: s) = rd rules false s := by
  have h := y_instr_empty (s := c :: s) (by rw [stops_cons]; rcases hc with rfl | rfl | rfl | rfl <;> decide)
    (by rw [stops_cons]; rcases hc with rfl | rfl | rfl | rfl <;> decide) (by intro x hx; simp at hx; subst hx; rcases hc with rfl | rfl | rfl | rfl <;> decide)
  unfold rd
  rw [scan_empty (find_zero h) rfl]
  cases a
  · simp only [Bool.false_eq_true, if_false, List.cons_append, List.nil_append, mapOut, instrOf_empty, Out.bind_ok]
    cases mapOut (instrOf rules) (scan reInstr false s) <;> simp
  · simp

theorem rd_blank (rules : RuleSet) (a : Bool) {w : Str} (hw : Blank w) (hne : w ≠ []) (s : Str) : rd rules a (w ++ s) = rd rules false s := by
  induction w generalizing a with
  | nil => exact absurd rfl hne
  | cons c w ih =>
    rw [List.cons_append, rd_skip rules a (hw c List.mem_cons_self)]
    cases w with
    | nil => rfl
    | cons d w => exact ih false (fun x hx => hw x (List.mem_cons_of_mem _ hx)) (by simp)

theorem rd_hit (rules : RuleSet) (a : Bool) {s : Str} {m : M} {o1 o2 : List GInstr} (hy : Y reInstr s m) (hne : m.text ≠ [])
    (h1 : instrOf rules m = .ok o1) (h2 : rd rules true m.rest = .ok o2) : rd rules a s = .ok (o1 ++ o2) := by
  unfold rd at *
  rw [scan_some (find_zero hy) hne]
  simp only [mapOut, h1, Out.bind_ok]
  cases hm : mapOut (instrOf rules) (scan reInstr true m.rest) with
  | ok l => rw [hm] at h2; simp at h2; simp [h2]
  | err => rw [hm] at h2; simp at h2
  | panic => rw [hm] at h2; simp at h2

end Verif.Text
