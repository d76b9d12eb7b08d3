import Verif.Lemmas.TextRules

/-! Helper lemmas: the entries of a text of rules. -/

namespace Verif.Text
open Verif.Regex Verif.Patterns Verif.Cardinality Verif.Lexer

theorem reRuleEntry_needs : reRuleEntry.needs = true := by decide

theorem y_ruleEntry {name body v : Str} (h1 : RuleName name) (h2 : semiC ∉ body) :
    ∃ m, Y reRuleEntry (name ++ (colonC :: (body ++ (semiC :: v)))) m ∧ m.rest = v ∧ m.text = name ++ [colonC] ++ body ++ [semiC] ∧
      m.group 1 = name ∧ m.group 2 = body := by
  have s1 : Stops upperU (colonC :: (body ++ (semiC :: v))) := by rw [stops_cons]; decide
  have s2 : Stops (noneOf [semiC]) (semiC :: v) := by rw [stops_cons]; simp [noneOf]
  have hall : ∀ x ∈ body, noneOf [semiC] x = true := by
    intro x hx; rw [noneOf_iff]; intro h; simp at h; subst h; exact h2 hx
  have hY := y_seq (y_grp (n := 1) (y_rule h1 s1)) (y_seq (y_reC (c := colonC)) (y_seq (y_grp (n := 2) (y_star hall s2))
    (y_seq (y_reC (c := semiC)) (y_eps v))))
  refine ⟨_, hY, rfl, ?_, ?_, ?_⟩
  · simp
  · simp [group_eq, look_cons]
  · simp [group_eq, look_cons]

theorem f_ruleEntry {s : Str} (h : Stops upperU s) : F reRuleEntry s := by
  refine f_seq_left (f_grp (f_seq_left ?_))
  cases s with
  | nil => exact f_chr_nil
  | cons c s => exact f_chr (by simpa using h)

theorem f_ruleEntry_colon {s : Str} (h : colonC ∉ s) : F reRuleEntry s := by
  refine f_seq (fun m hm => f_seq_left (f_reC ?_))
  have e := run_text hm
  intro x hx hc
  apply h
  rw [← e, ← hc]
  exact List.mem_append_right _ (List.mem_of_mem_head? hx)

theorem scan_rule_blank {w v : Str} (hw : Blank w) (a : Bool) : scan reRuleEntry a (w ++ v) = scan reRuleEntry a v := by
  refine scan_skip_append reRuleEntry_needs (.inr rfl) ?_
  intro u1 u2 h hne
  refine f_ruleEntry ?_
  cases u2 with
  | nil => exact absurd rfl hne
  | cons c u2 =>
    rw [List.cons_append, stops_cons]
    rcases hw c (by rw [← h]; simp) with rfl | rfl | rfl | rfl <;> decide

/-- Without a colon there is no rule. -/
theorem scan_rule_colon {w : Str} (hw : colonC ∉ w) (a : Bool) : scan reRuleEntry a w = [] := by
  refine scan_none (find_none ?_)
  intro u v huv
  refine f_ruleEntry_colon (fun hm => hw ?_)
  rw [← huv]; simp [hm]

/-- A rule with an arbitrary body. -/
structure RawRule where
  pre : Str
  name : Str
  body : Str

def RawRule.code (r : RawRule) : Str := r.name ++ [colonC] ++ r.body ++ [semiC]
def RawRule.text (r : RawRule) : Str := r.pre ++ r.code
def RawRule.Ok (r : RawRule) : Prop := Blank r.pre ∧ RuleName r.name ∧ semiC ∉ r.body
def rawText (l : List RawRule) : Str := (l.map RawRule.text).flatten

/-- What is read for a rule. -/
def RawRule.read (ps : PatternSet) (r : RawRule) : Out Rule := do
  let x ← ruleElement r.body ps
  ruleNow r.name r.code (some x.1) x.2

theorem rules_scan {ps : PatternSet} {l : List RawRule} {w : Str} (h : ∀ r ∈ l, r.Ok) (hw : colonC ∉ w) (a : Bool) :
    mapOut (ruleOf ps) (scan reRuleEntry a (rawText l ++ w)) = mapOut (RawRule.read ps) l := by
  induction l generalizing a with
  | nil => simp [rawText, scan_rule_colon hw, mapOut]
  | cons r l ih =>
    obtain ⟨h1, h2, h3⟩ := h r List.mem_cons_self
    obtain ⟨m, m1, m2, m3, m4, m5⟩ := y_ruleEntry (v := rawText l ++ w) h2 h3
    have e : rawText (r :: l) ++ w = r.pre ++ (r.name ++ (colonC :: (r.body ++ (semiC :: (rawText l ++ w))))) := by
      simp [rawText, RawRule.text, RawRule.code]
    have ht : trimSpace r.name = r.name := by
      have hv : ∀ c ∈ r.name, Visible c := by
        intro c hc
        rcases h2.2 c hc with h | rfl
        · unfold UpperLetter at h; unfold Visible; omega
        · simp [Visible]
      simpa using trimSpace_pad (a := []) (b := []) (t := r.name) (by intro c hc; simp at hc) (by intro c hc; simp at hc)
        (fun c hc => hv c (List.mem_of_mem_head? hc)) (fun c hc => hv c (List.mem_of_mem_getLast? hc))
    rw [e, scan_rule_blank h1, scan_hit reRuleEntry_needs m1, m2]
    simp only [mapOut]
    rw [ih (fun x hx => h x (List.mem_cons_of_mem _ hx))]
    congr 1
    unfold ruleOf RawRule.read
    rw [m3, m4, m5, ht]
    rfl

theorem toRules_raw {ps : PatternSet} {l : List RawRule} {w : Str} (h : ∀ r ∈ l, r.Ok) (hw : colonC ∉ w) :
    toRules (rawText l ++ w) ps = (do let x ← mapOut (RawRule.read ps) l; rulesNow x) := by
  unfold toRules
  rw [findAll_eq, rules_scan h hw]

/-! ### Bodies which can be written -/

theorem cardText_chars (card : Card) : ∀ c ∈ cardText (some card), c = openC ∨ c = closeC ∨ c = commaC ∨ c = plusC ∨ c = starC ∨ c = optC ∨ (48 ≤ c.toNat ∧ c.toNat ≤ 57) := by
  intro c hc
  cases card with
  | mandatory => simp [cardText] at hc
  | optional => rw [show cardText (some .optional) = [optC] by decide] at hc; simp at hc; tauto
  | nonZeroMultiple => rw [show cardText (some .nonZeroMultiple) = [plusC] by decide] at hc; simp at hc; tauto
  | zeroMultiple => rw [show cardText (some .zeroMultiple) = [starC] by decide] at hc; simp at hc; tauto
  | specific q =>
    simp only [cardText] at hc
    rw [specificStr_body] at hc
    simp only [List.mem_cons, List.mem_append, List.not_mem_nil, or_false] at hc
    rcases hc with hc | hc | hc
    · tauto
    · have := body_chars q c hc; tauto
    · tauto

theorem escape_semi {c : Str} (h : 59 ∉ c) : 59 ∉ escape c := by
  induction c with
  | nil => simp [escape]
  | cons d c ih =>
    simp only [List.mem_cons, not_or] at h
    simp only [escape, List.mem_append, not_or]
    refine ⟨?_, ih h.2⟩
    split
    · simp
    · simpa using h.1

theorem body_semi {ps : PatternSet} {b : BodyT} (h : b.Ok ps) : semiC ∉ b.text := by
  cases b with
  | constant pre c post =>
    obtain ⟨h1, h2, h3, h4, h5⟩ := h
    intro hm
    simp only [BodyT.text, List.mem_append] at hm
    rcases hm with (((hm | hm) | hm) | hm) | hm
    · exact blank_free h1 (by decide) hm
    · revert hm; decide
    · exact escape_semi h3 hm
    · revert hm; decide
    · exact blank_free h2 (by decide) hm
  | pattern pre inner names gap card post =>
    obtain ⟨h1, h2, h3, h4, h5, h6, h7⟩ := h
    intro hm
    simp only [BodyT.text, List.mem_append] at hm
    rcases hm with (hm | (((((hm | hm) | hm) | hm) | hm) | hm)) | hm
    · exact blank_free h1 (by decide) hm
    · revert hm; decide
    · exact blank_free h2 (by decide) hm
    · have := words_chars (fun n hn => (h6 n hn).1) _ hm
      simp [LowerLetter, semiC] at this
    · revert hm; decide
    · exact blank_free h3 (by decide) hm
    · have := cardText_chars card _ hm
      simp [openC, closeC, commaC, plusC, starC, optC, semiC] at this
    · exact blank_free h4 (by decide) hm

def RuleT.raw (r : RuleT) : RawRule := ⟨r.pre, r.name, r.body.text⟩

theorem raw_text (l : List RuleT) : rulesText l = rawText (l.map RuleT.raw) := by
  have e : RuleT.text = RawRule.text ∘ RuleT.raw := by
    funext r
    simp [RuleT.text, RuleT.code, RuleT.raw, RawRule.text, RawRule.code, show lit ":" = [colonC] by decide, show lit ";" = [semiC] by decide]
  simp only [rulesText, rawText, List.map_map, e]

theorem raw_ok {ps : PatternSet} {r : RuleT} (h : r.Ok ps) : r.raw.Ok := ⟨h.1, h.2.1, body_semi h.2.2⟩

theorem rule_read {ps : PatternSet} {r : RuleT} (h : r.Ok ps) : ∃ g, r.raw.read ps = .ok g ∧ RuleShows ps r g := by
  have key : ∃ c, ruleElement r.body.text ps = .ok (c, r.body.code) ∧ BodyShows ps r.body c := by
    obtain ⟨_, _, hb⟩ := h
    cases hbody : r.body with
    | constant pre c post => rw [hbody] at hb; exact ⟨.constant c, body_constant hb, rfl⟩
    | pattern pre inner names gap card post => rw [hbody] at hb; exact body_pattern hb
  obtain ⟨c, h1, h2⟩ := key
  have hne : r.body.code ≠ [] := by
    cases hbody : r.body with
    | constant pre c post => simp [BodyT.code, show lit "\"" = [quoteC] by decide]
    | pattern pre inner names gap card post => simp [BodyT.code, BodyT.text, show lit "[" = [openSq] by decide]
  have hcode : r.raw.code = r.code := by
    simp [RuleT.code, RuleT.raw, RawRule.code, show lit ":" = [colonC] by decide, show lit ";" = [semiC] by decide]
  refine ⟨⟨r.name, r.code, c, r.body.code⟩, ?_, rfl, rfl, h2, rfl⟩
  unfold RawRule.read
  show (do let x ← ruleElement r.body.text ps; ruleNow r.name r.raw.code (some x.1) x.2) = _
  rw [h1, hcode]
  simp only [Out.bind_ok, ruleNow, if_neg hne, if_neg h.2.1.1]
  rw [if_neg (by simp [RuleT.code, show lit ":" = [colonC] by decide])]

theorem rules_read {ps : PatternSet} {l : List RuleT} (h : ∀ r ∈ l, r.Ok ps) :
    ∃ gs, mapOut (RawRule.read ps) (l.map RuleT.raw) = .ok gs ∧ List.Forall₂ (RuleShows ps) l gs := by
  induction l with
  | nil => exact ⟨[], rfl, .nil⟩
  | cons r l ih =>
    obtain ⟨g, h1, h2⟩ := rule_read (h r List.mem_cons_self)
    obtain ⟨gs, h3, h4⟩ := ih (fun x hx => h x (List.mem_cons_of_mem _ hx))
    refine ⟨g :: gs, ?_, .cons h2 h4⟩
    simp only [List.map_cons, mapOut, h1, h3, Out.bind_ok]
    rfl

end Verif.Text
