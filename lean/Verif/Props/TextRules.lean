import Verif.Lemmas.TextRules2
import Verif.Lemmas.TextPanic
import Verif.Props.Containers

/-!
# Properties C86–C87: the texts of the rules of a grammar
-/

namespace Verif.Text
open Verif.Regex Verif.Patterns Verif.Cardinality Verif.Lexer

/-- C86: the text of rules is read as it is written, whatever the blanks in it: the rules in their order with their names, codes and constants (a
quote is written with a backslash in front of it) or patterns with their cardinality. Without rules, or if a name occurs twice, an error is
returned. -/
theorem C86_rules_read (ps : PatternSet) (l : List RuleT) (w : Str) (h : ∀ r ∈ l, r.Ok ps) (hw : Blank w) :
    (l ≠ [] ∧ (l.map RuleT.name).Nodup → ∃ set, toRules (rulesText l ++ w) ps = .ok set ∧
      List.Forall₂ (RuleShows ps) l set.list ∧ ∀ g ∈ set.list, set.find g.name = .ok g) ∧
    (¬ (l ≠ [] ∧ (l.map RuleT.name).Nodup) → toRules (rulesText l ++ w) ps = .err) := by
  obtain ⟨gs, h1, h2⟩ := rules_read h
  have hnames : gs.map Rule.name = l.map RuleT.name := by
    clear h h1
    induction h2 with
    | nil => rfl
    | cons hx _ ih => simp [hx.1, ih]
  have hnil : gs = [] ↔ l = [] := by
    constructor
    · rintro rfl; cases h2; rfl
    · rintro rfl; cases h2; rfl
  have e : toRules (rulesText l ++ w) ps = rulesNow gs := by
    rw [raw_text, toRules_raw (by
      intro r hr
      obtain ⟨x, hx, rfl⟩ := List.mem_map.1 hr
      exact raw_ok (h x hx)) (blank_free hw (by decide)), h1]
    rfl
  have hiff := C38_unique_iff (name := Rule.name) gs
  rw [e]
  constructor
  · rintro ⟨q1, q2⟩
    obtain ⟨c, hc⟩ := hiff.1.2 ⟨fun hh => q1 (hnil.1 hh), by rw [hnames]; exact q2⟩
    obtain ⟨r1, r2, _⟩ := C38_unique_find gs c hc
    refine ⟨c, hc, by rw [r1]; exact h2, ?_⟩
    intro g hg
    rw [r1] at hg
    exact (r2 g.name g).2 ⟨hg, rfl⟩
  · intro hn
    have : ¬ ∃ c, uniqueNow Rule.name gs = .ok c := by
      rw [hiff.1, hnames]
      intro hh
      exact hn ⟨fun hh' => hh.1 (hnil.2 hh'), hh.2⟩
    show uniqueNow Rule.name gs = .err
    cases hu : uniqueNow Rule.name gs with
    | ok c => exact absurd ⟨c, hu⟩ this
    | err => rfl
    | panic => exact absurd hu hiff.2

/-- A grammar to show that the theorem is about something. -/
def exPattern : Pattern := ⟨lit "digits", [⟨⟨lit "D", [⟨lit "$D", [lit "0", lit "1"]⟩]⟩, false⟩]⟩
def exPatterns : PatternSet := ⟨[exPattern], GoMap.empty.set (lit "digits") exPattern⟩
def exRuleTexts : List RuleT :=
  [⟨lit "\n", lit "QUOTE", .constant (lit " ") (lit "say \"hi\"") (lit " ")⟩,
   ⟨lit " ", lit "NUM", .pattern [] (lit " ") [lit "digits", lit "digits"] [] .nonZeroMultiple (lit " ")⟩]

theorem exRules_text : rulesText exRuleTexts = lit "\nQUOTE: \"say \\\"hi\\\"\" ; NUM:[ digits digits]+ ;" := by decide

theorem exRules_ok : ∀ r ∈ exRuleTexts, r.Ok exPatterns := by
  have hb : ∀ w ∈ [lit "", lit " ", lit "\n"], Blank w := by unfold Blank; decide
  have hd : PatternName (lit "digits") ∧ ∃ p, exPatterns.find (lit "digits") = .ok p :=
    ⟨⟨100, lit "igits", by decide, by unfold LowerLetter; decide, by unfold LowerLetter; decide⟩, exPattern, by rfl⟩
  intro r hr
  simp only [exRuleTexts, List.mem_cons, List.not_mem_nil, or_false] at hr
  rcases hr with rfl | rfl
  · exact ⟨hb _ (by simp), ⟨by decide, by unfold UpperLetter; decide⟩, hb _ (by simp), hb _ (by simp), by decide, by decide, by decide⟩
  · refine ⟨hb _ (by simp), ⟨by decide, by unfold UpperLetter; decide⟩, hb [] (by decide), hb _ (by simp), hb [] (by decide), hb _ (by simp),
      by simp, ?_, by simp, ?_⟩
    · intro n hn
      simp only [List.mem_cons, List.not_mem_nil, or_false, or_self] at hn
      rw [hn]; exact hd
    · intro c hc
      obtain rfl : Card.nonZeroMultiple = c := by simpa using hc
      trivial

example : ∃ set, toRules (rulesText exRuleTexts ++ []) exPatterns = .ok set ∧ List.Forall₂ (RuleShows exPatterns) exRuleTexts set.list := by
  obtain ⟨set, h1, h2, _⟩ := (C86_rules_read exPatterns exRuleTexts [] exRules_ok (by intro c hc; simp at hc)).1 ⟨by simp [exRuleTexts], by decide⟩
  exact ⟨set, h1, h2⟩

/-- One rule. -/
theorem toRules_one {ps : PatternSet} {name body w : Str} (h1 : RuleName name) (h2 : semiC ∉ body) (hw : colonC ∉ w) :
    toRules (name ++ lit ":" ++ body ++ lit ";" ++ w) ps = (do let x ← RawRule.read ps ⟨[], name, body⟩; rulesNow [x]) := by
  have := toRules_raw (ps := ps) (l := [⟨[], name, body⟩]) (w := w) (by
    intro r hr
    simp only [List.mem_singleton] at hr; subst hr
    exact ⟨by intro c hc; simp at hc, h1, h2⟩) hw
  simp only [rawText, RawRule.text, RawRule.code, List.map_cons, List.map_nil, List.flatten_cons, List.flatten_nil, List.nil_append, List.append_nil] at this
  rw [show lit ":" = [colonC] by decide, show lit ";" = [semiC] by decide, this]
  simp only [mapOut]
  cases RawRule.read ps ⟨[], name, body⟩ <;> rfl

/-- C87 (violation): the constant of a rule should be the text between the quotes, but `###` in it is read as a quote. -/
theorem C87_hashes_violation (ps : PatternSet) (name u v : Str) (hn : RuleName name) (hu : ∀ c ∈ u, c ≠ 34 ∧ c ≠ 35 ∧ c ≠ 59 ∧ c ≠ 92)
    (hv : ∀ c ∈ v, c ≠ 34 ∧ c ≠ 35 ∧ c ≠ 59 ∧ c ≠ 92) :
    ∃ set g, toRules (name ++ lit ":" ++ (lit "\"" ++ u ++ lit "###" ++ v ++ lit "\"") ++ lit ";") ps = .ok set ∧ set.list = [g] ∧
      g.name = name ∧ g.content = .constant (u ++ lit "\"" ++ v) := by
  have hq : lit "\"" = [quoteC] := by decide
  have hh : lit "###" = hashes := by decide
  have free : ∀ d : UInt8, (d = 92 ∨ d = 59) → d ∉ lit "\"" ++ u ++ lit "###" ++ v ++ lit "\"" := by
    intro d hd hm
    simp only [hq, hh, List.mem_append, List.mem_singleton] at hm
    rcases hm with (((hm | hm) | hm) | hm) | hm
    · rcases hd with rfl | rfl <;> revert hm <;> decide
    · have := hu d hm; rcases hd with rfl | rfl <;> simp at this
    · rcases hd with rfl | rfl <;> revert hm <;> decide
    · have := hv d hm; rcases hd with rfl | rfl <;> simp at this
    · rcases hd with rfl | rfl <;> revert hm <;> decide
  have hk : 34 ∉ u ++ hashes ++ v := by
    intro hm
    simp only [List.mem_append] at hm
    rcases hm with (hm | hm) | hm
    · exact (hu _ hm).1 rfl
    · revert hm; decide
    · exact (hv _ hm).1 rfl
  have hrep : replaceAll hashC [hashC, hashC] [quoteC] (u ++ hashes ++ v) = u ++ [quoteC] ++ v := by
    have := replaceAll_joined (c := hashC) (ds := [hashC, hashC]) (new := [quoteC]) (ps := [u, v]) (by simp) (by
      intro x hx
      refine count_infix (d := hashC) (n := 3) (k := 2) (fun hm => ?_) (by omega)
      simp only [List.mem_cons, List.not_mem_nil, or_false] at hx
      rcases hx with rfl | rfl
      · exact (hu _ hm).2.1 rfl
      · exact (hv _ hm).2.1 rfl)
    simpa [joined, hashes] using this
  have hel := element_quoted (ps := ps) (pre := []) (k := u ++ hashes ++ v) (post := []) (content := lit "\"" ++ u ++ lit "###" ++ v ++ lit "\"")
    (by intro c hc; simp at hc) hk (by rw [replaceAll_none (c := backslashC) (free 92 (.inl rfl)), hq, hh]; simp)
  simp only [List.nil_append] at hel
  rw [hrep] at hel
  -- the code is not empty
  generalize hcode : replaceAll hashC [hashC, hashC] [quoteC] ([quoteC] ++ (u ++ hashes ++ v) ++ [quoteC]) = code at hel
  have hcne : code ≠ [] := by
    intro h0
    rw [h0] at hcode
    unfold replaceAll at hcode
    have h3 : [quoteC] ++ (u ++ hashes ++ v) ++ [quoteC] = joined [hashC, hashC, hashC] [[quoteC] ++ u, v ++ [quoteC]] := by
      simp [joined, hashes]
    rw [h3, split_joined (c := hashC) (ds := [hashC, hashC]) (by simp)] at hcode
    · simp at hcode
    · intro x hx
      refine count_infix (d := hashC) (n := 3) (k := 2) (fun hm => ?_) (by omega)
      simp only [List.mem_cons, List.not_mem_nil, or_false] at hx
      rcases hx with rfl | rfl
      · rcases List.mem_append.1 hm with hm | hm
        · revert hm; decide
        · exact (hu _ hm).2.1 rfl
      · rcases List.mem_append.1 hm with hm | hm
        · exact (hv _ hm).2.1 rfl
        · revert hm; decide
  rw [if_neg hcne] at hel
  have hone := toRules_one (ps := ps) (w := []) hn (free 59 (.inr rfl)) (by simp)
  rw [List.append_nil] at hone
  rw [hone]
  have hread : RawRule.read ps ⟨[], name, lit "\"" ++ u ++ lit "###" ++ v ++ lit "\""⟩ =
      .ok ⟨name, RawRule.code ⟨[], name, lit "\"" ++ u ++ lit "###" ++ v ++ lit "\""⟩, .constant (u ++ [quoteC] ++ v), code⟩ := by
    unfold RawRule.read
    rw [hel]
    simp only [Out.bind_ok, ruleNow, if_neg hcne, if_neg hn.1]
    rw [if_neg (by simp [RawRule.code])]
  rw [hread]
  exact ⟨_, _, rfl, rfl, rfl, by rw [hq]⟩

example : ∃ set g, toRules (lit "A:\"x###y\";") exPatterns = .ok set ∧ set.list = [g] ∧ g.content = .constant (lit "x\"y") := by
  obtain ⟨set, g, h1, h2, _, h3⟩ := C87_hashes_violation exPatterns (lit "A") (lit "x") (lit "y") ⟨by decide, by unfold UpperLetter; decide⟩ (by decide) (by decide)
  exact ⟨set, g, h1, h2, h3⟩

/-- C87 (violation): a constant with a semicolon is read as the empty constant (if there are blanks in front of it), or the rule is rejected. -/
theorem C87_semicolon_violation (ps : PatternSet) (name pre u v : Str) (hn : RuleName name) (hpre : Blank pre)
    (hu : ∀ c ∈ u, c ≠ 34 ∧ c ≠ 59 ∧ c ≠ 92) (hv : 58 ∉ v) :
    (pre ≠ [] → ∃ set g, toRules (name ++ lit ":" ++ (pre ++ lit "\"" ++ u) ++ lit ";" ++ (v ++ lit "\";")) ps = .ok set ∧ set.list = [g] ∧
      g.name = name ∧ g.content = .constant []) ∧
    (pre = [] → toRules (name ++ lit ":" ++ (pre ++ lit "\"" ++ u) ++ lit ";" ++ (v ++ lit "\";")) ps = .err) := by
  have hq : lit "\"" = [quoteC] := by decide
  have free : ∀ d : UInt8, (d = 92 ∨ d = 59) → d ∉ pre ++ lit "\"" ++ u := by
    intro d hd hm
    simp only [hq, List.mem_append, List.mem_singleton] at hm
    rcases hm with (hm | hm) | hm
    · exact blank_free hpre (by rcases hd with rfl | rfl <;> decide) hm
    · rcases hd with rfl | rfl <;> revert hm <;> decide
    · have := hu d hm; rcases hd with rfl | rfl <;> simp at this
  have hw : colonC ∉ v ++ lit "\";" := by
    intro hm
    rcases List.mem_append.1 hm with hm | hm
    · exact hv hm
    · revert hm; decide
  have hone := toRules_one (ps := ps) (w := v ++ lit "\";") hn (free 59 (.inr rfl)) hw
  rw [hone]
  have hfail : F (.all [reC quoteC, .grp 3 (.star (noneOf [quoteC])), reC quoteC]) (quoteC :: u) := by
    refine f_seq (fun m hm => f_seq (fun k hk => f_seq_left (f_reC ?_)))
    have e1 := run_text hm
    have e2 := run_text hk
    have e1' : m.text ++ (k.text ++ k.rest) = quoteC :: u := by rw [e2, e1]
    have hmt : m.text ≠ [] := needs_ne (r := reC quoteC) rfl hm
    intro x hx hxq
    subst hxq
    have : quoteC ∈ u := by
      cases ht : m.text with
      | nil => exact absurd ht hmt
      | cons y t =>
        rw [ht] at e1'
        simp only [List.cons_append, List.cons.injEq] at e1'
        rw [← e1'.2]
        simp [List.mem_of_mem_head? hx]
    exact (hu _ this).1 rfl
  have hY := y_seq (y_opt_some (y_grp (n := 1) (y_star (p := noneOf [quoteC]) (u := pre) (v := quoteC :: u)
      (noQuote (blank_free hpre (by decide))) (by simp [noneOf]))))
    (y_seq (y_opt_none (f_grp (n := 2) hfail)) (y_eps (quoteC :: u)))
  have hf : find reRuleElement (pre ++ quoteC :: u) = _ := find_zero hY
  have ht : trimSpace pre = [] := by simpa using trimSpace_pad (a := pre) (t := []) (b := []) hpre (by intro c hc; simp at hc) (by simp) (by simp)
  have hh : replaceAll hashC [hashC, hashC] [quoteC] pre = pre := replaceAll_none (blank_free hpre (by decide))
  have h0 : replaceAll hashC [hashC, hashC] [quoteC] [] = [] := replaceAll_none (by simp)
  have hel : ruleElement (pre ++ lit "\"" ++ u) ps = if pre = [] then .err else .ok (.constant [], pre) := by
    unfold ruleElement
    simp only
    rw [replaceAll_none (c := backslashC) (free 92 (.inl rfl)), hq, show pre ++ [quoteC] ++ u = pre ++ quoteC :: u by simp, hf]
    simp [group_eq, look_cons, ht, hh, h0]
  constructor
  · intro hne
    rw [if_neg hne] at hel
    have hread : RawRule.read ps ⟨[], name, pre ++ lit "\"" ++ u⟩ =
        .ok ⟨name, RawRule.code ⟨[], name, pre ++ lit "\"" ++ u⟩, .constant [], pre⟩ := by
      unfold RawRule.read
      rw [hel]
      simp only [Out.bind_ok, ruleNow, if_neg hne, if_neg hn.1]
      rw [if_neg (by simp [RawRule.code])]
    rw [hread]
    exact ⟨_, _, rfl, rfl, rfl, rfl⟩
  · intro he
    rw [if_pos he] at hel
    unfold RawRule.read
    rw [hel]
    rfl

example : ∃ set g, toRules (lit "A: \"x;y\";") exPatterns = .ok set ∧ set.list = [g] ∧ g.content = .constant [] := by
  obtain ⟨set, g, h1, h2, _, h3⟩ := (C87_semicolon_violation exPatterns (lit "A") (lit " ") (lit "x") (lit "y") ⟨by decide, by unfold UpperLetter; decide⟩
    (by unfold Blank; decide) (by decide) (by decide)).1 (by decide)
  exact ⟨set, g, h1, h2, h3⟩

/-- C87 (violation): a rule whose body has neither brackets nor quotes should be rejected, but reading it panics. -/
theorem C87_panic_violation (ps : PatternSet) (name a t b : Str) (hn : RuleName name) (ha : Blank a) (hb : Blank b) (hne : t ≠ [])
    (ht : ∀ c ∈ t, 33 ≤ c.toNat ∧ c.toNat ≤ 126 ∧ c ≠ 34 ∧ c ≠ 59 ∧ c ≠ 91 ∧ c ≠ 92) :
    toRules (name ++ lit ":" ++ (a ++ t ++ b) ++ lit ";") ps = .panic := by
  have free : ∀ d : UInt8, (d = 92 ∨ d = 59 ∨ d = 34) → d ∉ a ++ t ++ b := by
    intro d hd hm
    have hd' : d ≠ 32 ∧ d ≠ 9 ∧ d ≠ 13 ∧ d ≠ 10 := by rcases hd with rfl | rfl | rfl <;> decide
    simp only [List.mem_append] at hm
    rcases hm with (hm | hm) | hm
    · exact blank_free ha hd' hm
    · have := ht d hm; rcases hd with rfl | rfl | rfl <;> simp at this
    · exact blank_free hb hd' hm
  have hone := toRules_one (ps := ps) (w := []) hn (free 59 (.inr (.inl rfl))) (by simp)
  rw [List.append_nil] at hone
  rw [hone]
  have hY := y_seq (y_opt_some (y_grp (n := 1) (y_star (p := noneOf [quoteC]) (u := a ++ t ++ b) (v := [])
      (noQuote (free 34 (.inr (.inr rfl)))) (by simp))))
    (y_seq (y_opt_none (f_grp (n := 2) (f_seq_left (f_reC (c := quoteC) (by simp)) : F (.all [reC quoteC, .grp 3 (.star (noneOf [quoteC])), reC quoteC]) []))) (y_eps []))
  have hf := find_zero hY
  rw [List.append_nil] at hf
  have hf' : find reRuleElement (a ++ t ++ b) = _ := hf
  have htrim : trimSpace (a ++ t ++ b) = t := trimSpace_pad ha hb
    (fun c hc => ⟨(ht c (List.mem_of_mem_head? hc)).1, (ht c (List.mem_of_mem_head? hc)).2.1⟩)
    (fun c hc => ⟨(ht c (List.mem_of_mem_getLast? hc)).1, (ht c (List.mem_of_mem_getLast? hc)).2.1⟩)
  have hnone : find reRulePattern t = none := by
    refine find_none ?_
    intro u v huv
    refine f_seq_left (f_reC ?_)
    intro x hx hxe
    have := ht x (by rw [← huv]; simp [List.mem_of_mem_head? hx])
    exact this.2.2.2.2.1 hxe
  have hpan : rulePattern t ps = .panic := by unfold rulePattern; rw [hnone]
  have hel : ruleElement (a ++ t ++ b) ps = .panic := by
    unfold ruleElement
    simp only
    rw [replaceAll_none (c := backslashC) (free 92 (.inl rfl)), hf']
    simp only [M.group, List.find?_cons, decide_true, Option.map_some, Option.getD_some, List.cons_append]
    rw [htrim, if_pos hne, hpan]
    rfl
  unfold RawRule.read
  rw [hel]
  rfl

example : toRules (lit "A: b ;") exPatterns = .panic :=
  C87_panic_violation exPatterns (lit "A") (lit " ") (lit "b") (lit " ") ⟨by decide, by unfold UpperLetter; decide⟩ (by unfold Blank; decide) (by unfold Blank; decide)
    (by decide) (by decide)

end Verif.Text
