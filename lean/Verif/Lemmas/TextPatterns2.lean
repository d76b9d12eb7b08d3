import Verif.Lemmas.TextPatterns

/-! Helper lemmas: scanning a text of patterns for series and patterns. -/

namespace Verif.Text
open Verif.Regex Verif.Patterns Verif.Cardinality Verif.Lexer

theorem l_colon : lit ":" = [colonC] := by decide
theorem l_semi : lit ";" = [semiC] := by decide
theorem l_quote : lit "\"" = [quoteC] := by decide
theorem l_at : lit "@" = [atC] := by decide
theorem l_comma : lit "," = [commaC] := by decide

theorem scan_flag {r : Re} (hn : r.needs = true) (s : Str) (a a' : Bool) : scan r a s = scan r a' s := by
  cases hf : find r s with
  | none => rw [scan_none hf, scan_none hf]
  | some x =>
    obtain ⟨i, m⟩ := x
    obtain ⟨u, v, _, _, h3⟩ := find_some hf
    have := needs_ne hn h3
    rw [scan_some hf this, scan_some hf this]

/-! ### Letters -/

theorem upper_first {c : UInt8} (h : UpperLetter c ∨ c = 95) : lower c = false ∧ isDollar c = false ∧ c ≠ 58 ∧ c ≠ 59 ∧ c ≠ 36 ∧ c ≠ 34 ∧ c ≠ 92 ∧ c ≠ 64 := by
  have hl : lower c = false := by
    cases hl : lower c with
    | false => rfl
    | true =>
      have := lower_iff.1 hl
      rcases h with h | rfl
      · unfold UpperLetter at h; unfold LowerLetter at this; omega
      · simp [LowerLetter] at this
  have hne : ∀ d : UInt8, (d = 58 ∨ d = 59 ∨ d = 36 ∨ d = 34 ∨ d = 92 ∨ d = 64) → c ≠ d := by
    rintro d hd rfl
    rcases h with h | rfl
    · rcases hd with rfl | rfl | rfl | rfl | rfl | rfl <;> simp [UpperLetter] at h
    · rcases hd with h | h | h | h | h | h <;> simp at h
  refine ⟨hl, ?_, hne _ (by simp), hne _ (by simp), hne _ (by simp), hne _ (by simp), hne _ (by simp), hne _ (by simp)⟩
  simp [isDollar, dollarC, hne 36 (by simp)]

theorem lower_firstU {c : UInt8} (h : LowerLetter c ∨ c = 95) : upper c = false ∧ isDollar c = false ∧ c ≠ 58 ∧ c ≠ 59 ∧ c ≠ 36 ∧ c ≠ 34 ∧ c ≠ 92 := by
  have hl : upper c = false := by
    cases hl : upper c with
    | false => rfl
    | true =>
      have := upper_iff.1 hl
      rcases h with h | rfl
      · unfold LowerLetter at h; unfold UpperLetter at this; omega
      · simp [UpperLetter] at this
  have hne : ∀ d : UInt8, (d = 58 ∨ d = 59 ∨ d = 36 ∨ d = 34 ∨ d = 92) → c ≠ d := by
    rintro d hd rfl
    rcases h with h | rfl
    · rcases hd with rfl | rfl | rfl | rfl | rfl <;> simp [LowerLetter] at h
    · rcases hd with h | h | h | h | h <;> simp at h
  refine ⟨hl, ?_, hne _ (by simp), hne _ (by simp), hne _ (by simp), hne _ (by simp), hne _ (by simp)⟩
  simp [isDollar, dollarC, hne 36 (by simp)]

theorem serieName_chars {n : Str} (h : SerieName n) : ∀ c ∈ n, UpperLetter c ∨ c = 95 := by
  obtain ⟨c, u, rfl, hc, hu⟩ := h
  intro d hd
  rcases List.mem_cons.1 hd with rfl | hd
  · exact .inl hc
  · exact hu d hd

theorem groupName_chars {n : Str} (h : GroupName n) : ∀ c ∈ n, c = 36 ∨ UpperLetter c ∨ c = 95 := by
  obtain ⟨u, rfl, _, hu⟩ := h
  intro d hd
  rcases List.mem_cons.1 hd with rfl | hd
  · exact .inl rfl
  · exact .inr (hu d hd)

theorem patternName_chars {n : Str} (h : PatternName n) : ∀ c ∈ n, LowerLetter c ∨ c = 95 := by
  obtain ⟨c, u, rfl, hc, hu⟩ := h
  intro d hd
  rcases List.mem_cons.1 hd with rfl | hd
  · exact .inl hc
  · exact hu d hd

theorem serie_body_chars {s : SerieT} (h : s.Ok) : ∀ c ∈ s.body, c = 36 ∨ UpperLetter c ∨ c = 95 ∨ c = 32 ∨ c = 9 ∨ c = 13 ∨ c = 10 := by
  obtain ⟨_, _, _, _, h5, h6⟩ := h
  intro c hc
  simp only [SerieT.body, List.mem_append, List.mem_flatten, List.mem_map] at hc
  rcases hc with ⟨t, ⟨r, hr, rfl⟩, hc⟩ | hc
  · rcases List.mem_append.1 hc with hc | hc
    · have := (h5 r hr).1 c hc; tauto
    · have := groupName_chars (h5 r hr).2 c hc; tauto
  · have := h6 c hc; tauto

theorem pattern_body_chars {p : PatternT} (h : p.Ok) : ∀ c ∈ p.body, c = 64 ∨ UpperLetter c ∨ c = 95 ∨ c = 32 ∨ c = 9 ∨ c = 13 ∨ c = 10 := by
  obtain ⟨_, _, _, _, h5, _, h6⟩ := h
  intro c hc
  simp only [PatternT.body, List.mem_append, List.mem_flatten, List.mem_map] at hc
  rcases hc with ⟨t, ⟨r, hr, rfl⟩, hc⟩ | hc
  · simp only [ChoiceT.text, List.mem_append] at hc
    rcases hc with (hc | hc) | hc
    · have := (h5 r hr).1 c hc; tauto
    · split at hc
      · rw [l_at] at hc; simp [atC] at hc; tauto
      · simp at hc
    · have := serieName_chars (h5 r hr).2 c hc; tauto
  · have := h6 c hc; tauto

theorem body_free {d : UInt8} (hd : d = 58 ∨ d = 59 ∨ d = 34 ∨ d = 92) {s : Str}
    (h : ∀ c ∈ s, c = 36 ∨ c = 64 ∨ UpperLetter c ∨ c = 95 ∨ c = 32 ∨ c = 9 ∨ c = 13 ∨ c = 10) : d ∉ s := by
  intro hm
  have := h d hm
  rcases hd with rfl | rfl | rfl | rfl <;> simp [UpperLetter] at this

theorem serie_free {d : UInt8} (hd : d = 58 ∨ d = 59 ∨ d = 34 ∨ d = 92) {s : SerieT} (h : s.Ok) : d ∉ s.body :=
  body_free hd (fun c hc => by have := serie_body_chars h c hc; tauto)
theorem pattern_free {d : UInt8} (hd : d = 58 ∨ d = 59 ∨ d = 34 ∨ d = 92) {p : PatternT} (h : p.Ok) : d ∉ p.body :=
  body_free hd (fun c hc => by have := pattern_body_chars h c hc; tauto)

/-! ### Entries in which a regular expression finds nothing -/

/-- A text `head : body ;` without beginnings of names in the head and without colons in the body. -/
theorem quiet_entry {first rest : Cls} {head body : Str} (h1 : ∀ c ∈ head, first c = false) (h2 : first colonC = false) (h3 : 58 ∉ body) :
    quiet first rest .off (head ++ [colonC] ++ body ++ [semiC]) = true := by
  rw [List.append_assoc, quiet_append]
  have hh : ∀ c ∈ head ++ [colonC], first c = false := by
    intro c hc
    rcases List.mem_append.1 hc with hc | hc
    · exact h1 c hc
    · simp at hc; subst hc; exact h2
  rw [quiet_nofirst hh, run_nofirst hh, quiet_nocolon]
  · rfl
  · intro hm
    rcases List.mem_append.1 hm with hm | hm
    · exact h3 hm
    · revert hm; decide

theorem serie_quiet {first rest : Cls} {s : SerieT} (h : s.Ok) (hb : ∀ c, ws c = true → first c = false) (hu : ∀ c, UpperLetter c ∨ c = 95 → first c = false)
    (hc : first colonC = false) : quiet first rest .off s.text = true := by
  have := quiet_entry (first := first) (rest := rest) (head := s.pre ++ s.name ++ s.g1) (body := s.body) (by
    intro c hc
    simp only [List.mem_append] at hc
    rcases hc with (hc | hc) | hc
    · exact hb c (blank_ws h.1 c hc)
    · exact hu c (serieName_chars h.2.1 c hc)
    · exact hb c (blank_ws h.2.2.1 c hc)) hc (serie_free (.inl rfl) h)
  rw [SerieT.text, l_colon, l_semi]
  exact this

theorem pattern_quiet {first rest : Cls} {p : PatternT} (h : p.Ok) (hb : ∀ c, ws c = true → first c = false) (hu : ∀ c, LowerLetter c ∨ c = 95 → first c = false)
    (hc : first colonC = false) : quiet first rest .off p.text = true := by
  have := quiet_entry (first := first) (rest := rest) (head := p.pre ++ p.name ++ p.g1) (body := p.body) (by
    intro c hc
    simp only [List.mem_append] at hc
    rcases hc with (hc | hc) | hc
    · exact hb c (blank_ws h.1 c hc)
    · exact hu c (patternName_chars h.2.1 c hc)
    · exact hb c (blank_ws h.2.2.1 c hc)) hc (pattern_free (.inl rfl) h)
  rw [PatternT.text, l_colon, l_semi]
  exact this

theorem option_quiet {first rest : Cls} {q o : Str} (h : OptionOk o) (hq : 58 ∉ q) : quiet first rest .off (optionText q o) = true := by
  unfold optionText
  split
  · exact quiet_nocolon hq _
  · by_cases hc : 58 ∈ o
    · rw [h.2.2.2.2.1 hc]; simp [quiet]
    · exact quiet_nocolon hc _

theorem options_quiet {first rest : Cls} {q : Str} (hq : 58 ∉ q) (hf : first commaC = false) (hr : rest commaC = false) {l : List Str} (h : ∀ o ∈ l, OptionOk o) :
    quiet first rest .off (optionsText q l) = true := by
  induction l with
  | nil => rfl
  | cons o l ih =>
    cases l with
    | nil => exact option_quiet (h o (by simp)) hq
    | cons o' l =>
      have : optionsText q (o :: o' :: l) = optionText q o ++ ([commaC] ++ optionsText q (o' :: l)) := by simp [optionsText, l_comma]
      rw [this, quiet_append, option_quiet (h o (by simp)) hq, quiet_append, quiet_nocolon (by decide)]
      have hrun : ∀ st, St.run first rest st [commaC] = .off := fun st => step_other (by decide) hf hr st
      rw [hrun, ih (fun x hx => h x (List.mem_cons_of_mem _ hx))]
      rfl

theorem options_free {q : Str} {d : UInt8} (hq : d ∉ q) {l : List Str} (h : ∀ o ∈ l, d ∉ optionText q o) (hd : d ≠ 44) : d ∉ optionsText q l := by
  induction l with
  | nil => simp [optionsText]
  | cons o l ih =>
    cases l with
    | nil => exact h o (by simp)
    | cons o' l =>
      have e : optionsText q (o :: o' :: l) = optionText q o ++ ([commaC] ++ optionsText q (o' :: l)) := by simp [optionsText, l_comma]
      rw [e]
      intro hm
      rcases List.mem_append.1 hm with hm | hm
      · exact h o (by simp) hm
      rcases List.mem_append.1 hm with hm | hm
      · simp [commaC] at hm; exact hd hm
      · exact ih (fun x hx => h x (List.mem_cons_of_mem _ hx)) hm

theorem options_semi {q : Str} (hq : 59 ∉ q) {l : List Str} (h : ∀ o ∈ l, OptionOk o) : 59 ∉ optionsText q l := by
  refine options_free hq ?_ (by decide)
  intro o ho
  unfold optionText
  split
  · exact hq
  · exact (h o ho).1

/-- The text of a group. -/
theorem group_text_eq (q : Str) (g : GroupT) : g.text q = (g.pre ++ g.name ++ g.g1 ++ [colonC] ++ g.g2 ++ [quoteC]) ++ (optionsText q g.options ++ ([quoteC] ++ g.post ++ [semiC])) := by
  simp [GroupT.text, l_colon, l_quote, l_semi]

/-- No dollar in front of a capital letter or underscore. -/
def dq : Bool → Str → Bool
  | _, [] => true
  | p, c :: s => !(p && upperU c) && dq (c = 36) s

/-- A group with an arbitrary text of options. -/
structure RawGroup where
  pre : Str
  name : Str
  g1 : Str
  g2 : Str
  opts : Str
  post : Str
def RawGroup.text (g : RawGroup) : Str := (g.pre ++ g.name ++ g.g1 ++ [colonC] ++ g.g2 ++ [quoteC]) ++ (g.opts ++ ([quoteC] ++ g.post ++ [semiC]))
structure RawGroup.Ok (g : RawGroup) : Prop where
  h1 : Blank g.pre
  h2 : GroupName g.name
  h3 : Blank g.g1
  h4 : Blank g.g2
  h5 : Blank g.post
  semi : 59 ∉ g.opts
  quietL : quiet lower lowerU .off g.opts = true
  quietU : quiet upper upperU .off g.opts = true
  dq : ∀ t, dq false (g.opts ++ quoteC :: t) = dq false t

theorem rawGroup_last (g : RawGroup) : g.text.getLast? = some 59 := by
  have : g.text = ((g.pre ++ g.name ++ g.g1 ++ [colonC] ++ g.g2 ++ [quoteC]) ++ (g.opts ++ ([quoteC] ++ g.post))) ++ [semiC] := by simp [RawGroup.text]
  rw [this]; rw [List.getLast?_append]; rfl

theorem group_quiet {first rest : Cls} {g : RawGroup} (h : g.Ok) (ho : quiet first rest .off g.opts = true) (hb : ∀ c, ws c = true → first c = false) (hn : ∀ c ∈ g.name, first c = false)
    (hc : first colonC = false ∧ first quoteC = false) : quiet first rest .off g.text = true := by
  obtain ⟨h1, h2, h3, h4, h7, _, _, _, _⟩ := h
  have hh : ∀ c ∈ g.pre ++ g.name ++ g.g1 ++ [colonC] ++ g.g2 ++ [quoteC], first c = false := by
    intro c hm
    simp only [List.mem_append, List.mem_singleton] at hm
    rcases hm with ((((hm | hm) | hm) | hm) | hm) | hm
    · exact hb c (blank_ws h1 c hm)
    · exact hn c hm
    · exact hb c (blank_ws h3 c hm)
    · rw [hm]; exact hc.1
    · exact hb c (blank_ws h4 c hm)
    · rw [hm]; exact hc.2
  rw [RawGroup.text, quiet_append, quiet_nofirst hh, run_nofirst hh, quiet_append, ho, quiet_nocolon]
  · rfl
  · intro hm
    simp only [List.mem_append, List.mem_singleton] at hm
    rcases hm with (hm | hm) | hm
    · revert hm; decide
    · exact blank_free h7 (by decide) hm
    · revert hm; decide

theorem ws_lower (c : UInt8) (h : ws c = true) : lower c = false := by
  rcases ws_iff.1 h with rfl | rfl | rfl | rfl <;> decide
theorem ws_upper (c : UInt8) (h : ws c = true) : upper c = false := by
  rcases ws_iff.1 h with rfl | rfl | rfl | rfl <;> decide
theorem ws_dollar (c : UInt8) (h : ws c = true) : isDollar c = false := by
  rcases ws_iff.1 h with rfl | rfl | rfl | rfl <;> decide

theorem last_semi (s : Str) : (s ++ lit ";").getLast? = some 59 := by rw [l_semi]; simp [semiC]

theorem scan_entry_skip {r : Re} {first rest : Cls} (hr : NameRe r first rest) {w v : Str} (hw : ∀ c ∈ w, first c = false) (a : Bool) :
    scan (reEntry r) a (w ++ v) = scan (reEntry r) a v := scan_named_blank hr (t := entryTail) reEntry_needs hw a

/-! ### Scanning for patterns -/

theorem scan_pattern_serie {s : SerieT} (h : s.Ok) (v : Str) (a : Bool) : scan (reEntry rePatternName) a (s.text ++ v) = scan (reEntry rePatternName) a v :=
  scan_quiet patternName_re reEntry_needs (serie_quiet h ws_lower (fun c hc => (upper_first hc).1) (by decide)) (last_semi _) a

theorem scan_pattern_rawGroup {g : RawGroup} (h : g.Ok) (v : Str) (a : Bool) : scan (reEntry rePatternName) a (g.text ++ v) = scan (reEntry rePatternName) a v :=
  scan_quiet patternName_re reEntry_needs (group_quiet h h.quietL ws_lower (fun c hc => by
    rcases groupName_chars h.h2 c hc with rfl | h
    · decide
    · exact (upper_first h).1) (by decide)) (rawGroup_last _) a

theorem scan_pattern_pattern {p : PatternT} (h : p.Ok) (v : Str) (a : Bool) :
    ∃ m, scan (reEntry rePatternName) a (p.text ++ v) = m :: scan (reEntry rePatternName) true v ∧ m.group 1 = p.name ∧ m.group 2 = p.body := by
  obtain ⟨m, m1, m2, m3, m4⟩ := y_reEntry (v := v) (y_patternName h.2.1 (stops_gap h.2.2.1 ws_lowerU (by decide))) h.2.2.1 (pattern_free (.inr (.inl rfl)) h)
  refine ⟨m, ?_, m3, m4⟩
  have e : p.text ++ v = p.pre ++ (p.name ++ (p.g1 ++ colonC :: (p.body ++ semiC :: v))) := by simp [PatternT.text, l_colon, l_semi]
  rw [e, scan_entry_skip patternName_re (blank_first patternName_re h.1), scan_hit reEntry_needs m1, m2]

/-! ### Scanning for series -/

theorem scan_serie_pattern {p : PatternT} (h : p.Ok) (v : Str) (a : Bool) : scan (reEntry reSerieName) a (p.text ++ v) = scan (reEntry reSerieName) a v :=
  scan_quiet serieName_re reEntry_needs (pattern_quiet h ws_upper (fun c hc => (lower_firstU hc).1) (by decide)) (last_semi _) a

theorem scan_serie_serie {s : SerieT} (h : s.Ok) (v : Str) (a : Bool) :
    ∃ m, scan (reEntry reSerieName) a (s.text ++ v) = m :: scan (reEntry reSerieName) true v ∧ m.group 1 = s.name ∧ m.group 2 = s.body := by
  obtain ⟨m, m1, m2, m3, m4⟩ := y_reEntry (v := v) (y_serieName h.2.1 (stops_gap h.2.2.1 ws_upperU (by decide))) h.2.2.1 (serie_free (.inr (.inl rfl)) h)
  refine ⟨m, ?_, m3, m4⟩
  have e : s.text ++ v = s.pre ++ (s.name ++ (s.g1 ++ colonC :: (s.body ++ semiC :: v))) := by simp [SerieT.text, l_colon, l_semi]
  rw [e, scan_entry_skip serieName_re (blank_first serieName_re h.1), scan_hit reEntry_needs m1, m2]

theorem dq_suffix {p : Bool} {u v : Str} (h : dq p (u ++ v) = true) : ∃ p', dq p' v = true := by
  induction u generalizing p with
  | nil => exact ⟨p, h⟩
  | cons c u ih =>
    simp only [List.cons_append, dq, Bool.and_eq_true] at h
    exact ih h.2

theorem dq_nodollar {s t : Str} (h : 36 ∉ s) : dq false (s ++ t) = dq false t := by
  induction s with
  | nil => rfl
  | cons c s ih =>
    simp only [List.mem_cons, not_or] at h
    simp only [List.cons_append, dq, Bool.false_and, Bool.not_false, Bool.true_and]
    rw [decide_eq_false (Ne.symm h.1), ih h.2]

theorem findAll_dq {s : Str} {p : Bool} (h : dq p s = true) : findAll reGroupName s = [] := by
  rw [findAll_eq]
  refine scan_none (find_none ?_)
  intro u v huv
  rw [← huv] at h
  obtain ⟨p', h'⟩ := dq_suffix h
  refine f_seq (fun m hm => ?_)
  have e := run_text hm
  simp only [reC, run] at hm
  cases v with
  | nil => simp at hm
  | cons c v =>
    by_cases hc : c = dollarC
    · simp only [hc, decide_true, if_true, List.mem_singleton] at hm
      subst hm
      simp only
      refine f_seq_left ?_
      cases v with
      | nil => exact f_chr_nil
      | cons x v =>
        refine f_chr ?_
        subst hc
        simp only [dq, Bool.and_eq_true] at h'
        have := h'.2.1
        simp only [dollarC, decide_true, Bool.true_and, Bool.not_eq_true'] at this
        exact this
    · simp [hc] at hm

theorem dq_option {q o t : Str} {d : UInt8} (hq : 36 ∉ q) (h : OptionOk o) (hd : upperU d = false ∧ d ≠ 36) : dq false (optionText q o ++ d :: t) = dq false t := by
  have hend : ∀ p, dq p (d :: t) = dq false t := by
    intro p
    simp only [dq, hd.1, Bool.and_false, Bool.not_false, Bool.true_and, decide_eq_false hd.2]
  unfold optionText
  split
  · rw [dq_nodollar hq, hend]
  · by_cases h36 : 36 ∈ o
    · rw [h.2.2.2.2.2.1 h36]
      show dq false (36 :: (d :: t)) = _
      simp only [dq]
      simpa [dq] using hend true
    · rw [dq_nodollar h36, hend]

theorem dq_options {q t : Str} (hq : 36 ∉ q) {l : List Str} (hne : l ≠ []) (h : ∀ o ∈ l, OptionOk o) : dq false (optionsText q l ++ quoteC :: t) = dq false t := by
  induction l with
  | nil => exact absurd rfl hne
  | cons o l ih =>
    cases l with
    | nil => exact dq_option hq (h o (by simp)) (by decide)
    | cons o' l =>
      have e : optionsText q (o :: o' :: l) ++ quoteC :: t = optionText q o ++ commaC :: (optionsText q (o' :: l) ++ quoteC :: t) := by simp [optionsText, l_comma]
      rw [e, dq_option hq (h o (by simp)) (by decide)]
      exact ih (by simp) (fun x hx => h x (List.mem_cons_of_mem _ hx))

theorem split_upper (u : Str) (hu : ∀ d ∈ u, UpperLetter d ∨ d = 95) : (∀ c ∈ u, upper c = false) ∨ ∃ us n, u = us ++ n ∧ (∀ c ∈ us, upper c = false) ∧ SerieName n := by
  induction u with
  | nil => left; simp
  | cons c u ih =>
    by_cases hc : upper c = true
    · exact .inr ⟨[], c :: u, rfl, by simp, c, u, rfl, upper_iff.1 hc, fun d hd => hu d (List.mem_cons_of_mem _ hd)⟩
    · have hc' : upper c = false := by simpa using hc
      rcases ih (fun d hd => hu d (List.mem_cons_of_mem _ hd)) with h | ⟨us, n, rfl, h1, h2⟩
      · left; intro d hd
        rcases List.mem_cons.1 hd with rfl | hd
        · exact hc'
        · exact h d hd
      · refine .inr ⟨c :: us, n, rfl, ?_, h2⟩
        intro d hd
        rcases List.mem_cons.1 hd with rfl | hd
        · exact hc'
        · exact h1 d hd

theorem scan_serie_rawGroup {g : RawGroup} (h : g.Ok) (v : Str) (a : Bool) :
    scan (reEntry reSerieName) a (g.text ++ v) = scan (reEntry reSerieName) a v ∨
    ∃ m, scan (reEntry reSerieName) a (g.text ++ v) = m :: scan (reEntry reSerieName) true v ∧ findAll reGroupName (m.group 2) = [] := by
  have h' := h
  obtain ⟨h1, ⟨u, hu1, hu2, hu3⟩, h3, h4, h7, h8, _, h9, h10⟩ := h
  rcases split_upper u hu3 with hno | ⟨us, n, e, hus, hn⟩
  · left
    exact scan_quiet serieName_re reEntry_needs (group_quiet h' h9 ws_upper (fun c hc => by
      rw [hu1] at hc
      rcases List.mem_cons.1 hc with rfl | hc
      · decide
      · exact hno c hc) (by decide)) (rawGroup_last _) a
  · right
    have hbody : semiC ∉ g.g2 ++ quoteC :: (g.opts ++ quoteC :: g.post) := by
      intro hm
      simp only [List.mem_append, List.mem_cons] at hm
      rcases hm with hm | hm | hm | hm | hm
      · exact blank_free h4 (by decide) hm
      · revert hm; decide
      · exact h8 hm
      · revert hm; decide
      · exact blank_free h7 (by decide) hm
    obtain ⟨m, m1, m2, m3, m4⟩ := y_reEntry (v := v) (y_serieName hn (stops_gap h3 ws_upperU (by decide))) h3 hbody
    refine ⟨m, ?_, ?_⟩
    · have e' : g.text ++ v = (g.pre ++ [dollarC] ++ us) ++ (n ++ (g.g1 ++ colonC :: ((g.g2 ++ quoteC :: (g.opts ++ quoteC :: g.post)) ++ semiC :: v))) := by
        rw [RawGroup.text, hu1, e]
        simp [dollarC]
      rw [e', scan_entry_skip serieName_re (by
        intro c hc
        simp only [List.mem_append, List.mem_singleton] at hc
        rcases hc with (hc | hc) | hc
        · exact ws_upper c (blank_ws h1 c hc)
        · rw [hc]; decide
        · exact hus c hc), scan_hit reEntry_needs m1, m2]
    · rw [m4]
      refine findAll_dq (p := false) ?_
      rw [dq_nodollar (blank_free h4 (by decide))]
      rw [show quoteC :: (g.opts ++ quoteC :: g.post) = [quoteC] ++ (g.opts ++ quoteC :: g.post) by rfl]
      rw [dq_nodollar (by decide), h10]
      have := dq_nodollar (s := g.post) (t := []) (blank_free h7 (by decide))
      rw [List.append_nil] at this
      rw [this]; rfl

/-- The group as it is written with `q` for a quote. -/
def GroupT.raw (q : Str) (g : GroupT) : RawGroup := ⟨g.pre, g.name, g.g1, g.g2, optionsText q g.options, g.post⟩

theorem groupT_raw (q : Str) (g : GroupT) : g.text q = (g.raw q).text := group_text_eq q g

theorem raw_group_ok {q : Str} (hq : 58 ∉ q ∧ 36 ∉ q ∧ 59 ∉ q) {g : GroupT} (h : g.Ok) : (g.raw q).Ok := by
  obtain ⟨h1, h2, h3, h4, h5, h6, h7⟩ := h
  exact ⟨h1, h2, h3, h4, h7, options_semi hq.2.2 h6, options_quiet hq.1 (by decide) (by decide) h6, options_quiet hq.1 (by decide) (by decide) h6,
    fun t => dq_options hq.2.1 h5 h6⟩

theorem scan_pattern_group {q : Str} (hq : 58 ∉ q ∧ 36 ∉ q ∧ 59 ∉ q) {g : GroupT} (h : g.Ok) (v : Str) (a : Bool) :
    scan (reEntry rePatternName) a (g.text q ++ v) = scan (reEntry rePatternName) a v := by
  rw [groupT_raw]; exact scan_pattern_rawGroup (raw_group_ok hq h) v a

theorem scan_serie_group {q : Str} (hq : 58 ∉ q ∧ 36 ∉ q ∧ 59 ∉ q) {g : GroupT} (h : g.Ok) (v : Str) (a : Bool) :
    scan (reEntry reSerieName) a (g.text q ++ v) = scan (reEntry reSerieName) a v ∨
    ∃ m, scan (reEntry reSerieName) a (g.text q ++ v) = m :: scan (reEntry reSerieName) true v ∧ findAll reGroupName (m.group 2) = [] := by
  rw [groupT_raw]; exact scan_serie_rawGroup (raw_group_ok hq h) v a

end Verif.Text
