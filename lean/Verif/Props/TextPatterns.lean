import Verif.Lemmas.TextPatterns4

/-!
# Properties C88–C90: the texts of the patterns of a grammar
-/

namespace Verif.Text
open Verif.Regex Verif.Patterns Verif.Cardinality Verif.Lexer

/-- C90: reading patterns never panics, whatever the text: the result is the patterns or an error. -/
theorem C90_patterns_no_panic (content : Str) : toPatterns content ≠ .panic := by
  unfold toPatterns
  refine bind_no_panic ?_ (fun groups _ => bind_no_panic (serieLoop_no_panic _ _ _) (fun series _ => ?_))
  · unfold findGroups
    exact bind_no_panic (mapOut_no_panic (fun m _ => groupNow_no_panic _ _)) (fun l _ => lastNow_no_panic _ _)
  · unfold findPatterns
    exact bind_no_panic (patternLoop_no_panic _ _) (fun l _ => lastNow_no_panic _ _)

example : (∃ s, toPatterns (lit "$;:\"") = .ok s) ∨ toPatterns (lit "$;:\"") = .err := by
  cases h : toPatterns (lit "$;:\"") with
  | ok s => exact .inl ⟨s, rfl⟩
  | err => exact .inr rfl
  | panic => exact absurd h (C90_patterns_no_panic _)

/-- C88: the text of groups, series and patterns, in any order and whatever the blanks in it, is read as it is written: the patterns in their order, each
with the series of its choices, and these with their groups and options; of several groups, series or patterns of the same name the last one counts.
Without groups or patterns, or if a group or serie which is mentioned is not written, an error is returned. -/
theorem C88_patterns_read (l : List Entry) (w : Str) (h : ∀ e ∈ l, e.Ok) (hw : Blank w) :
    (Complete l → ∃ ps, toPatterns (entriesText l ++ w) = .ok ps ∧ List.Forall₂ (PatternShows l) (patternsOf l) ps.list ∧
      ∀ n, FindsLast Pattern.name ps.list n (ps.find n)) ∧
    (¬ Complete l → toPatterns (entriesText l ++ w) = .err) := by
  refine ⟨patterns_ok h hw, ?_⟩
  intro hc
  cases hr : toPatterns (entriesText l ++ w) with
  | ok ps => exact absurd (patterns_complete h hw hr) hc
  | err => rfl
  | panic => exact absurd hr (C90_patterns_no_panic _)

/-- Some patterns to show that the theorem is about something. -/
def exEntries : List Entry :=
  [.pattern ⟨lit "", lit "word_x", lit " ", [⟨lit " ", false, lit "LETTERS"⟩, ⟨lit " ", true, lit "QUOTE"⟩], lit ""⟩,
   .serie ⟨lit "\n", lit "LETTERS", lit "", [(lit " ", lit "$L"), (lit "", lit "$Q")], lit " "⟩,
   .serie ⟨lit "\n", lit "QUOTE", lit "", [(lit " ", lit "$Q")], lit ""⟩,
   .group ⟨lit "\n", lit "$L", lit "", lit " ", [lit "a", lit ":", lit "bc"], lit ""⟩,
   .group ⟨lit "\n", lit "$Q", lit "", lit " ", [lit "\""], lit " "⟩]

theorem exEntries_text : entriesText exEntries =
    lit "word_x : LETTERS @QUOTE;\nLETTERS: $L$Q ;\nQUOTE: $Q;\n$L: \"a,:,bc\";\n$Q: \"\\\"\" ;" := by decide

theorem exEntries_ok : ∀ e ∈ exEntries, e.Ok := by
  have hb : ∀ w ∈ [lit "", lit " ", lit "\n"], Blank w := by unfold Blank; decide
  have hU : ∀ c, UpperLetter c ↔ (65 ≤ c.toNat ∧ c.toNat ≤ 90) := fun _ => Iff.rfl
  have hg : ∀ n ∈ [lit "$L", lit "$Q"], GroupName n := by
    intro n hn
    simp only [List.mem_cons, List.not_mem_nil, or_false] at hn
    rcases hn with rfl | rfl
    · exact ⟨lit "L", by decide, by decide, by unfold UpperLetter; decide⟩
    · exact ⟨lit "Q", by decide, by decide, by unfold UpperLetter; decide⟩
  have hs : ∀ n ∈ [lit "LETTERS", lit "QUOTE"], SerieName n := by
    intro n hn
    simp only [List.mem_cons, List.not_mem_nil, or_false] at hn
    rcases hn with rfl | rfl
    · exact ⟨76, lit "ETTERS", by decide, by unfold UpperLetter; decide, by unfold UpperLetter; decide⟩
    · exact ⟨81, lit "UOTE", by decide, by unfold UpperLetter; decide, by unfold UpperLetter; decide⟩
  intro e he
  simp only [exEntries, List.mem_cons, List.not_mem_nil, or_false] at he
  rcases he with rfl | rfl | rfl | rfl | rfl
  · refine ⟨hb _ (by simp), ⟨119, lit "ord_x", by decide, by unfold LowerLetter; decide, by unfold LowerLetter; decide⟩, hb _ (by simp), by simp, ?_, by simp, hb _ (by simp)⟩
    intro c hc
    simp only [List.mem_cons, List.not_mem_nil, or_false] at hc
    rcases hc with rfl | rfl
    · exact ⟨hb _ (by simp), hs _ (by simp)⟩
    · exact ⟨hb _ (by simp), hs _ (by simp)⟩
  · refine ⟨hb _ (by simp), hs _ (by simp), hb _ (by simp), by simp, ?_, hb _ (by simp)⟩
    intro c hc
    simp only [List.mem_cons, List.not_mem_nil, or_false] at hc
    rcases hc with rfl | rfl
    · exact ⟨hb _ (by simp), hg _ (by simp)⟩
    · exact ⟨hb _ (by simp), hg _ (by simp)⟩
  · refine ⟨hb _ (by simp), hs _ (by simp), hb _ (by simp), by simp, ?_, hb _ (by simp)⟩
    intro c hc
    simp only [List.mem_cons, List.not_mem_nil, or_false] at hc
    rw [hc]
    exact ⟨hb _ (by simp), hg _ (by simp)⟩
  · exact ⟨hb _ (by simp), hg _ (by simp), hb _ (by simp), hb _ (by simp), by simp, by unfold OptionOk; decide, hb _ (by simp)⟩
  · exact ⟨hb _ (by simp), hg _ (by simp), hb _ (by simp), hb _ (by simp), by simp, by unfold OptionOk; decide, hb _ (by simp)⟩

theorem exEntries_complete : Complete exEntries := by unfold Complete; decide

example : ∃ ps, toPatterns (entriesText exEntries ++ []) = .ok ps ∧ List.Forall₂ (PatternShows exEntries) (patternsOf exEntries) ps.list := by
  obtain ⟨ps, h1, h2, _⟩ := (C88_patterns_read exEntries [] exEntries_ok (by intro c hc; simp at hc)).1 exEntries_complete
  exact ⟨ps, h1, h2⟩

/-! ### Violations -/

/-- The text `$G:"opts";S:$G;p:S;`. -/
def smallText (g opts s p : Str) : Str := g ++ lit ":\"" ++ opts ++ lit "\";" ++ (s ++ lit ":" ++ g ++ lit ";") ++ (p ++ lit ":" ++ s ++ lit ";")

/-- What is read for it. -/
def smallPatterns (g : Str) (options : List Str) (s p : Str) : List Pattern := [⟨p, [⟨⟨s, [⟨g, options⟩]⟩, false⟩]⟩]

theorem blank_nil : Blank [] := by intro c hc; simp at hc

theorem small_read {f : Str → Str} {g s p : Str} (hj : Joins f) (hg : GroupName g) (hs : SerieName s) (hp : PatternName p)
    (hraw : ∀ q, q = [92, 34] ∨ q = hashes → 59 ∉ f q ∧ 58 ∉ f q ∧ 36 ∉ f q) :
    ∃ ps, toPatterns (smallText g (f [92, 34]) s p) = .ok ps ∧ ps.list = smallPatterns g (readOptions (f hashes)) s p := by
  have hR : ∀ q, q = [92, 34] ∨ q = hashes → (⟨[], g, [], [], f q, []⟩ : RawGroup).Ok := by
    intro q hq
    obtain ⟨r1, r2, r3⟩ := hraw q hq
    refine ⟨blank_nil, hg, blank_nil, blank_nil, blank_nil, r1, quiet_nocolon r2 _, quiet_nocolon r2 _, fun t => ?_⟩
    rw [dq_nodollar r3]
    simp [dq, quoteC]
  have hS : (⟨[], s, [], [([], g)], []⟩ : SerieT).Ok := ⟨blank_nil, hs, blank_nil, by simp, by simpa using ⟨blank_nil, hg⟩, blank_nil⟩
  have hP : (⟨[], p, [], [⟨[], false, s⟩], []⟩ : PatternT).Ok := ⟨blank_nil, hp, blank_nil, by simp, by simpa using ⟨blank_nil, hs⟩, by simp, blank_nil⟩
  generalize hSd : (⟨[], s, [], [([], g)], []⟩ : SerieT) = S at hS
  generalize hPd : (⟨[], p, [], [⟨[], false, s⟩], []⟩ : PatternT) = P at hP
  have htext : ∀ q, smallText g (f q) s p = (⟨[], g, [], [], f q, []⟩ : RawGroup).text ++ (S.text ++ P.text) := by
    intro q
    rw [← hSd, ← hPd]
    simp [smallText, RawGroup.text, SerieT.text, SerieT.body, PatternT.text, PatternT.body, ChoiceT.text, l_colon, l_semi,
      show lit ":\"" = [colonC, quoteC] by decide, show lit "\";" = [quoteC, semiC] by decide]
  have hjoin : Joins (fun q => (⟨[], g, [], [], f q, []⟩ : RawGroup).text ++ (S.text ++ P.text)) := by
    have c1 : Joins (fun _ => g ++ [colonC] ++ [quoteC]) := joins_const (by
      intro hm
      simp only [List.mem_append, List.mem_singleton] at hm
      rcases hm with (hm | hm) | hm
      · rcases groupName_chars hg _ hm with h | h
        · simp at h
        · simp [UpperLetter] at h
      · revert hm; decide
      · revert hm; decide)
    have c2 : Joins (fun _ => [quoteC] ++ [semiC]) := joins_const (by decide)
    have := joins_append (joins_append (joins_append c1 hj) c2) (joins_append (joins_entry (e := .serie S) hS) (joins_entry (e := .pattern P) hP))
    simpa [RawGroup.text, Entry.text] using this
  have hrep := joins_replace hjoin
  have hgroups : findGroups (smallText g (f [92, 34]) s p) = groupsNow [⟨g, readOptions (f hashes)⟩] := by
    unfold findGroups
    simp only
    rw [htext, hrep, findAll_eq]
    have hr := hR hashes (.inr rfl)
    obtain ⟨m, m1, m2⟩ := scan_group_rawGroup hr.h1 hr.h2 hr.h3 hr.h4 hr.h5 hr.semi (S.text ++ P.text) false
    have h1 : scan reGroup true (S.text ++ P.text) = [] := by
      have e1 : scan reGroup true (S.text ++ P.text) = scan reGroup true P.text :=
        scan_quiet groupName_re (t := groupTail) reGroup_needs (serie_quiet hS ws_dollar (fun c hc => (upper_first hc).2.1) (by decide)) (last_semi _) true
      have e2 : scan reGroup true (P.text ++ []) = scan reGroup true [] :=
        scan_quiet groupName_re (t := groupTail) reGroup_needs (pattern_quiet hP ws_dollar (fun c hc => (lower_firstU hc).2.1) (by decide)) (last_semi _) true
      rw [List.append_nil] at e2
      rw [e1, e2, scan_fail_nil reGroup_needs]
    rw [m1, h1]
    have hne : g ≠ [] := by obtain ⟨u, e, _⟩ := hg; rw [e]; simp
    have hro : ∃ o os, readOptions (f hashes) = o :: os := by
      cases ho : readOptions (f hashes) with
      | nil =>
        unfold readOptions at ho
        rw [List.map_eq_nil_iff] at ho
        exact absurd ho (splitSep_ne_nil)
      | cons o os => exact ⟨o, os, rfl⟩
    obtain ⟨o, os, ho⟩ := hro
    simp only [mapOut, m2, groupNow, hne, if_false, ho]
    rfl
  have hseries : ∀ gs mp, serieLoop gs (scan (reEntry reSerieName) false (smallText g (f [92, 34]) s p)) mp = seriesFold gs [S] mp := by
    intro gs mp
    have hrest : ∀ a mp, serieLoop gs (scan (reEntry reSerieName) a (S.text ++ P.text)) mp = seriesFold gs [S] mp := by
      intro a mp
      have := series_scan (groups := gs) (l := [.serie S, .pattern P]) (by
        intro e he
        simp only [List.mem_cons, List.not_mem_nil, or_false] at he
        rcases he with rfl | rfl
        · exact hS
        · exact hP) blank_nil a mp
      simpa [entriesText, Entry.text, seriesOf] using this
    rw [htext]
    rcases scan_serie_rawGroup (hR [92, 34] (.inl rfl)) (S.text ++ P.text) false with h | ⟨m, h, hm⟩
    · rw [h]; exact hrest _ _
    · rw [h]
      simp only [serieLoop, hm]
      exact hrest _ _
  have hpats : ∀ series, patternLoop series (scan (reEntry rePatternName) false (smallText g (f [92, 34]) s p)) = mapOut (readPattern series) [P] := by
    intro series
    rw [htext, scan_pattern_rawGroup (hR [92, 34] (.inl rfl))]
    have := patterns_scan (series := series) (l := [.serie S, .pattern P]) (by
        intro e he
        simp only [List.mem_cons, List.not_mem_nil, or_false] at he
        rcases he with rfl | rfl
        · exact hS
        · exact hP) blank_nil false
    simpa [entriesText, Entry.text, patternsOf] using this
  -- the result
  have hsn : s ≠ [] := by obtain ⟨c, u, e, _⟩ := hs; rw [e]; simp
  have hpn : p ≠ [] := by obtain ⟨c, u, e, _⟩ := hp; rw [e]; simp
  let gs : GroupSet := ⟨[⟨g, readOptions (f hashes)⟩], mapByName Group.name [⟨g, readOptions (f hashes)⟩] GoMap.empty⟩
  have hgs : groupsNow [⟨g, readOptions (f hashes)⟩] = .ok gs := rfl
  have hfind : gs.find g = .ok ⟨g, readOptions (f hashes)⟩ := by simp [gs, Named.find, GoMap.find, mapByName, GoMap.set]
  have hfold : seriesFold gs [S] GoMap.empty = .ok (GoMap.empty.set s ⟨s, [⟨g, readOptions (f hashes)⟩]⟩) := by
    rw [← hSd]
    simp only [seriesFold, List.map_cons, List.map_nil, mapOut, hfind, Out.bind_ok, serieNow, hsn, if_false]
    rfl
  have hpat : mapOut (readPattern (GoMap.empty.set s ⟨s, [⟨g, readOptions (f hashes)⟩]⟩)) [P] = .ok (smallPatterns g (readOptions (f hashes)) s p) := by
    rw [← hPd]
    have hc := choiceOf_eq (series := GoMap.empty.set s ⟨s, [⟨g, readOptions (f hashes)⟩]⟩) (c := ⟨[], false, s⟩) hs
    simp only [GoMap.set, if_true] at hc
    simp only [mapOut, readPattern, List.map_cons, List.map_nil]
    have hc' : choiceOf (GoMap.empty.set s ⟨s, [⟨g, readOptions (f hashes)⟩]⟩) ((if false = true then [atC] else []) ++ s) = .ok ⟨⟨s, [⟨g, readOptions (f hashes)⟩]⟩, false⟩ := hc
    simp only [hc', Out.bind_ok, patternNow, hpn, if_false]
    rfl
  refine ⟨⟨smallPatterns g (readOptions (f hashes)) s p, mapByName Pattern.name (smallPatterns g (readOptions (f hashes)) s p) GoMap.empty⟩, ?_, rfl⟩
  unfold toPatterns
  rw [hgroups, hgs, Out.bind_ok]
  unfold findSeries
  rw [findAll_eq, hseries, hfold, Out.bind_ok]
  unfold findPatterns
  rw [findAll_eq, hpats, hpat, Out.bind_ok]
  rfl

/-- C89 (violation): a quote with a backslash in front of it should stand for a quote, but in an option of several characters it is read as `###`; and the
option `###` is read as a quote. -/
theorem C89_option_violation (g u v s p : Str) (hg : GroupName g) (hs : SerieName s) (hp : PatternName p)
    (hu : ∀ c ∈ u ++ v, c ≠ 59 ∧ c ≠ 58 ∧ c ≠ 36 ∧ c ≠ 92 ∧ c ≠ 44) (hne : u ++ v ≠ []) :
    (∃ ps, toPatterns (smallText g (u ++ lit "\\\"" ++ v) s p) = .ok ps ∧ ps.list = smallPatterns g [u ++ lit "###" ++ v] s p) ∧
    ∃ ps, toPatterns (smallText g (lit "###") s p) = .ok ps ∧ ps.list = smallPatterns g [lit "\""] s p := by
  have hmem : ∀ c, (c ∈ u → c ≠ 59 ∧ c ≠ 58 ∧ c ≠ 36 ∧ c ≠ 92 ∧ c ≠ 44) ∧ (c ∈ v → c ≠ 59 ∧ c ≠ 58 ∧ c ≠ 36 ∧ c ≠ 92 ∧ c ≠ 44) := fun c =>
    ⟨fun h => hu c (List.mem_append_left _ h), fun h => hu c (List.mem_append_right _ h)⟩
  constructor
  · have hj : Joins (fun q => u ++ q ++ v) := by
      have := joins_append (joins_append (joins_const (s := u) (fun h => ((hmem _).1 h).2.2.2.1 rfl)) joins_id) (joins_const (s := v) (fun h => ((hmem _).2 h).2.2.2.1 rfl))
      exact this
    obtain ⟨ps, h1, h2⟩ := small_read hj hg hs hp (by
      intro q hq
      refine ⟨?_, ?_, ?_⟩ <;>
      · intro hm
        simp only [List.mem_append] at hm
        rcases hm with (hm | hm) | hm
        · have := (hmem _).1 hm; simp at this
        · rcases hq with rfl | rfl <;> revert hm <;> decide
        · have := (hmem _).2 hm; simp at this)
    refine ⟨ps, h1, ?_⟩
    rw [h2]
    have : readOptions (u ++ hashes ++ v) = [u ++ lit "###" ++ v] := by
      unfold readOptions
      rw [splitSep_none (by
        rw [mem_of_infix_single]
        intro hm
        simp only [List.mem_append] at hm
        rcases hm with (hm | hm) | hm
        · exact ((hmem _).1 hm).2.2.2.2 rfl
        · revert hm; decide
        · exact ((hmem _).2 hm).2.2.2.2 rfl)]
      have hn : u ++ hashes ++ v ≠ hashes := by
        intro he
        have := congrArg List.length he
        simp only [List.length_append] at this
        have hl : (u ++ v).length = 0 := by rw [List.length_append]; omega
        exact hne (List.length_eq_zero_iff.1 hl)
      simp only [List.map_cons, List.map_nil, if_neg hn]
      rfl
    rw [this]
  · obtain ⟨ps, h1, h2⟩ := small_read (f := fun _ => hashes) (joins_const (by decide)) hg hs hp (by intro q _; decide)
    refine ⟨ps, h1, ?_⟩
    rw [h2]
    have : readOptions hashes = [lit "\""] := by
      unfold readOptions
      rw [splitSep_none (by rw [mem_of_infix_single]; decide)]
      decide
    rw [this]

example : ∃ ps, toPatterns (lit "$G:\"a\\\"\";S:$G;p:S;") = .ok ps ∧ ps.list = smallPatterns (lit "$G") [lit "a###"] (lit "S") (lit "p") := by
  have := (C89_option_violation (lit "$G") (lit "a") [] (lit "S") (lit "p") ⟨lit "G", by decide, by decide, by unfold UpperLetter; decide⟩
    ⟨83, [], by decide, by unfold UpperLetter; decide, by simp⟩ ⟨112, [], by decide, by unfold LowerLetter; decide, by simp⟩ (by decide) (by decide)).1
  have e : smallText (lit "$G") (lit "a" ++ lit "\\\"" ++ []) (lit "S") (lit "p") = lit "$G:\"a\\\"\";S:$G;p:S;" := by decide
  rw [e] at this
  exact this

end Verif.Text
