import Verif.Lemmas.TextPatterns2

/-! Helper lemmas: reading groups, series and patterns. -/

namespace Verif.Text
open Verif.Regex Verif.Patterns Verif.Cardinality Verif.Lexer

/-! ### Escaped quotes -/

/-- A text written with `q` for some of its parts, without backslashes in the others. -/
def Joins (f : Str → Str) : Prop := ∃ l, l ≠ [] ∧ (∀ q, f q = joined q l) ∧ ∀ p ∈ l, 92 ∉ p

theorem joins_const {s : Str} (h : 92 ∉ s) : Joins (fun _ => s) := ⟨[s], by simp, by simp [joined], by simpa using h⟩
theorem joins_id : Joins (fun q => q) := ⟨[[], []], by simp, by simp [joined], by simp⟩
theorem joins_append {f g : Str → Str} (hf : Joins f) (hg : Joins g) : Joins (fun q => f q ++ g q) := by
  obtain ⟨l, h1, h2, h3⟩ := hf
  obtain ⟨k, k1, k2, k3⟩ := hg
  obtain ⟨x, k', rfl⟩ : ∃ x k', k = x :: k' := by
    cases k with
    | nil => exact absurd rfl k1
    | cons x k' => exact ⟨x, k', rfl⟩
  have key : ∀ (p : Str) (sep : Str), p ++ joined sep (x :: k') = joined sep ((p ++ x) :: k') := by
    intro q sep
    induction q with
    | nil => rfl
    | cons z q ih => rw [List.cons_append, List.cons_append, joined_head, ih]
  have : ∀ l : List Str, l ≠ [] → (∀ p ∈ l, 92 ∉ p) → ∃ l', l' ≠ [] ∧ (∀ q, joined q l ++ joined q (x :: k') = joined q l') ∧ ∀ p ∈ l', 92 ∉ p := by
    intro l
    induction l with
    | nil => intro h; exact absurd rfl h
    | cons p l ih =>
      intro _ hp
      cases l with
      | nil =>
        refine ⟨(p ++ x) :: k', by simp, fun q => by rw [← key]; simp [joined], ?_⟩
        intro y hy
        rcases List.mem_cons.1 hy with rfl | hy
        · intro hm
          rcases List.mem_append.1 hm with hm | hm
          · exact hp p (by simp) hm
          · exact k3 x (by simp) hm
        · exact k3 y (List.mem_cons_of_mem _ hy)
      | cons p' l =>
        obtain ⟨l', q1, q2, q3⟩ := ih (by simp) (fun y hy => hp y (List.mem_cons_of_mem _ hy))
        refine ⟨p :: l', by simp, fun q => ?_, ?_⟩
        · rw [joined_cons (by simp), joined_cons q1, ← q2]; simp
        · intro y hy
          rcases List.mem_cons.1 hy with rfl | hy
          · exact hp y (by simp)
          · exact q3 y hy
  obtain ⟨l', q1, q2, q3⟩ := this l h1 h3
  exact ⟨l', q1, fun q => by show f q ++ g q = _; rw [h2, k2, q2], q3⟩

theorem joins_replace {f : Str → Str} (h : Joins f) : replaceAll backslashC [quoteC] hashes (f [92, 34]) = f hashes := by
  obtain ⟨l, h1, h2, h3⟩ := h
  rw [h2, h2]
  refine replaceAll_joined (c := backslashC) (ds := [quoteC]) h1 ?_
  intro x hx hi
  obtain ⟨u, v, e⟩ : [backslashC, quoteC] <:+: x ++ [backslashC] := hi
  have e' : (u ++ [backslashC, quoteC]) ++ v = x ++ [backslashC] := e
  rcases List.eq_nil_or_concat v with rfl | ⟨v', z, rfl⟩
  · have := congrArg List.getLast? e'
    simp [backslashC, quoteC] at this
  · rw [List.concat_eq_append, ← List.append_assoc] at e'
    have := List.append_inj_left' e' rfl
    apply h3 x hx
    rw [← this]
    simp [backslashC]

theorem joins_options {l : List Str} (h : ∀ o ∈ l, OptionOk o) : Joins (fun q => optionsText q l) := by
  have ho : ∀ o, OptionOk o → Joins (fun q => optionText q o) := by
    intro o ho
    by_cases h34 : o = [34]
    · simpa [optionText, h34] using joins_id
    · simpa [optionText, h34] using joins_const ho.2.2.1
  induction l with
  | nil => exact joins_const (s := []) (by simp)
  | cons o l ih =>
    cases l with
    | nil => exact ho o (h o (by simp))
    | cons o' l =>
      have := joins_append (joins_append (ho o (h o (by simp))) (joins_const (s := [commaC]) (by decide))) (ih (fun x hx => h x (List.mem_cons_of_mem _ hx)))
      simpa [optionsText, l_comma] using this

theorem joins_entry {e : Entry} (h : e.Ok) : Joins (fun q => e.text q) := by
  cases e with
  | group g =>
    obtain ⟨h1, h2, h3, h4, h5, h6, h7⟩ := h
    have hn : 92 ∉ g.pre ++ g.name ++ g.g1 ++ [colonC] ++ g.g2 ++ [quoteC] := by
      intro hm
      simp only [List.mem_append, List.mem_singleton] at hm
      rcases hm with ((((hm | hm) | hm) | hm) | hm) | hm
      · exact blank_free h1 (by decide) hm
      · rcases groupName_chars h2 _ hm with h | h
        · simp at h
        · simp [UpperLetter] at h
      · exact blank_free h3 (by decide) hm
      · revert hm; decide
      · exact blank_free h4 (by decide) hm
      · revert hm; decide
    have he : 92 ∉ [quoteC] ++ g.post ++ [semiC] := by
      intro hm
      simp only [List.mem_append, List.mem_singleton] at hm
      rcases hm with (hm | hm) | hm
      · revert hm; decide
      · exact blank_free h7 (by decide) hm
      · revert hm; decide
    have := joins_append (joins_const hn) (joins_append (joins_options h6) (joins_const he))
    simp only [Entry.text, group_text_eq]
    exact this
  | serie s =>
    refine joins_const (s := s.text) ?_
    intro hm
    simp only [SerieT.text, List.mem_append] at hm
    rcases hm with ((((hm | hm) | hm) | hm) | hm) | hm
    · exact blank_free h.1 (by decide) hm
    · exact (upper_first (serieName_chars h.2.1 _ hm)).2.2.2.2.2.2.1 rfl
    · exact blank_free h.2.2.1 (by decide) hm
    · revert hm; decide
    · exact serie_free (by simp) h hm
    · revert hm; decide
  | pattern p =>
    refine joins_const (s := p.text) ?_
    intro hm
    simp only [PatternT.text, List.mem_append] at hm
    rcases hm with ((((hm | hm) | hm) | hm) | hm) | hm
    · exact blank_free h.1 (by decide) hm
    · exact (lower_firstU (patternName_chars h.2.1 _ hm)).2.2.2.2.2.2 rfl
    · exact blank_free h.2.2.1 (by decide) hm
    · revert hm; decide
    · exact pattern_free (by simp) h hm
    · revert hm; decide

theorem joins_entries {l : List Entry} (h : ∀ e ∈ l, e.Ok) {w : Str} (hw : Blank w) : Joins (fun q => (l.map (Entry.text q)).flatten ++ w) := by
  induction l with
  | nil => simpa using joins_const (blank_free hw (d := 92) (by decide))
  | cons e l ih =>
    have := joins_append (joins_entry (h e List.mem_cons_self)) (ih (fun x hx => h x (List.mem_cons_of_mem _ hx)))
    simpa using this

/-! ### Groups -/

theorem scan_group_skip {w v : Str} (hw : ∀ c ∈ w, isDollar c = false) (a : Bool) : scan reGroup a (w ++ v) = scan reGroup a v :=
  scan_named_blank groupName_re (t := groupTail) reGroup_needs hw a

theorem options_joined (q : Str) {l : List Str} (h : l ≠ []) : optionsText q l = joined [commaC] (l.map (optionText q)) := by
  induction l with
  | nil => exact absurd rfl h
  | cons o l ih =>
    cases l with
    | nil => simp [optionsText, joined]
    | cons o' l =>
      rw [List.map_cons, joined_cons (by simp), ← ih (by simp)]
      simp [optionsText, l_comma]

def GroupT.value (g : GroupT) : Group := ⟨g.name, g.options⟩

/-- The options of a text. -/
def readOptions (t : Str) : List Str := (splitSep commaC [] t).map (fun o => if o = hashes then [quoteC] else o)

theorem scan_group_rawGroup {g : RawGroup} (h1 : Blank g.pre) (h2 : GroupName g.name) (h3 : Blank g.g1) (h4 : Blank g.g2) (h7 : Blank g.post)
    (h8 : 59 ∉ g.opts) (v : Str) (a : Bool) :
    ∃ m, scan reGroup a (g.text ++ v) = m :: scan reGroup true v ∧ groupOf m = groupNow g.name (some (readOptions g.opts)) := by
  obtain ⟨t, ht⟩ := y_groupTail (v := v) h4 h8 h7
  have hY := y_named (y_groupName h2 (stops_gap h3 ws_upperU (by decide))) h3 ht
  have hY' : Y reGroup _ _ := hY
  have e : g.text ++ v = g.pre ++ (g.name ++ (g.g1 ++ colonC :: (g.g2 ++ quoteC :: (g.opts ++ quoteC :: (g.post ++ semiC :: v))))) := by
    rw [RawGroup.text]; simp
  refine ⟨_, by rw [e, scan_group_skip (blank_first groupName_re h1), scan_hit reGroup_needs hY'], ?_⟩
  unfold groupOf
  have g1 : (⟨g.name ++ (g.g1 ++ colonC :: t), v, [(1, g.name), (2, g.opts)]⟩ : M).group 1 = g.name := by simp [group_eq, look_cons]
  have g2 : (⟨g.name ++ (g.g1 ++ colonC :: t), v, [(1, g.name), (2, g.opts)]⟩ : M).group 2 = g.opts := by simp [group_eq, look_cons]
  rw [g1, g2]
  rfl

theorem scan_group_group {g : GroupT} (h : g.Ok) (v : Str) (a : Bool) :
    ∃ m, scan reGroup a (g.text hashes ++ v) = m :: scan reGroup true v ∧ groupOf m = .ok g.value := by
  have ho := raw_group_ok (q := hashes) (by decide) h
  obtain ⟨m, m1, m2⟩ := scan_group_rawGroup ho.h1 ho.h2 ho.h3 ho.h4 ho.h5 ho.semi v a
  rw [groupT_raw]
  refine ⟨m, m1, ?_⟩
  rw [m2]
  obtain ⟨h1, h2, h3, h4, h5, h6, h7⟩ := h
  show groupNow g.name (some (readOptions (optionsText hashes g.options))) = _
  unfold readOptions
  rw [options_joined hashes h5, split_joined (by simpa using h5)]
  · have hmap : (g.options.map (optionText hashes)).map (fun o => if o = hashes then [quoteC] else o) = g.options := by
      rw [List.map_map]
      conv => rhs; rw [← List.map_id g.options]
      refine List.map_congr_left (fun o ho => ?_)
      show (if optionText hashes o = hashes then [quoteC] else optionText hashes o) = o
      by_cases h34 : o = [34]
      · have : optionText hashes o = hashes := by simp [optionText, h34]
        rw [this, if_pos rfl, h34]; rfl
      · have : optionText hashes o = o := by simp [optionText, h34]
        rw [this, if_neg]
        exact (h6 o ho).2.2.2.2.2.2
    rw [hmap]
    have hne : g.name ≠ [] := by obtain ⟨u, e, _⟩ := h2; rw [e]; simp
    unfold groupNow
    rw [if_neg hne]
    cases ho : g.options with
    | nil => exact absurd ho h5
    | cons o l => simp [GroupT.value, ho]
  · intro p hp hi
    obtain ⟨o, ho, rfl⟩ := List.mem_map.1 hp
    simp only [List.dropLast_singleton, List.append_nil] at hi
    rw [mem_of_infix_single] at hi
    unfold optionText at hi
    split at hi
    · revert hi; decide
    · exact (h6 o ho).2.1 hi

theorem groups_scan {l : List Entry} (h : ∀ e ∈ l, e.Ok) {w : Str} (hw : Blank w) (a : Bool) :
    mapOut groupOf (scan reGroup a ((l.map (Entry.text hashes)).flatten ++ w)) = .ok ((groupsOf l).map GroupT.value) := by
  induction l generalizing a with
  | nil =>
    have := scan_group_skip (w := w) (v := []) (blank_first groupName_re hw) a
    rw [List.append_nil] at this
    simp [this, scan_fail_nil reGroup_needs, groupsOf, mapOut]
  | cons e l ih =>
    have ih := fun a => ih (fun x hx => h x (List.mem_cons_of_mem _ hx)) a
    rw [List.map_cons, List.flatten_cons, List.append_assoc]
    cases e with
    | group g =>
      obtain ⟨m, m1, m2⟩ := scan_group_group (h _ List.mem_cons_self) ((l.map (Entry.text hashes)).flatten ++ w) a
      simp only [Entry.text]
      rw [m1]
      simp only [mapOut, m2, ih, Out.bind_ok, groupsOf, List.filterMap_cons, List.map_cons]
      rfl
    | serie s =>
      have hs : s.Ok := h _ List.mem_cons_self
      have : scan reGroup a (s.text ++ ((l.map (Entry.text hashes)).flatten ++ w)) = scan reGroup a ((l.map (Entry.text hashes)).flatten ++ w) :=
        scan_quiet groupName_re (t := groupTail) reGroup_needs (serie_quiet hs ws_dollar (fun c hc => (upper_first hc).2.1) (by decide)) (last_semi _) a
      simp only [Entry.text]
      rw [this, ih]; rfl
    | pattern p =>
      have hp : p.Ok := h _ List.mem_cons_self
      have : scan reGroup a (p.text ++ ((l.map (Entry.text hashes)).flatten ++ w)) = scan reGroup a ((l.map (Entry.text hashes)).flatten ++ w) :=
        scan_quiet groupName_re (t := groupTail) reGroup_needs (pattern_quiet hp ws_dollar (fun c hc => (lower_firstU hc).2.1) (by decide)) (last_semi _) a
      simp only [Entry.text]
      rw [this, ih]; rfl

theorem findGroups_read {l : List Entry} (h : ∀ e ∈ l, e.Ok) {w : Str} (hw : Blank w) :
    findGroups (entriesText l ++ w) = groupsNow ((groupsOf l).map GroupT.value) := by
  unfold findGroups
  simp only
  have := joins_replace (joins_entries h hw)
  unfold entriesText
  rw [this, findAll_eq, groups_scan h hw]
  rfl

/-! ### References -/

theorem reGroupName_needs : reGroupName.needs = true := by decide
theorem reChoice_needs : reChoice.needs = true := by decide

theorem f_groupName {s : Str} (h : ∀ c ∈ s.head?, c ≠ 36) : F reGroupName s :=
  f_seq_left (f_reC (fun c hc => by simpa [dollarC] using h c hc))

theorem refs_scan {refs : List (Str × Str)} {post : Str} (h : ∀ r ∈ refs, Blank r.1 ∧ GroupName r.2) (hp : Blank post) (a : Bool) :
    (scan reGroupName a ((refs.map (fun r => r.1 ++ r.2)).flatten ++ post)).map M.text = refs.map Prod.snd := by
  have skip : ∀ (w v : Str) (a : Bool), Blank w → scan reGroupName a (w ++ v) = scan reGroupName a v := by
    intro w v a hw
    refine scan_skip_append reGroupName_needs (.inr rfl) ?_
    intro u1 u2 hu hne
    refine f_groupName ?_
    cases u2 with
    | nil => exact absurd rfl hne
    | cons c u2 =>
      intro x hx
      simp at hx; subst hx
      rcases hw c (by rw [← hu]; simp) with rfl | rfl | rfl | rfl <;> decide
  induction refs generalizing a with
  | nil =>
    have := skip post [] a hp
    rw [List.append_nil] at this
    simp [this, scan_fail_nil reGroupName_needs]
  | cons r refs ih =>
    have hr := h r List.mem_cons_self
    have hstop : Stops upperU ((refs.map (fun r => r.1 ++ r.2)).flatten ++ post) := by
      cases refs with
      | nil =>
        cases post with
        | nil => simp
        | cons c post => simp; exact ws_upperU c (blank_ws hp c List.mem_cons_self)
      | cons r' refs =>
        have hr' := h r' (by simp)
        obtain ⟨u, hu, _⟩ := hr'.2
        cases hb : r'.1 with
        | nil =>
          simp only [List.map_cons, List.flatten_cons, hb, List.nil_append, hu, List.cons_append, stops_cons]
          decide
        | cons c b =>
          simp only [List.map_cons, List.flatten_cons, hb, List.cons_append, stops_cons]
          exact ws_upperU c (blank_ws hr'.1 c (by rw [hb]; simp))
    have hY := y_groupName hr.2 hstop
    rw [List.map_cons, List.flatten_cons, List.append_assoc, List.append_assoc, skip _ _ _ hr.1, scan_hit reGroupName_needs hY]
    simp only [List.map_cons]
    rw [ih (fun x hx => h x (List.mem_cons_of_mem _ hx))]

theorem f_serieName {s : Str} (h : Stops upper s) : F reSerieName s := by
  refine f_seq_left ?_
  cases s with
  | nil => exact f_chr_nil
  | cons c s => exact f_chr (by simpa using h)

theorem y_choice {c : ChoiceT} (hn : SerieName c.serie) {v : Str} (hv : Stops upperU v) :
    ∃ m, Y reChoice ((if c.isReverse then [atC] else []) ++ (c.serie ++ v)) m ∧ m.rest = v ∧ m.text = (if c.isReverse then [atC] else []) ++ c.serie := by
  cases hb : c.isReverse with
  | true => exact ⟨_, y_seq (y_opt_some (y_grp (n := 1) (y_reC (c := atC) (s := c.serie ++ v)))) (y_serieName hn hv), rfl, rfl⟩
  | false =>
    have hF : F (.grp 1 (reC atC)) (c.serie ++ v) := by
      refine f_grp (f_reC ?_)
      obtain ⟨d, u, e, hd, _⟩ := hn
      rw [e]
      intro x hx
      simp at hx; subst hx
      exact (upper_first (.inl hd)).2.2.2.2.2.2.2
    have hY : Y reChoice (c.serie ++ v) _ := y_seq (y_opt_none hF) (y_serieName hn hv)
    exact ⟨_, hY, rfl, rfl⟩

theorem choices_scan {cs : List ChoiceT} {post : Str} (h : ∀ c ∈ cs, Blank c.pre ∧ SerieName c.serie) (hsep : ∀ c ∈ cs.tail, c.isReverse = true ∨ c.pre ≠ [])
    (hp : Blank post) (a : Bool) :
    (scan reChoice a ((cs.map ChoiceT.text).flatten ++ post)).map M.text = cs.map (fun c => (if c.isReverse then [atC] else []) ++ c.serie) := by
  have skip : ∀ (w v : Str) (a : Bool), Blank w → scan reChoice a (w ++ v) = scan reChoice a v := by
    intro w v a hw
    refine scan_skip_append reChoice_needs (.inr rfl) ?_
    intro u1 u2 hu hne
    cases u2 with
    | nil => exact absurd rfl hne
    | cons c u2 =>
      have hc := hw c (by rw [← hu]; simp)
      refine f_opt_seq (f_grp (f_reC ?_)) (f_serieName ?_)
      · intro x hx
        simp at hx; subst hx
        rcases hc with rfl | rfl | rfl | rfl <;> decide
      · rw [List.cons_append, stops_cons]
        exact ws_upper c (ws_iff.2 hc)
  induction cs generalizing a with
  | nil =>
    have := skip post [] a hp
    rw [List.append_nil] at this
    simp [this, scan_fail_nil reChoice_needs]
  | cons c cs ih =>
    have hc := h c List.mem_cons_self
    have hstop : Stops upperU ((cs.map ChoiceT.text).flatten ++ post) := by
      cases cs with
      | nil =>
        cases post with
        | nil => simp
        | cons c post => simp; exact ws_upperU c (blank_ws hp c List.mem_cons_self)
      | cons c' cs =>
        have hc' := h c' (by simp)
        cases hb : c'.pre with
        | nil =>
          rcases hsep c' (by simp) with hr | hr
          · simp only [List.map_cons, List.flatten_cons, ChoiceT.text, hb, List.nil_append, hr, if_true, l_at, List.cons_append, stops_cons]
            decide
          · exact absurd hb hr
        | cons d b =>
          simp only [List.map_cons, List.flatten_cons, ChoiceT.text, hb, List.cons_append, stops_cons]
          exact ws_upperU d (blank_ws hc'.1 d (by rw [hb]; simp))
    obtain ⟨m, m1, m2, m3⟩ := y_choice hc.2 hstop
    have e : ((c :: cs).map ChoiceT.text).flatten ++ post = c.pre ++ ((if c.isReverse then [atC] else []) ++ (c.serie ++ ((cs.map ChoiceT.text).flatten ++ post))) := by
      simp [ChoiceT.text, l_at]
    rw [e, skip _ _ _ hc.1, scan_hit reChoice_needs m1, m2]
    simp only [List.map_cons, m3]
    rw [ih (fun x hx => h x (List.mem_cons_of_mem _ hx))]
    intro x hx
    refine hsep x ?_
    simp only [List.tail_cons]
    exact List.mem_of_mem_tail hx

/-! ### The loops -/

/-- The loop over the series. -/
def seriesFold (groups : GroupSet) : List SerieT → GoMap Serie → Out (GoMap Serie)
  | [], mp => .ok mp
  | s :: l, mp => do
    let gs ← mapOut groups.find (s.refs.map Prod.snd)
    let x ← serieNow s.name (some gs)
    seriesFold groups l (mp.set x.name x)

theorem mapOut_map {α β γ : Type} (f : β → Out γ) (g : α → β) (l : List α) : mapOut (fun a => f (g a)) l = mapOut f (l.map g) := by
  induction l with
  | nil => rfl
  | cons a l ih => simp only [mapOut, List.map_cons, ih]

theorem series_scan {groups : GroupSet} {l : List Entry} (h : ∀ e ∈ l, e.Ok) {w : Str} (hw : Blank w) (a : Bool) (mp : GoMap Serie) :
    serieLoop groups (scan (reEntry reSerieName) a (entriesText l ++ w)) mp = seriesFold groups (seriesOf l) mp := by
  unfold entriesText
  induction l generalizing a mp with
  | nil =>
    have := scan_entry_skip (v := []) serieName_re (blank_first serieName_re hw) a
    rw [List.append_nil] at this
    simp [this, scan_fail_nil reEntry_needs, seriesOf, serieLoop, seriesFold]
  | cons e l ih =>
    have ih := fun a mp => ih (fun x hx => h x (List.mem_cons_of_mem _ hx)) a mp
    rw [List.map_cons, List.flatten_cons, List.append_assoc]
    cases e with
    | group g =>
      simp only [Entry.text]
      rcases scan_serie_group (q := [92, 34]) (by decide) (h _ List.mem_cons_self) ((l.map (Entry.text [92, 34])).flatten ++ w) a with hs | ⟨m, hs, hm⟩
      · rw [hs, ih]; rfl
      · rw [hs]
        simp only [serieLoop, hm]
        rw [ih]; rfl
    | serie s =>
      simp only [Entry.text]
      have hs : s.Ok := h _ List.mem_cons_self
      obtain ⟨m, m1, m2, m3⟩ := scan_serie_serie hs ((l.map (Entry.text [92, 34])).flatten ++ w) a
      rw [m1]
      have hrefs := refs_scan hs.2.2.2.2.1 hs.2.2.2.2.2 false
      have e1 : mapOut (fun n : M => groups.find n.text) (findAll reGroupName s.body) = mapOut groups.find (s.refs.map Prod.snd) := by
        rw [mapOut_map (fun n => groups.find n) M.text, findAll_eq]
        unfold SerieT.body
        rw [hrefs]
      show serieLoop groups (m :: _) mp = seriesFold groups (s :: seriesOf l) mp
      simp only [serieLoop, seriesFold, m2, m3]
      cases hf : findAll reGroupName s.body with
      | nil =>
        exfalso
        rw [findAll_eq] at hf
        unfold SerieT.body at hf
        rw [hf] at hrefs
        simp at hrefs
        exact hs.2.2.2.1 hrefs
      | cons x xs =>
        rw [hf] at e1
        simp only [e1]
        congr 1; funext gs
        congr 1; funext y
        exact ih _ _
    | pattern p =>
      simp only [Entry.text]
      rw [scan_serie_pattern (h _ List.mem_cons_self), ih]; rfl

def readPattern (series : GoMap Serie) (p : PatternT) : Out Pattern := do
  let l ← mapOut (choiceOf series) (p.choices.map (fun c => (if c.isReverse then [atC] else []) ++ c.serie))
  patternNow p.name (some l)

theorem patterns_scan {series : GoMap Serie} {l : List Entry} (h : ∀ e ∈ l, e.Ok) {w : Str} (hw : Blank w) (a : Bool) :
    patternLoop series (scan (reEntry rePatternName) a (entriesText l ++ w)) = mapOut (readPattern series) (patternsOf l) := by
  unfold entriesText
  induction l generalizing a with
  | nil =>
    have := scan_entry_skip (v := []) patternName_re (blank_first patternName_re hw) a
    rw [List.append_nil] at this
    simp [this, scan_fail_nil reEntry_needs, patternsOf, patternLoop, mapOut]
  | cons e l ih =>
    have ih := fun a => ih (fun x hx => h x (List.mem_cons_of_mem _ hx)) a
    rw [List.map_cons, List.flatten_cons, List.append_assoc]
    cases e with
    | group g =>
      simp only [Entry.text]
      rw [scan_pattern_group (by decide) (h _ List.mem_cons_self), ih]; rfl
    | serie s =>
      simp only [Entry.text]
      rw [scan_pattern_serie (h _ List.mem_cons_self), ih]; rfl
    | pattern p =>
      simp only [Entry.text]
      have hp : p.Ok := h _ List.mem_cons_self
      obtain ⟨m, m1, m2, m3⟩ := scan_pattern_pattern hp ((l.map (Entry.text [92, 34])).flatten ++ w) a
      rw [m1]
      have hcs := choices_scan hp.2.2.2.2.1 hp.2.2.2.2.2.1 hp.2.2.2.2.2.2 false
      have e1 : mapOut (fun n : M => choiceOf series n.text) (findAll reChoice p.body) =
          mapOut (choiceOf series) (p.choices.map (fun c => (if c.isReverse then [atC] else []) ++ c.serie)) := by
        rw [mapOut_map (choiceOf series) M.text, findAll_eq]
        unfold PatternT.body
        rw [hcs]
      show patternLoop series (m :: _) = mapOut (readPattern series) (p :: patternsOf l)
      simp only [patternLoop, mapOut, readPattern, m2, m3]
      cases hf : findAll reChoice p.body with
      | nil =>
        exfalso
        rw [findAll_eq] at hf
        unfold PatternT.body at hf
        rw [hf] at hcs
        simp at hcs
        exact hp.2.2.2.1 hcs
      | cons x xs =>
        rw [hf] at e1
        simp only [e1, ih]
        cases mapOut (choiceOf series) (p.choices.map (fun c => (if c.isReverse then [atC] else []) ++ c.serie)) with
        | ok gs => simp only [Out.bind_ok]
        | err => rfl
        | panic => rfl

theorem toPatterns_read {l : List Entry} (h : ∀ e ∈ l, e.Ok) {w : Str} (hw : Blank w) :
    toPatterns (entriesText l ++ w) = (do
      let groups ← groupsNow ((groupsOf l).map GroupT.value)
      let series ← seriesFold groups (seriesOf l) GoMap.empty
      let ps ← mapOut (readPattern series) (patternsOf l)
      patternsNow ps) := by
  unfold toPatterns
  rw [findGroups_read h hw]
  congr 1; funext groups
  unfold findSeries
  rw [findAll_eq, series_scan h hw]
  congr 1; funext series
  unfold findPatterns
  rw [findAll_eq, patterns_scan h hw]

end Verif.Text
