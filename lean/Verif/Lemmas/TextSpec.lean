import Verif.Lemmas.TextElement

/-! Helper lemmas: reading the specifiers of a token. -/

namespace Verif.Regex

/-- Patterns which match at least one character. -/
def Re.needs : Re → Bool
  | .chr _ => true
  | .seq a b => a.needs || b.needs
  | .grp _ a => a.needs
  | _ => false

theorem needs_ne {r : Re} {s : Str} {m : M} (hn : r.needs = true) (h : m ∈ run r s) : m.text ≠ [] := by
  induction r generalizing s m with
  | eps => simp [Re.needs] at hn
  | chr p =>
    cases s with
    | nil => simp [run] at h
    | cons c s =>
      simp only [run] at h
      split at h
      · simp at h; simp [h]
      · simp at h
  | star p => simp [Re.needs] at hn
  | lazy p => simp [Re.needs] at hn
  | seq a b iha ihb =>
    simp only [run, List.mem_flatMap, List.mem_map] at h
    obtain ⟨x, hx, y, hy, rfl⟩ := h
    simp only [Re.needs, Bool.or_eq_true] at hn
    rcases hn with hn | hn
    · have := iha hn hx; simp [this]
    · have := ihb hn hy; simp [this]
  | opt a ih => simp [Re.needs] at hn
  | grp n a ih =>
    simp only [run, List.mem_map] at h
    obtain ⟨x, hx, rfl⟩ := h
    exact (ih hn hx : x.text ≠ [])

theorem scan_skip {r : Re} {a a' : Bool} {c : UInt8} {s : Str} (hn : r.needs = true) (hF : F r (c :: s)) :
    scan r a (c :: s) = scan r a' s := by
  have h := find_skip hF
  cases hf : find r s with
  | none => rw [hf] at h; rw [scan_none h, scan_none hf]
  | some x =>
    obtain ⟨i, m⟩ := x
    rw [hf] at h
    obtain ⟨u, v, _, _, h3⟩ := find_some hf
    have hm := needs_ne hn h3
    rw [scan_some (i := i + 1) (m := m) h hm, scan_some hf hm]

theorem scan_skip_append {r : Re} {a a' : Bool} {u v : Str} (hn : r.needs = true) (hu : u ≠ [] ∨ a = a')
    (hF : ∀ u1 u2, u1 ++ u2 = u → u2 ≠ [] → F r (u2 ++ v)) :
    scan r a (u ++ v) = scan r a' v := by
  induction u generalizing a with
  | nil => rcases hu with h | h
           · exact absurd rfl h
           · rw [h]; rfl
  | cons c u ih =>
    have e := scan_skip (a := a) (a' := a') (c := c) (s := u ++ v) hn (hF [] (c :: u) rfl (by simp))
    refine Eq.trans e ?_
    exact ih (.inr rfl) (fun u1 u2 h1 h2 => hF (c :: u1) u2 (by simp [h1]) h2)

theorem scan_fail_nil {r : Re} {a : Bool} (hn : r.needs = true) : scan r a [] = [] := by
  apply scan_none
  cases hf : find r [] with
  | none => rfl
  | some x =>
    obtain ⟨i, m⟩ := x
    obtain ⟨u, v, h1, _, h3⟩ := find_some hf
    have h4 := run_text h3
    have := needs_ne hn h3
    simp only [List.append_eq_nil_iff] at h1
    rw [h1.2] at h4
    simp only [List.append_eq_nil_iff] at h4
    exact absurd h4.1 this

theorem scan_hit {r : Re} {a : Bool} {s : Str} {m : M} (hn : r.needs = true) (h : Y r s m) : scan r a s = m :: scan r true m.rest :=
  scan_some (find_zero h) (needs_ne hn h.mem)

end Verif.Regex

namespace Verif.Text
open Verif.Regex Verif.Patterns Verif.Cardinality Verif.Lexer

theorem toSpecific_body {s : Specific} (h : SpecNumbersFit (.specific s)) : toSpecific (specificBody s) = .ok s := by
  have h1 : toSpecific (specificStr s) = .ok s := by
    rw [toSpecific_str]
    rcases s with n | ⟨min, _ | max⟩
    · obtain ⟨a, b⟩ := h
      have : n ≠ 0 := by rintro rfl; simp at a
      simp [b, this]
    · simp only [SpecNumbersFit] at h; simp [h]
    · simp only [SpecNumbersFit] at h; simp [h]
  have e : specificStr s = [openC] ++ specificBody s ++ [closeC] := by rw [specificStr_body]; simp
  rw [e, toSpecific_braces] at h1
  have hc := body_chars s
  have hvis : ∀ c ∈ specificBody s, Visible c := by
    intro c hm
    rcases hc c hm with h | rfl
    · unfold Visible; omega
    · simp [Visible, commaC]
  have ht : trimSpace (specificBody s) = specificBody s :=
    trimSpace_id (fun c hm => hvis c (List.mem_of_mem_head? hm)) (fun c hm => hvis c (List.mem_of_mem_getLast? hm))
  unfold toSpecific
  rw [ht]
  have n1 : ¬ [openC] <+: specificBody s := by
    rintro ⟨t, ht⟩
    rcases hc openC (by rw [← ht]; simp) with h | h
    · simp [openC] at h
    · simp [openC, commaC] at h
  have n2 : ¬ [closeC] <:+ specificBody s := by
    rintro ⟨t, ht⟩
    rcases hc closeC (by rw [← ht]; simp) with h | h
    · simp [closeC] at h
    · simp [closeC, commaC] at h
  unfold stripOpen
  rw [if_neg n1]
  simp only [Out.bind_ok]
  unfold stripClose
  rw [if_neg n2]
  simpa using h1

theorem trim_body (s : Specific) : trimSpace (specificBody s) = specificBody s := by
  have hvis : ∀ c ∈ specificBody s, Visible c := by
    intro c hm
    rcases body_chars s c hm with h | rfl
    · unfold Visible; omega
    · simp [Visible, commaC]
  exact trimSpace_id (fun c hm => hvis c (List.mem_of_mem_head? hm)) (fun c hm => hvis c (List.mem_of_mem_getLast? hm))

theorem reSpec_needs : reSpec.needs = true := by decide

/-- Blanks and a character which is neither a brace nor a letter are no specifier. -/
theorem f_spec {w t : Str} {c : UInt8} (hw : Blank w) (hc : c ≠ openC) (hcw : ws c = false) (hl : w ≠ [] ∨ (lower c = false ∧ upperU c = false)) :
    F reSpec (w ++ c :: t) := by
  have h1 : Stops lower (w ++ c :: t) := by
    cases w with
    | nil => rcases hl with h | h
             · exact absurd rfl h
             · simpa using h.1
    | cons x w =>
      have := hw x List.mem_cons_self
      simp only [List.cons_append, stops_cons, Bool.eq_false_iff]
      intro h; rw [lower_iff] at h
      rcases this with rfl | rfl | rfl | rfl <;> simp [LowerLetter] at h
  have h2 : Stops upperU (w ++ c :: t) := by
    cases w with
    | nil => rcases hl with h | h
             · exact absurd rfl h
             · simpa using h.2
    | cons x w =>
      have := hw x List.mem_cons_self
      simp only [List.cons_append, stops_cons, Bool.eq_false_iff]
      intro h; rw [upperU_iff] at h
      rcases this with rfl | rfl | rfl | rfl <;> simp [UpperLetter] at h
  refine f_opt_seq (f_grp (f_token h1)) (f_opt_seq (f_grp (f_rule h2)) (f_star_seq ?_))
  intro u v huv hu
  refine f_seq_left (f_grp (f_range ?_))
  intro x hx
  rw [List.append_eq_append_iff] at huv
  rcases huv with ⟨a, h3, h4⟩ | ⟨a, h3, h4⟩
  · -- the loop stops inside of the blanks
    rw [h4] at hx
    cases a with
    | nil => simp at hx; rw [← hx]; exact hc
    | cons y a =>
      simp at hx; subst hx
      have := hw y (by rw [h3]; simp)
      rintro rfl
      simp [openC] at this
  · cases a with
    | nil => simp at h4; rw [← h4] at hx; simp at hx; rw [← hx]; exact hc
    | cons y a =>
      simp only [List.cons_append, List.cons.injEq] at h4
      have := hu y (by rw [h3]; simp)
      rw [← h4.1, hcw] at this
      cases this

theorem name_stops {mid : Str} {k : Specific} {v : Str} (hm : Blank mid) {p : Cls} (hp : ∀ c, (c = 32 ∨ c = 9 ∨ c = 13 ∨ c = 10 ∨ c = openC) → p c = false) :
    Stops p (mid ++ (specificStr k ++ v)) := by
  cases mid with
  | nil => rw [specificStr_body]; simp [hp]
  | cons x mid =>
    have := hm x List.mem_cons_self
    simp only [List.cons_append, stops_cons]
    exact hp x (by tauto)

theorem y_spec {rules : RuleSet} {s : SpecT} {v : Str} (h : s.Ok rules) :
    ∃ m, Y reSpec (s.name ++ (s.mid ++ (specificStr s.card ++ v))) m ∧ m.rest = v ∧ ∃ g, specOf rules m = .ok g ∧ SpecShows rules s g := by
  obtain ⟨h1, h2, h3, h4, h5⟩ := h
  obtain ⟨caps, hr, hl⟩ := y_range (n := 4) (s := s.card) (v := v)
  have hkeys : ∀ x ∈ caps, x.1 = 4 := by
    intro x hx
    have := caps_groups hr.mem x hx
    simpa [Re.groups, reRange, Re.all, reC, Re.plus] using this
  have hst : Stops ws (specificStr s.card ++ v) := by rw [specificStr_body]; simp [ws, oneOf, openC]
  have htail := y_seq (y_star (blank_ws h2) hst) (y_seq (y_grp (n := 3) hr) (y_eps v))
  have hl1 : look caps 1 = [] := look_none (fun x hx => by rw [hkeys x hx]; decide)
  have hl2 : look caps 2 = [] := look_none (fun x hx => by rw [hkeys x hx]; decide)
  cases hb : s.isRule with
  | false =>
    have hn := h4 hb
    have ht := y_token hn (name_stops (k := s.card) (v := v) h2 (p := letter) (by rintro c (rfl | rfl | rfl | rfl | rfl) <;> decide))
    have hf : F reRule (s.mid ++ (specificStr s.card ++ v)) := f_rule (name_stops h2 (by rintro c (rfl | rfl | rfl | rfl | rfl) <;> decide))
    have hh := y_seq (y_opt_some (y_grp (n := 1) ht)) (y_seq (y_opt_none (f_grp (n := 2) hf)) htail)
    refine ⟨_, hh, rfl, ⟨.token s.name, s.card⟩, ?_, rfl, fun _ => rfl, (fun h => by rw [hb] at h; cases h)⟩
    have hne : s.name ≠ [] := by obtain ⟨c, u, e, _⟩ := hn; rw [e]; simp
    have hbn := body_ne s.card
    simp [specOf, group_eq, look_cons, hl1, hl2, hl, hne, gspecContentNow, trim_body, toSpecific_body h3, gspecNow, hbn]
  | true =>
    obtain ⟨hn, r, hr'⟩ := h5 hb
    have ht := y_rule hn (name_stops (k := s.card) (v := v) h2 (p := upperU) (by rintro c (rfl | rfl | rfl | rfl | rfl) <;> decide))
    have hf : F reToken (s.name ++ (s.mid ++ (specificStr s.card ++ v))) := by
      obtain ⟨h6, h7⟩ := hn
      apply f_token
      cases hs : s.name with
      | nil => exact absurd hs h6
      | cons c u =>
        have := h7 c (by rw [hs]; simp)
        simp only [List.cons_append, stops_cons, Bool.eq_false_iff]
        intro h; rw [lower_iff] at h
        rcases this with h' | rfl
        · unfold UpperLetter at h'; unfold LowerLetter at h; omega
        · simp [LowerLetter] at h
    have hh := y_seq (y_opt_none (f_grp (n := 1) hf)) (y_seq (y_opt_some (y_grp (n := 2) ht)) htail)
    refine ⟨_, hh, rfl, ⟨.rule r, s.card⟩, ?_, rfl, (fun h => by rw [hb] at h; cases h), fun _ => ⟨r, hr', rfl⟩⟩
    have hne := hn.1
    have hbn := body_ne s.card
    simp [specOf, group_eq, look_cons, hl1, hl2, hl, hne, gspecContentNow, trim_body, toSpecific_body h3, gspecNow, hr', hbn]

/-- All the specifiers. -/
theorem scan_specs {rules : RuleSet} {specs : List SpecT} {close : Str} (h : ∀ s ∈ specs, s.Ok rules) (hc : Blank close) (a : Bool) :
    ∃ gs, mapOut (specOf rules) (scan reSpec a (specsBody specs close ++ lit "<-")) = .ok gs ∧ List.Forall₂ (SpecShows rules) specs gs := by
  rw [show lit "<-" = [60, 45] by decide]
  induction specs generalizing a with
  | nil =>
    refine ⟨[], ?_, .nil⟩
    have e : specsBody [] close = close := by simp [specsBody]
    rw [e]
    have h1 : scan reSpec a (close ++ [60, 45]) = scan reSpec a [60, 45] := by
      apply scan_skip_append reSpec_needs (.inr rfl)
      intro u1 u2 hu h2
      exact f_spec (fun c hm => hc c (by rw [← hu]; simp [hm])) (by decide) (by decide) (.inl h2)
    rw [h1]
    rw [scan_skip (a' := a) reSpec_needs (f_spec (w := []) (by intro c hc; simp at hc) (by decide) (by decide) (.inr (by decide)))]
    rw [scan_skip (a' := a) reSpec_needs (f_spec (w := []) (by intro c hc; simp at hc) (by decide) (by decide) (.inr (by decide)))]
    rw [scan_fail_nil reSpec_needs]
    rfl
  | cons s l ih =>
    have hs := h s List.mem_cons_self
    obtain ⟨m, hy, hrest, g, hg, hshow⟩ := y_spec (v := specsBody l close ++ [60, 45]) hs
    obtain ⟨gs, hgs, hall⟩ := ih (fun x hx => h x (List.mem_cons_of_mem _ hx)) true
    refine ⟨g :: gs, ?_, .cons hshow hall⟩
    have e : specsBody (s :: l) close ++ [60, 45] = s.pre ++ (s.name ++ (s.mid ++ (specificStr s.card ++ (specsBody l close ++ [60, 45])))) := by
      simp [specsBody, SpecT.text]
    have hname : ∃ c t, s.name ++ (s.mid ++ (specificStr s.card ++ (specsBody l close ++ [60, 45]))) = c :: t ∧ c ≠ openC ∧ ws c = false := by
      obtain ⟨_, _, _, h4, h5⟩ := hs
      cases hb : s.isRule with
      | false =>
        obtain ⟨c, u, e, hcl, _⟩ := h4 hb
        refine ⟨c, _, by rw [e]; rfl, ?_, not_blank (.inl hcl)⟩
        rintro rfl; simp [LowerLetter, openC] at hcl
      | true =>
        obtain ⟨⟨h6, h7⟩, _⟩ := h5 hb
        cases hs : s.name with
        | nil => exact absurd hs h6
        | cons c u =>
          have := h7 c (by rw [hs]; simp)
          refine ⟨c, _, rfl, ?_, not_blank (by tauto)⟩
          rintro rfl; simp [UpperLetter, openC] at this
    obtain ⟨c, t, e2, hc1, hc2⟩ := hname
    have hskip : scan reSpec a (s.pre ++ (c :: t)) = scan reSpec a (c :: t) := by
      apply scan_skip_append reSpec_needs (.inr rfl)
      intro u1 u2 hu h2
      exact f_spec (fun d hm => hs.1 d (by rw [← hu]; simp [hm])) hc1 hc2 (.inl h2)
    rw [e, e2, hskip, ← e2, scan_hit reSpec_needs hy, hrest]
    simp only [mapOut, hg, hgs, Out.bind_ok]
    rfl

theorem tokenSpecifiers_text {rules : RuleSet} {specs : List SpecT} {close : Str} (hne : specs ≠ []) (h : ∀ s ∈ specs, s.Ok rules) (hc : Blank close) :
    ∃ gs, tokenSpecifiers rules (specsText specs close) = .ok (some gs) ∧ gs ≠ [] ∧ List.Forall₂ (SpecShows rules) specs gs := by
  obtain ⟨gs, h1, h2⟩ := scan_specs h hc true
  have hgs : gs ≠ [] := by
    rintro rfl
    cases h2
    exact hne rfl
  refine ⟨gs, ?_, hgs, h2⟩
  have hie : specs.isEmpty = false := by cases specs <;> simp_all
  have e : specsText specs close = 45 :: 62 :: (specsBody specs close ++ [60, 45]) := by
    simp [specsText, specsBody, hie, show lit "->" = [45, 62] by decide, show lit "<-" = [60, 45] by decide]
  have ht : trimSpace (specsText specs close) = specsText specs close := by
    apply trimSpace_id
    · intro c hc; rw [e] at hc; simp at hc; subst hc; simp [Visible]
    · intro c hc
      rw [e, show (45 :: 62 :: (specsBody specs close ++ [60, 45]) : Str) = (45 :: 62 :: (specsBody specs close ++ [60])) ++ [45] by simp] at hc
      rw [getLast_snoc _ _ _ hc]; simp [Visible]
  unfold tokenSpecifiers
  simp only [ht]
  rw [if_neg (by rw [e]; simp), findAll_eq, e]
  rw [show lit "<-" = [60, 45] by decide] at h1
  rw [scan_skip (a' := true) reSpec_needs (f_spec (w := []) (by intro c hc; simp at hc) (by decide) (by decide) (.inr (by decide)))]
  rw [scan_skip (a' := true) reSpec_needs (f_spec (w := []) (by intro c hc; simp at hc) (by decide) (by decide) (.inr (by decide)))]
  rw [h1]
  simp [hgs]

end Verif.Text
