import Verif.Lemmas.TextRefs2

/-!
# Reading the statements
-/

set_option maxRecDepth 10000

namespace Verif.Text
open Verif.Regex Verif.Patterns Verif.Lexer

/-- The patterns without the blanks in front. -/
def restInclude : List Re := [.star ws, .grp 1 reToken, .star ws, reC quoteC, .grp 2 (.star (noneOf [quoteC])), reC quoteC, .lazy ws]
def restReference : List Re := [.star ws, .grp 1 reToken, .star ws, .grp 2 reToken, .chr (noneOf [10]), .grp 3 reToken, .star ws]
def restReplace : List Re := [.star ws, .grp 1 reToken, .chr (noneOf [10]), .grp 2 reToken, .star ws, .grp 3 reToken, .star ws]

theorem reInclude_eq : reInclude = .seq (.lazy ws) (.all (.text (lit "include") :: restInclude)) := rfl
theorem reReference_eq : reReference = .seq (.lazy ws) (.all (.text (lit "reference") :: restReference)) := rfl
theorem reReplace_eq : reReplace = .seq (.lazy ws) (.all (.text (lit "replace") :: restReplace)) := rfl

theorem y_name {n v : Str} (h : TokenName n) (hv : Stops letter v) : Y reToken (n ++ v) ⟨n, v, []⟩ := by
  obtain ⟨c, u, rfl, hc, hu⟩ := h
  exact y_seq (y_chr (lower_iff.2 hc)) (y_star (fun d hd => letter_iff.2 (hu d hd)) hv)

theorem name_stops_ws {n v : Str} (h : TokenName n) : Stops ws (n ++ v) := by
  obtain ⟨c, u, rfl, hc, _⟩ := h
  simpa using not_blank (.inl hc)

theorem blank_stops_letter {g v : Str} (hg : Blank g) (hv : Stops letter v) : Stops letter (g ++ v) := by
  cases g with
  | nil => exact hv
  | cons c g =>
    have := hg c (by simp)
    simp only [List.cons_append, stops_cons]
    rcases this with rfl | rfl | rfl | rfl <;> decide

theorem blank_ne_stops_letter {g v : Str} (hg : Blank g) (hne : g ≠ []) : Stops letter (g ++ v) := by
  cases g with
  | nil => exact absurd rfl hne
  | cons c g =>
    have := hg c (by simp)
    simp only [List.cons_append, stops_cons]
    rcases this with rfl | rfl | rfl | rfl <;> decide

theorem y_lazy_end {v : Str} : Y (.seq (.lazy ws) .eps) v ⟨[], v, []⟩ := by
  cases v with
  | nil => rfl
  | cons c v =>
    unfold Y matchAt
    simp only [run, lazyRun]
    by_cases h : ws c = true
    · simp [h]
    · simp [h]

theorem y_include {g1 name g2 k v : Str} (h1 : Blank g1) (h2 : TokenName name) (h3 : Blank g2) (h4 : 34 ∉ k) :
    ∃ m, Y (.all (.text (lit "include") :: restInclude)) (lit "include" ++ g1 ++ name ++ g2 ++ lit "\"" ++ k ++ lit "\"" ++ v) m ∧
      m.group 1 = name ∧ m.group 2 = k ∧ m.rest = v := by
  have hq : lit "\"" = [quoteC] := by decide
  have y := y_seq (y_text (t := lit "include") (s := g1 ++ (name ++ (g2 ++ quoteC :: (k ++ quoteC :: v)))))
    (y_seq (y_star (p := ws) (blank_ws h1) (name_stops_ws h2))
    (y_seq (y_grp (n := 1) (y_name h2 (blank_stops_letter h3 (by simp; decide))))
    (y_seq (y_star (p := ws) (blank_ws h3) (by simp; decide))
    (y_seq (y_reC (c := quoteC) (s := k ++ quoteC :: v))
    (y_seq (y_grp (n := 2) (y_star (p := noneOf [quoteC]) (u := k) (v := quoteC :: v) (noQuote h4) (by simp [noneOf])))
    (y_seq (y_reC (c := quoteC) (s := v)) (y_lazy_end (v := v))))))))
  have e : lit "include" ++ g1 ++ name ++ g2 ++ lit "\"" ++ k ++ lit "\"" ++ v = lit "include" ++ (g1 ++ (name ++ (g2 ++ quoteC :: (k ++ quoteC :: v)))) := by
    rw [hq]; simp
  rw [e]
  exact ⟨_, y, by simp [group_eq, look_cons], by simp [group_eq, look_cons], rfl⟩

/-- The text behind a statement, without the blanks at its beginning. -/
theorem gap_blanks (g v : Str) (hv : Stops ws v) : ∃ b g', g = b ++ g' ∧ (∀ c ∈ b, ws c = true) ∧ Stops ws (g' ++ v) := by
  induction g with
  | nil => exact ⟨[], [], rfl, by simp, hv⟩
  | cons c g ih =>
    by_cases h : ws c = true
    · obtain ⟨b, g', e, hb, hs⟩ := ih
      refine ⟨c :: b, g', by rw [e]; rfl, ?_, hs⟩
      intro d hd
      rcases List.mem_cons.mp hd with rfl | hd
      · exact h
      · exact hb d hd
    · exact ⟨[], c :: g, rfl, by simp, by simpa using h⟩

theorem y_reference {g1 loc g2 inc tok g v : Str} {dot : UInt8} (h1 : Blank g1) (h2 : TokenName loc) (h3 : Blank g2) (h4 : g2 ≠ [])
    (h5 : TokenName inc) (h6 : TokenName tok) (hd : dot ≠ 10) (hd' : letter dot = false) (hg : Stops letter (g ++ v)) (hv : Stops ws v) :
    ∃ m, Y (.all (.text (lit "reference") :: restReference)) (lit "reference" ++ g1 ++ loc ++ g2 ++ inc ++ [dot] ++ tok ++ (g ++ v)) m ∧
      m.group 1 = loc ∧ m.group 2 = inc ∧ m.group 3 = tok ∧ ∃ b g', g = b ++ g' ∧ m.rest = g' ++ v := by
  obtain ⟨b, g', rfl, hb, hs⟩ := gap_blanks g v hv
  have y := y_seq (y_text (t := lit "reference") (s := g1 ++ (loc ++ (g2 ++ (inc ++ (dot :: (tok ++ (b ++ (g' ++ v)))))))))
    (y_seq (y_star (p := ws) (blank_ws h1) (name_stops_ws h2))
    (y_seq (y_grp (n := 1) (y_name h2 (blank_ne_stops_letter h3 h4)))
    (y_seq (y_star (p := ws) (blank_ws h3) (name_stops_ws h5))
    (y_seq (y_grp (n := 2) (y_name h5 (by simpa using hd')))
    (y_seq (y_chr (p := noneOf [10]) (c := dot) (by simpa [noneOf] using hd))
    (y_seq (y_grp (n := 3) (y_name h6 (by simpa using hg)))
    (y_seq (y_star (p := ws) hb hs) (y_eps (g' ++ v)))))))))
  have e : lit "reference" ++ g1 ++ loc ++ g2 ++ inc ++ [dot] ++ tok ++ (b ++ g' ++ v) =
      lit "reference" ++ (g1 ++ (loc ++ (g2 ++ (inc ++ (dot :: (tok ++ (b ++ (g' ++ v)))))))) := by simp
  rw [e]
  exact ⟨_, y, by simp [group_eq, look_cons], by simp [group_eq, look_cons], by simp [group_eq, look_cons], b, g', rfl, rfl⟩

theorem y_replace {g1 loc g2 inc tok g v : Str} {dot : UInt8} (h1 : Blank g1) (h2 : TokenName loc) (h3 : Blank g2) (h4 : g2 ≠ [])
    (h5 : TokenName inc) (h6 : TokenName tok) (hd : dot ≠ 10) (hd' : letter dot = false) (hg : Stops letter (g ++ v)) (hv : Stops ws v) :
    ∃ m, Y (.all (.text (lit "replace") :: restReplace)) (lit "replace" ++ g1 ++ inc ++ [dot] ++ tok ++ g2 ++ loc ++ (g ++ v)) m ∧
      m.group 1 = inc ∧ m.group 2 = tok ∧ m.group 3 = loc ∧ ∃ b g', g = b ++ g' ∧ m.rest = g' ++ v := by
  obtain ⟨b, g', rfl, hb, hs⟩ := gap_blanks g v hv
  have y := y_seq (y_text (t := lit "replace") (s := g1 ++ (inc ++ (dot :: (tok ++ (g2 ++ (loc ++ (b ++ (g' ++ v)))))))))
    (y_seq (y_star (p := ws) (blank_ws h1) (name_stops_ws h5))
    (y_seq (y_grp (n := 1) (y_name h5 (by simpa using hd')))
    (y_seq (y_chr (p := noneOf [10]) (c := dot) (by simpa [noneOf] using hd))
    (y_seq (y_grp (n := 2) (y_name h6 (blank_ne_stops_letter h3 h4)))
    (y_seq (y_star (p := ws) (blank_ws h3) (name_stops_ws h2))
    (y_seq (y_grp (n := 3) (y_name h2 (by simpa using hg)))
    (y_seq (y_star (p := ws) hb hs) (y_eps (g' ++ v)))))))))
  have e : lit "replace" ++ g1 ++ inc ++ [dot] ++ tok ++ g2 ++ loc ++ (b ++ g' ++ v) =
      lit "replace" ++ (g1 ++ (inc ++ (dot :: (tok ++ (g2 ++ (loc ++ (b ++ (g' ++ v)))))))) := by simp
  rw [e]
  exact ⟨_, y, by simp [group_eq, look_cons], by simp [group_eq, look_cons], by simp [group_eq, look_cons], b, g', rfl, rfl⟩

/-! ## Other statements are skipped -/

/-- One of the keywords. -/
def Kw (w : Str) : Prop := w = lit "include" ∨ w = lit "reference" ∨ w = lit "replace"

theorem Kw.no {w t : Str} (hw : Kw w) (h : NoKeyword t) : ¬ w <:+: t := by
  rcases hw with rfl | rfl | rfl
  · exact h.1
  · exact h.2.1
  · exact h.2.2

theorem Kw.letters {w : Str} (hw : Kw w) : (∀ c ∈ w, letter c = true) ∧ w ≠ [] := by
  rcases hw with rfl | rfl | rfl <;> decide

theorem Kw.not_mem {w : Str} (hw : Kw w) {c : UInt8} (hc : letter c = false) : c ∉ w := by
  intro h
  have := hw.letters.1 c h
  rw [hc] at this; cases this

theorem Kw.blanks {w : Str} (hw : Kw w) : ∀ c, c = 32 ∨ c = 9 ∨ c = 13 ∨ c = 10 → c ∉ w := by
  intro c hc
  refine hw.not_mem ?_
  rcases hc with rfl | rfl | rfl | rfl <;> decide

/-- Whether a word hasWord in a text. -/
def hasWord (w : Str) : Str → Bool
  | [] => w.isEmpty
  | c :: s => w.isPrefixOf (c :: s) || hasWord w s

theorem hasWord_iff {w : Str} : ∀ {s : Str}, w <:+: s ↔ hasWord w s = true
  | [] => by simp [hasWord]
  | c :: s => by
    rw [List.infix_cons_iff, hasWord, Bool.or_eq_true, hasWord_iff, List.isPrefixOf_iff_prefix]

theorem Kw.other {w k : Str} (hw : Kw w) (hk : Kw k) (h : w ≠ k) : ¬ w <:+: k := by
  have e1 : lit "include" = [105, 110, 99, 108, 117, 100, 101] := by decide
  have e2 : lit "reference" = [114, 101, 102, 101, 114, 101, 110, 99, 101] := by decide
  have e3 : lit "replace" = [114, 101, 112, 108, 97, 99, 101] := by decide
  unfold Kw at hw hk
  rw [e1, e2, e3] at hw hk
  rw [hasWord_iff]
  rcases hw with hw | hw | hw <;> rcases hk with hk | hk | hk <;>
    first
      | exact absurd (hw.trans hk.symm) h
      | (rw [hw, hk]; decide)

theorem noKeyword_semis {w : Str} (hw : Kw w) : ∀ {ps : List Str}, ps ≠ [] → (∀ p ∈ ps, NoKeyword p) → ¬ w <:+: withSemicolons ps
  | [], h, _ => absurd rfl h
  | [p], _, h => hw.no (h p (by simp))
  | p :: q :: l, _, h => by
    have ih := noKeyword_semis hw (ps := q :: l) (by simp) (fun x hx => h x (by simp [hx]))
    have := infix_sep (c := 59) (hw.not_mem (by decide)) (hw.no (h p (by simp))) ih
    have e : withSemicolons (p :: q :: l) = p ++ 59 :: withSemicolons (q :: l) := by
      simp only [withSemicolons, show lit ";" = [59] by decide]; simp
    rw [e]; exact this

/-- The keyword of a statement. -/
def StmtT.kw : StmtT → Str
  | .incl .. => lit "include"
  | .refr .. => lit "reference"
  | .repl .. => lit "replace"

theorem StmtT.kw_kw (s : StmtT) : Kw s.kw := by cases s <;> simp [StmtT.kw, Kw]

theorem stmt_no {w : Str} (hw : Kw w) {s : StmtT} {g : Str} {dot : UInt8} (hs : s.Ok) (hd : letter dot = false) (hg : GapT g) (hk : w ≠ s.kw) :
    ¬ w <:+: s.textWith dot ++ g := by
  have hdot := hw.not_mem hd
  have hne := hw.letters.2
  have hkw := hw.other s.kw_kw hk
  obtain ⟨g0, ⟨c0, hc0, hb0⟩, _⟩ := hg
  obtain ⟨g', rfl⟩ : ∃ g', g = c0 :: g' := by
    cases g with
    | nil => simp at hc0
    | cons c g => simp only [List.head?_cons, Option.some.injEq] at hc0; exact ⟨g, by rw [hc0]⟩
  have hg' : ¬ w <:+: g' := fun h => hw.no g0 (h.trans (List.suffix_cons _ _).isInfix)
  have hc : c0 ∉ w := hw.blanks c0 (hb0 c0 (by simp))
  cases s with
  | incl g1 name g2 paths =>
    obtain ⟨a1, a2, a3, a4, a5, a6⟩ := hs
    have e : StmtT.textWith dot (.incl g1 name g2 paths) ++ c0 :: g' =
        lit "include" ++ (g1 ++ (name ++ (g2 ++ (lit "\"" ++ (withSemicolons paths ++ (lit "\"" ++ (c0 :: g'))))))) := by simp [StmtT.textWith]
    rw [e, show lit "\"" = [34] by decide]
    refine infix_gap hw.blanks a1 a2 hne hkw ?_
    have t : ¬ w <:+: withSemicolons paths ++ 34 :: (c0 :: g') :=
      infix_sep (hw.not_mem (by decide)) (noKeyword_semis hw a5 (fun p hp => (a6 p hp).2.2)) (hw.no g0)
    have t2 : ¬ w <:+: name ++ 34 :: (withSemicolons paths ++ 34 :: (c0 :: g')) := infix_sep (hw.not_mem (by decide)) (hw.no a3.2) t
    cases g2 with
    | nil => simpa using t2
    | cons d g2 =>
      have t3 := infix_gap (a := name) hw.blanks a4 (by simp) hne (hw.no a3.2)
        (infix_sep (w := w) (a := []) (c := 34) (hw.not_mem (by decide)) (by simpa using hne) t)
      simpa using t3
  | refr g1 loc g2 inc tok =>
    obtain ⟨a1, a2, a3, a4, a5, a6, a7⟩ := hs
    have e : StmtT.textWith dot (.refr g1 loc g2 inc tok) ++ c0 :: g' =
        lit "reference" ++ (g1 ++ (loc ++ (g2 ++ (inc ++ dot :: (tok ++ c0 :: g'))))) := by simp [StmtT.textWith]
    rw [e]
    exact infix_gap hw.blanks a1 a2 hne hkw (infix_gap hw.blanks a4 a5 hne (hw.no a3.2)
      (infix_sep hdot (hw.no a6.2) (infix_sep hc (hw.no a7.2) hg')))
  | repl g1 inc tok g2 loc =>
    obtain ⟨a1, a2, a3, a4, a5, a6, a7⟩ := hs
    have e : StmtT.textWith dot (.repl g1 inc tok g2 loc) ++ c0 :: g' =
        lit "replace" ++ (g1 ++ (inc ++ dot :: (tok ++ (g2 ++ (loc ++ c0 :: g'))))) := by simp [StmtT.textWith]
    rw [e]
    exact infix_gap hw.blanks a1 a2 hne hkw (infix_sep hdot (hw.no a3.2)
      (infix_gap hw.blanks a5 a6 hne (hw.no a4.2) (infix_sep hc (hw.no a7.2) hg')))

theorem gap_skip {w g : Str} (hw : Kw w) (hg : GapT g) : Skippable w g := by
  obtain ⟨g0, _, c, hc, hb⟩ := hg
  refine skippable_of (hw.no g0) ?_
  intro d hd
  rw [hc] at hd
  cases hd
  exact hw.blanks c (hb c (by simp))

theorem lead_skip {w g : Str} (hw : Kw w) (hg : LeadT g) : Skippable w g := by
  refine skippable_of (hw.no hg.1) ?_
  intro d hd
  exact hw.blanks d (hg.2 d hd d (by simp))

theorem stmt_skip {w : Str} (hw : Kw w) {s : StmtT} {g : Str} {dot : UInt8} (hs : s.Ok) (hd : letter dot = false) (hg : GapT g) (hk : w ≠ s.kw) :
    Skippable w (s.textWith dot ++ g) := by
  refine skippable_of (stmt_no hw hs hd hg hk) ?_
  obtain ⟨_, _, c, hc, hb⟩ := hg
  intro d he
  rw [List.getLast?_append, hc] at he
  cases he
  exact hw.blanks c (hb c (by simp))

/-! ## The three readings -/

theorem scan_key {w : Str} {rl : List Re} {β : Type} {f : List (Nat × Str) → β} {s : Str} (hn : (Re.all (.text w :: rl)).needs = true) :
    (findAll (.seq (.lazy ws) (.all (.text w :: rl))) s).map (fun m => f m.caps) = (scan (.all (.text w :: rl)) false s).map (fun m => f m.caps) := by
  rw [findAll_eq]
  have h := scan_lazy (p := ws) (a := false) (a' := false) hn s.length (s := s) (Nat.le_refl _)
  have h2 := congrArg (List.map (fun x : Str × List (Nat × Str) => f x.2)) h
  simpa [List.map_map, Function.comp_def, M.key] using h2

def inclKind : StmtT → Option (Str × Str)
  | .incl _ n _ ps => some (n, withSemicolons ps)
  | _ => none
def refrKind : StmtT → Option (Str × Str × Str)
  | .refr _ loc _ inc tok => some (inc, loc, tok)
  | _ => none
def replKind : StmtT → Option (Str × Str × Str)
  | .repl _ inc tok _ loc => some (inc, loc, tok)
  | _ => none

theorem semis_quote : ∀ {ps : List Str}, (∀ p ∈ ps, 34 ∉ p) → 34 ∉ withSemicolons ps
  | [], _ => by simp [withSemicolons]
  | [p], h => h p (by simp)
  | p :: q :: l, h => by
    have ih := semis_quote (ps := q :: l) (fun x hx => h x (by simp [hx]))
    simp only [withSemicolons, show lit ";" = [59] by decide, List.mem_append, not_or]
    exact ⟨⟨h p (by simp), by decide⟩, ih⟩

variable {lead : Str} {l : StmtsT} {dot : UInt8}

theorem gap_stops {g : Str} (h : GapT g) (v : Str) : Stops letter (g ++ v) := by
  obtain ⟨_, ⟨c, hc, hb⟩, _⟩ := h
  cases g with
  | nil => simp at hc
  | cons d g =>
    simp only [List.head?_cons, Option.some.injEq] at hc; subst hc
    simp only [List.cons_append, stops_cons]
    rcases hb d (by simp) with rfl | rfl | rfl | rfl <;> decide

theorem find_includes (hl : LeadT lead) (h : l.Ok) (hd' : letter dot = false) :
    (findAll reInclude (lead ++ stmtsTextWith dot l)).map (fun m => (m.group 1, m.group 2)) = l.filterMap (fun x => inclKind x.1) := by
  have hn : (Re.all (.text (lit "include") :: restInclude)).needs = true := rfl
  have hw : Kw (lit "include") := .inl rfl
  rw [reInclude_eq]
  refine (scan_key (f := fun c => (look c 1, look c 2)) hn).trans ?_
  refine scan_stmts (kind := inclKind) hn l lead false ?_ (fun x hx => gap_skip hw (h x hx).2) ?_ (lead_skip hw hl)
  · intro x hx hk
    refine stmt_skip hw (h x hx).1 hd' (h x hx).2 ?_
    obtain ⟨s, g⟩ := x
    cases s with
    | incl => simp [inclKind] at hk
    | refr => simp only [StmtT.kw]; decide
    | repl => simp only [StmtT.kw]; decide
  · intro x hx b hk v hv
    obtain ⟨hs, hg⟩ := h x hx
    obtain ⟨s, g⟩ := x
    cases s with
    | refr => simp [inclKind] at hk
    | repl => simp [inclKind] at hk
    | incl g1 name g2 paths =>
      obtain ⟨a1, a2, a3, a4, a5, a6⟩ := hs
      obtain ⟨m, y, e1, e2, e3⟩ := y_include (v := g ++ v) a1 a3.1 a4 (semis_quote (fun p hp => (a6 p hp).1))
      simp only [inclKind, Option.some.injEq] at hk
      refine ⟨m, y, ?_, [], g, rfl, e3⟩
      rw [← hk, ← e1, ← e2]; rfl

theorem find_references (hl : LeadT lead) (h : l.Ok) (hd : dot ≠ 10) (hd' : letter dot = false) :
    (findAll reReference (lead ++ stmtsTextWith dot l)).map (fun m => (m.group 2, m.group 1, m.group 3)) = refsOf l := by
  have hn : (Re.all (.text (lit "reference") :: restReference)).needs = true := rfl
  have hw : Kw (lit "reference") := .inr (.inl rfl)
  rw [reReference_eq]
  refine (scan_key (f := fun c => (look c 2, look c 1, look c 3)) hn).trans ?_
  refine (scan_stmts (kind := refrKind) hn l lead false ?_ (fun x hx => gap_skip hw (h x hx).2) ?_ (lead_skip hw hl)).trans ?_
  · intro x hx hk
    refine stmt_skip hw (h x hx).1 hd' (h x hx).2 ?_
    obtain ⟨s, g⟩ := x
    cases s with
    | refr => simp [refrKind] at hk
    | incl => simp only [StmtT.kw]; decide
    | repl => simp only [StmtT.kw]; decide
  · intro x hx b hk v hv
    obtain ⟨hs, hg⟩ := h x hx
    obtain ⟨s, g⟩ := x
    cases s with
    | incl => simp [refrKind] at hk
    | repl => simp [refrKind] at hk
    | refr g1 loc g2 inc tok =>
      obtain ⟨a1, a2, a3, a4, a5, a6, a7⟩ := hs
      obtain ⟨m, y, e1, e2, e3, b', g', e4, e5⟩ := y_reference a1 a3.1 a4 a5 a6.1 a7.1 hd hd' (gap_stops hg v) hv
      simp only [refrKind, Option.some.injEq] at hk
      refine ⟨m, y, ?_, b', g', e4, e5⟩
      rw [← hk, ← e1, ← e2, ← e3]; rfl
  · rfl

theorem find_replaces (hl : LeadT lead) (h : l.Ok) (hd : dot ≠ 10) (hd' : letter dot = false) :
    (findAll reReplace (lead ++ stmtsTextWith dot l)).map (fun m => (m.group 1, m.group 3, m.group 2)) = replsOf l := by
  have hn : (Re.all (.text (lit "replace") :: restReplace)).needs = true := rfl
  have hw : Kw (lit "replace") := .inr (.inr rfl)
  rw [reReplace_eq]
  refine (scan_key (f := fun c => (look c 1, look c 3, look c 2)) hn).trans ?_
  refine (scan_stmts (kind := replKind) hn l lead false ?_ (fun x hx => gap_skip hw (h x hx).2) ?_ (lead_skip hw hl)).trans ?_
  · intro x hx hk
    refine stmt_skip hw (h x hx).1 hd' (h x hx).2 ?_
    obtain ⟨s, g⟩ := x
    cases s with
    | repl => simp [replKind] at hk
    | incl => simp only [StmtT.kw]; decide
    | refr => simp only [StmtT.kw]; decide
  · intro x hx b hk v hv
    obtain ⟨hs, hg⟩ := h x hx
    obtain ⟨s, g⟩ := x
    cases s with
    | incl => simp [replKind] at hk
    | refr => simp [replKind] at hk
    | repl g1 inc tok g2 loc =>
      obtain ⟨a1, a2, a3, a4, a5, a6, a7⟩ := hs
      obtain ⟨m, y, e1, e2, e3, b', g', e4, e5⟩ := y_replace a1 a7.1 a5 a6 a3.1 a4.1 hd hd' (gap_stops hg v) hv
      simp only [replKind, Option.some.injEq] at hk
      refine ⟨m, y, ?_, b', g', e4, e5⟩
      rw [← hk, ← e1, ← e2, ← e3]; rfl
  · rfl

end Verif.Text
