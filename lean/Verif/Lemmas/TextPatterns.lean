import Verif.Lemmas.TextQuiet

/-! Helper lemmas: the entries of a text of patterns. -/

namespace Verif.Text
open Verif.Regex Verif.Patterns Verif.Cardinality Verif.Lexer

/-! ### Matches -/

theorem y_named {r t : Re} {n g1 s : Str} {k : M} (h1 : Y r (n ++ (g1 ++ colonC :: s)) ⟨n, g1 ++ colonC :: s, []⟩) (h2 : Blank g1) (hk : Y t s k) :
    Y (named r t) (n ++ (g1 ++ colonC :: s)) ⟨n ++ (g1 ++ (colonC :: k.text)), k.rest, (1, n) :: k.caps⟩ := by
  have hl : Y (.seq (.lazy ws) (.seq (reC colonC) t)) (g1 ++ colonC :: s) ⟨g1 ++ (colonC :: k.text), k.rest, k.caps⟩ := by
    have := y_lazy (p := ws) (b := .seq (reC colonC) t) (u := g1) (v := colonC :: s) (k := ⟨colonC :: k.text, k.rest, k.caps⟩) (blank_ws h2) (by
      intro u1 u2 hu hne
      refine f_seq_left (f_reC ?_)
      cases u2 with
      | nil => exact absurd rfl hne
      | cons c u2 =>
        intro x hx
        simp at hx; subst hx
        rcases h2 c (by rw [← hu]; simp) with rfl | rfl | rfl | rfl <;> decide) (by
      simpa using y_seq (y_reC (c := colonC) (s := s)) hk)
    exact this
  have := y_seq (y_grp (n := 1) h1) hl
  simpa [named] using this

/-- A lazy loop which takes nothing. -/
theorem y_lazy_nil {p : Cls} {b : Re} {s : Str} {k : M} (hb : Y b s k) : Y (.seq (.lazy p) b) s k := by
  have := y_lazy (p := p) (b := b) (u := []) (v := s) (k := k) (by simp) (by
    intro u1 u2 hu hne
    simp at hu; exact absurd hu.2 hne) hb
  simpa using this

def entryTail : Re := .all [.lazy ws, .grp 2 (.star (noneOf [semiC])), .lazy ws, reC semiC]

theorem reEntry_named (r : Re) : reEntry r = named r entryTail := rfl

theorem y_entryTail {body v : Str} (h : semiC ∉ body) : Y entryTail (body ++ semiC :: v) ⟨body ++ [semiC], v, [(2, body)]⟩ := by
  have hall : ∀ x ∈ body, noneOf [semiC] x = true := by
    intro x hx; rw [noneOf_iff]; intro h'; simp at h'; subst h'; exact h hx
  have s2 : Stops (noneOf [semiC]) (semiC :: v) := by rw [stops_cons]; simp [noneOf]
  have := y_lazy_nil (p := ws) (y_seq (y_grp (n := 2) (y_star hall s2)) (y_lazy_nil (p := ws) (y_seq (y_reC (c := semiC)) (y_eps v))))
  simpa [entryTail, Re.all] using this

theorem y_reEntry {r : Re} {n g1 body v : Str} (h1 : Y r (n ++ (g1 ++ colonC :: (body ++ semiC :: v))) ⟨n, g1 ++ colonC :: (body ++ semiC :: v), []⟩) (h2 : Blank g1)
    (h3 : semiC ∉ body) : ∃ m, Y (reEntry r) (n ++ (g1 ++ colonC :: (body ++ semiC :: v))) m ∧ m.rest = v ∧ m.group 1 = n ∧ m.group 2 = body := by
  refine ⟨_, y_named h1 h2 (y_entryTail h3), rfl, ?_, ?_⟩
  · simp [group_eq, look_cons]
  · simp [group_eq, look_cons]

theorem reEntry_needs {r : Re} : (reEntry r).needs = true := by
  simp [reEntry, Re.needs, Re.all, reC]

/-- The first of several matches behind which the rest matches. -/
theorem y_seq_later {a b : Re} {s : Str} {m k : M} {l l' : List M} (ha : run a s = l ++ m :: l') (hl : ∀ x ∈ l, F b x.rest) (hb : Y b m.rest k) :
    Y (.seq a b) s ⟨m.text ++ k.text, k.rest, m.caps ++ k.caps⟩ := by
  unfold Y matchAt
  simp only [run, ha, List.flatMap_append, List.flatMap_cons]
  have h0 : l.flatMap (fun m => (run b m.rest).map (fun k => (⟨m.text ++ k.text, k.rest, m.caps ++ k.caps⟩ : M))) = [] := by
    rw [List.flatMap_eq_nil_iff]
    intro x hx
    rw [hl x hx]; rfl
  rw [h0, List.nil_append, List.head?_append, List.head?_map]
  have hb' : (run b m.rest).head? = some k := hb
  rw [hb']
  rfl

theorem starRun_back {p : Cls} {u w v : Str} (hu : ∀ c ∈ u, p c = true) (hw : ∀ c ∈ w, p c = true) (hv : Stops p v) :
    ∃ l l', starRun p (u ++ (w ++ v)) = l ++ ⟨u, w ++ v, []⟩ :: l' ∧ ∀ x ∈ l, ∃ w1 w2, w1 ++ w2 = w ∧ w1 ≠ [] ∧ x.rest = w2 ++ v := by
  induction u with
  | nil =>
    clear hu
    induction w with
    | nil =>
      obtain ⟨l', hl'⟩ := starRun_append (u := []) (by simp) hv
      exact ⟨[], l', hl', by simp⟩
    | cons c w ih =>
      obtain ⟨l, l', h1, h2⟩ := ih (fun c hc => hw c (List.mem_cons_of_mem _ hc))
      refine ⟨(starRun p (w ++ v)).map (fun m => ⟨c :: m.text, m.rest, m.caps⟩), [], ?_, ?_⟩
      · simp only [List.nil_append, List.cons_append, starRun, if_pos (hw c List.mem_cons_self)]
      · intro x hx
        obtain ⟨y, hy, rfl⟩ := List.mem_map.1 hx
        obtain ⟨_, h3, h4⟩ := mem_starRun.1 hy
        rw [List.append_eq_append_iff] at h3
        rcases h3 with ⟨q, q1, q2⟩ | ⟨q, q1, q2⟩
        · exact ⟨c :: y.text, q, by simp [q1], by simp, q2⟩
        · cases q with
          | nil => exact ⟨c :: w, [], by simp, by simp, by simpa using q2.symm⟩
          | cons z q =>
            exfalso
            have hz : p z = true := h4 z (by rw [q1]; simp)
            rw [q2] at hv
            simp [hz] at hv
  | cons c u ih =>
    obtain ⟨l, l', h1, h2⟩ := ih (fun c hc => hu c (List.mem_cons_of_mem _ hc))
    refine ⟨l.map (fun m => ⟨c :: m.text, m.rest, m.caps⟩), l'.map (fun m => ⟨c :: m.text, m.rest, m.caps⟩) ++ [⟨[], c :: (u ++ (w ++ v)), []⟩], ?_, ?_⟩
    · simp only [List.cons_append, starRun, if_pos (hu c List.mem_cons_self), h1, List.map_append, List.map_cons, List.append_assoc]
    · intro x hx
      obtain ⟨y, hy, rfl⟩ := List.mem_map.1 hx
      exact h2 y hy

def groupTail : Re := .all [.lazy ws, reC quoteC, .grp 2 (.star (noneOf [semiC])), reC quoteC, .lazy ws, reC semiC]

theorem reGroup_named : reGroup = named reGroupName groupTail := rfl
theorem reGroup_needs : reGroup.needs = true := by decide

theorem y_groupTail {g2 opts post v : Str} (h1 : Blank g2) (h2 : semiC ∉ opts) (h3 : Blank post) :
    ∃ t, Y groupTail (g2 ++ quoteC :: (opts ++ quoteC :: (post ++ semiC :: v))) ⟨t, v, [(2, opts)]⟩ := by
  have hall : ∀ x ∈ opts, noneOf [semiC] x = true := by
    intro x hx; rw [noneOf_iff]; intro h'; simp at h'; subst h'; exact h2 hx
  have hallp : ∀ x ∈ quoteC :: post, noneOf [semiC] x = true := by
    intro x hx; rw [noneOf_iff]; intro h'; simp at h'; subst h'
    rcases List.mem_cons.1 hx with hx | hx
    · revert hx; decide
    · exact blank_free h3 (by decide) hx
  have s2 : Stops (noneOf [semiC]) (semiC :: v) := by rw [stops_cons]; simp [noneOf]
  obtain ⟨l, l', hr, hl⟩ := starRun_back (u := opts) (w := quoteC :: post) (v := semiC :: v) hall hallp s2
  have e : opts ++ (quoteC :: post ++ semiC :: v) = opts ++ quoteC :: (post ++ semiC :: v) := by simp
  rw [e] at hr
  -- behind the last quote
  have hend : Y (.all [reC quoteC, .lazy ws, reC semiC]) (quoteC :: (post ++ semiC :: v)) ⟨quoteC :: (post ++ [semiC]), v, []⟩ := by
    have hlz := y_lazy (p := ws) (b := .seq (reC semiC) .eps) (u := post) (v := semiC :: v) (blank_ws h3) (by
      intro u1 u2 hu hne
      refine f_seq_left (f_reC ?_)
      cases u2 with
      | nil => exact absurd rfl hne
      | cons c u2 =>
        intro x hx
        simp at hx; subst hx
        rcases h3 c (by rw [← hu]; simp) with rfl | rfl | rfl | rfl <;> decide) (y_seq (y_reC (c := semiC)) (y_eps v))
    simpa [Re.all] using y_seq (y_reC (c := quoteC)) hlz
  have hg : Y (.all [.grp 2 (.star (noneOf [semiC])), reC quoteC, .lazy ws, reC semiC]) (opts ++ quoteC :: (post ++ semiC :: v))
      ⟨opts ++ quoteC :: (post ++ [semiC]), v, [(2, opts)]⟩ := by
    have hrun : run (.grp 2 (.star (noneOf [semiC]))) (opts ++ quoteC :: (post ++ semiC :: v)) =
        l.map (fun m => ⟨m.text, m.rest, (2, m.text) :: m.caps⟩) ++ ⟨opts, quoteC :: (post ++ semiC :: v), [(2, opts)]⟩ ::
          l'.map (fun m => ⟨m.text, m.rest, (2, m.text) :: m.caps⟩) := by
      simp only [run, hr, List.map_append, List.map_cons, List.cons_append]
    have := y_seq_later (b := .all [reC quoteC, .lazy ws, reC semiC]) hrun (by
      intro x hx
      obtain ⟨y, hy, rfl⟩ := List.mem_map.1 hx
      obtain ⟨w1, w2, q1, q2, q3⟩ := hl y hy
      simp only [q3]
      refine f_seq_left (f_reC ?_)
      cases w1 with
      | nil => exact absurd rfl q2
      | cons z w1 =>
        simp only [List.cons_append, List.cons.injEq] at q1
        intro x hx
        cases w2 with
        | nil => simp at hx; subst hx; decide
        | cons c w2 =>
          simp at hx; subst hx
          rcases h3 c (by rw [← q1.2]; simp) with rfl | rfl | rfl | rfl <;> decide) hend
    simpa [Re.all] using this
  have hq := y_seq (y_reC (c := quoteC)) hg
  have := y_lazy (p := ws) (b := .seq (reC quoteC) (.all [.grp 2 (.star (noneOf [semiC])), reC quoteC, .lazy ws, reC semiC])) (u := g2) (blank_ws h1) (by
      intro u1 u2 hu hne
      refine f_seq_left (f_reC ?_)
      cases u2 with
      | nil => exact absurd rfl hne
      | cons c u2 =>
        intro x hx
        simp at hx; subst hx
        rcases h1 c (by rw [← hu]; simp) with rfl | rfl | rfl | rfl <;> decide) hq
  exact ⟨_, this⟩

theorem y_chrStar {p q : Cls} {c : UInt8} {u v : Str} (h1 : p c = true) (h2 : ∀ d ∈ u, q d = true) (h3 : Stops q v) :
    Y (.seq (.chr p) (.star q)) (c :: u ++ v) ⟨c :: u, v, []⟩ := by
  simpa using y_seq (y_chr (s := u ++ v) h1) (y_star h2 h3)

theorem stops_gap {p : Cls} {g s : Str} (hg : Blank g) (hp : ∀ c, ws c = true → p c = false) (h : p colonC = false) : Stops p (g ++ colonC :: s) := by
  cases g with
  | nil => rw [List.nil_append, stops_cons]; exact h
  | cons c g => rw [List.cons_append, stops_cons]; exact hp c (blank_ws hg c List.mem_cons_self)

theorem ws_upperU (c : UInt8) (h : ws c = true) : upperU c = false := by
  rcases ws_iff.1 h with rfl | rfl | rfl | rfl <;> decide
theorem ws_lowerU (c : UInt8) (h : ws c = true) : lowerU c = false := by
  rcases ws_iff.1 h with rfl | rfl | rfl | rfl <;> decide

theorem y_serieName {n v : Str} (h : SerieName n) (hv : Stops upperU v) : Y reSerieName (n ++ v) ⟨n, v, []⟩ := by
  obtain ⟨c, u, rfl, hc, hu⟩ := h
  exact y_chrStar (upper_iff.2 hc) (fun d hd => upperU_iff.2 (hu d hd)) hv

theorem y_patternName {n v : Str} (h : PatternName n) (hv : Stops lowerU v) : Y rePatternName (n ++ v) ⟨n, v, []⟩ := by
  obtain ⟨c, u, rfl, hc, hu⟩ := h
  exact y_chrStar (lower_iff.2 hc) (fun d hd => lowerU_iff.2 (hu d hd)) hv

theorem y_groupName {n v : Str} (h : GroupName n) (hv : Stops upperU v) : Y reGroupName (n ++ v) ⟨n, v, []⟩ := by
  obtain ⟨u, rfl, hne, hu⟩ := h
  cases u with
  | nil => exact absurd rfl hne
  | cons c u =>
    have := y_seq (y_reC (c := dollarC) (s := c :: u ++ v)) (y_plus (p := upperU) (upperU_iff.2 (hu c List.mem_cons_self))
      (fun d hd => upperU_iff.2 (hu d (List.mem_cons_of_mem _ hd))) hv)
    exact this

/-! ### Quiet texts -/

theorem run_blank (first rest : Cls) {w : Str} (hw : Blank w) : St.run first rest .off w = .off := by
  induction w with
  | nil => rfl
  | cons c w ih =>
    have hc : ws c = true := blank_ws hw c List.mem_cons_self
    show St.run first rest (St.step first rest .off c) w = .off
    have : St.step first rest .off c = .off := by simp [St.step, hc]
    rw [this]
    exact ih (fun d hd => hw d (List.mem_cons_of_mem _ hd))

theorem step_other {first rest : Cls} {c : UInt8} (h1 : ws c = false) (h2 : first c = false) (h3 : rest c = false) (st : St) :
    St.step first rest st c = .off := by simp [St.step, h1, h2, h3]

/-- Characters which are no part of names. -/
theorem run_nofirst {first rest : Cls} {s : Str} (h : ∀ c ∈ s, first c = false) : St.run first rest .off s = .off := by
  induction s with
  | nil => rfl
  | cons c s ih =>
    show St.run first rest (St.step first rest .off c) s = .off
    have : St.step first rest .off c = .off := by simp [St.step, h c List.mem_cons_self]
    rw [this]
    exact ih (fun d hd => h d (List.mem_cons_of_mem _ hd))

theorem quiet_nofirst {first rest : Cls} {s : Str} (h : ∀ c ∈ s, first c = false) : quiet first rest .off s = true := by
  induction s with
  | nil => rfl
  | cons c s ih =>
    have : St.step first rest .off c = .off := by simp [St.step, h c List.mem_cons_self]
    simp only [quiet, this, ih (fun d hd => h d (List.mem_cons_of_mem _ hd))]
    simp

end Verif.Text
