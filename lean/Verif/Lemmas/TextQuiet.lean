import Verif.Lemmas.TextRules2
import Verif.Spec.TextPatterns

/-! Helper lemmas: places where no name followed by a colon begins. -/

namespace Verif.Text
open Verif.Regex Verif.Patterns Verif.Cardinality Verif.Lexer

/-- Where the reader of a text is: outside of a name, in a name or in the blanks behind one. -/
inductive St where
  | off
  | name
  | after
  deriving DecidableEq

def St.step (first rest : Cls) (st : St) (c : UInt8) : St :=
  if ws c then (if st = .off then .off else .after)
  else if first c then .name else if rest c ∧ st = .name then .name else .off

/-- No colon follows a name. -/
def quiet (first rest : Cls) : St → Str → Bool
  | _, [] => true
  | st, c :: s => !(c = 58 ∧ st ≠ .off) && quiet first rest (st.step first rest c) s

def St.run (first rest : Cls) (st : St) (s : Str) : St := s.foldl (St.step first rest) st

theorem quiet_append (first rest : Cls) (st : St) (s t : Str) :
    quiet first rest st (s ++ t) = (quiet first rest st s && quiet first rest (st.run first rest s) t) := by
  induction s generalizing st with
  | nil => simp [quiet, St.run]
  | cons c s ih =>
    simp only [List.cons_append, quiet, ih, Bool.and_assoc]
    rfl

theorem st_run_append (first rest : Cls) (st : St) (s t : Str) : st.run first rest (s ++ t) = (st.run first rest s).run first rest t := by
  simp [St.run]

theorem quiet_nocolon {first rest : Cls} {s : Str} (h : 58 ∉ s) (st : St) : quiet first rest st s = true := by
  induction s generalizing st with
  | nil => rfl
  | cons c s ih =>
    simp only [List.mem_cons, not_or] at h
    simp [quiet, ih h.2, Ne.symm h.1]

/-- The names of a regular expression. -/
structure NameRe (r : Re) (first rest : Cls) : Prop where
  text : ∀ s, ∀ m ∈ run r s, ∃ c u, m.text = c :: u ∧ first c = true ∧ ∀ d ∈ u, rest d = true
  first_ws : ∀ c, first c = true → ws c = false ∧ c ≠ 59
  rest_ws : ∀ c, rest c = true → ws c = false ∧ c ≠ 59

theorem quiet_off {first rest : Cls} {c : UInt8} {u b w : Str} (h1 : first c = true) (hc : ws c = false) (h2 : ∀ d ∈ u, rest d = true ∧ ws d = false)
    (h3 : Blank b) (st : St) : quiet first rest st (c :: u ++ b ++ 58 :: w) = false := by
  have a1 : St.run first rest st (c :: u) = .name := by
    have : ∀ u, (∀ d ∈ u, rest d = true ∧ ws d = false) → St.run first rest .name u = .name := by
      intro u
      induction u with
      | nil => intro _; rfl
      | cons d u ih =>
        intro h
        have hd := h d List.mem_cons_self
        show St.run first rest (St.step first rest .name d) u = .name
        have : St.step first rest .name d = .name := by simp [St.step, hd.1, hd.2]
        rw [this]
        exact ih (fun x hx => h x (List.mem_cons_of_mem _ hx))
    show St.run first rest (St.step first rest st c) u = .name
    have hs : St.step first rest st c = .name := by simp [St.step, h1, hc]
    rw [hs]
    exact this u h2
  have a2 : ∀ b, Blank b → ∀ st, st ≠ .off → St.run first rest st b ≠ .off := by
    intro b
    induction b with
    | nil => intro _ st h; exact h
    | cons d b ih =>
      intro hb st h
      have hd : ws d = true := blank_ws hb d List.mem_cons_self
      show St.run first rest (St.step first rest st d) b ≠ .off
      have hs : St.step first rest st d = .after := by simp [St.step, hd, h]
      rw [hs]
      exact ih (fun x hx => hb x (List.mem_cons_of_mem _ hx)) _ (by simp)
  rw [List.append_assoc, quiet_append, quiet_append, a1]
  have := a2 b h3 .name (by simp)
  simp only [quiet]
  simp [this]

/-- A regular expression which begins with a name, blanks and a colon. -/
def named (r : Re) (t : Re) : Re := .seq (.grp 1 r) (.seq (.lazy ws) (.seq (reC colonC) t))

theorem f_quiet {r : Re} {first rest : Cls} (hr : NameRe r first rest) {t : Re} {u1 u2 v : Str} {st : St}
    (h : quiet first rest st (u1 ++ u2) = true) (hlast : u2.getLast? = some 59) : F (named r t) (u2 ++ v) := by
  rw [quiet_append, Bool.and_eq_true] at h
  generalize hst : st.run first rest u1 = st' at h
  replace h := h.2
  refine f_seq (fun m hm => f_seq (fun k hk => f_seq_left (f_reC ?_)))
  simp only [run, List.mem_map] at hm
  obtain ⟨m, hm, rfl⟩ := hm
  obtain ⟨c, u, e1, hc, hu⟩ := hr.text _ _ hm
  obtain ⟨_, e3, e4⟩ := mem_lazyRun.1 hk
  have e2 := run_text hm
  intro x hx hxe
  subst hxe
  obtain ⟨w, hw⟩ : ∃ w, k.rest = colonC :: w := by
    cases hr' : k.rest with
    | nil => rw [hr'] at hx; simp at hx
    | cons y w => rw [hr'] at hx; simp at hx; exact ⟨w, by rw [hx]⟩
  have hb : Blank k.text := fun d hd => by
    have := ws_iff.1 (e4 d hd); exact this
  simp only at e3
  have e : u2 ++ v = c :: u ++ k.text ++ colonC :: w := by
    rw [← e2, e1, ← e3, hw]; simp
  rw [List.append_eq_append_iff] at e
  rcases e with ⟨q, q1, q2⟩ | ⟨q, q1, q2⟩
  · -- the name and the blanks contain a semicolon
    have hmem : (59 : UInt8) ∈ c :: u ++ k.text := by
      rw [q1]; exact List.mem_append_left _ (List.mem_of_mem_getLast? hlast)
    rcases List.mem_append.1 hmem with hmem | hmem
    · rcases List.mem_cons.1 hmem with hmem | hmem
      · exact (hr.first_ws c hc).2 hmem.symm
      · exact (hr.rest_ws _ (hu _ hmem)).2 rfl
    · rcases hb _ hmem with h | h | h | h <;> simp at h
  · cases q with
    | nil =>
      -- as before
      have hmem : (59 : UInt8) ∈ c :: u ++ k.text := by
        rw [List.append_nil] at q1
        rw [← q1]; exact List.mem_of_mem_getLast? hlast
      rcases List.mem_append.1 hmem with hmem | hmem
      · rcases List.mem_cons.1 hmem with hmem | hmem
        · exact (hr.first_ws c hc).2 hmem.symm
        · exact (hr.rest_ws _ (hu _ hmem)).2 rfl
      · rcases hb _ hmem with h | h | h | h <;> simp at h
    | cons y q =>
      simp only [List.cons_append, List.cons.injEq] at q2
      obtain ⟨rfl, _⟩ := q2
      rw [q1] at h
      have := quiet_off (w := q) hc (hr.first_ws c hc).1 (fun d hd => ⟨hu d hd, (hr.rest_ws d (hu d hd)).1⟩) hb st'
      have h' : quiet first rest st' (c :: u ++ k.text ++ 58 :: q) = true := h
      rw [this] at h'
      simp at h'

theorem scan_quiet {r : Re} {first rest : Cls} (hr : NameRe r first rest) {t : Re} (hn : (named r t).needs = true) {u v : Str} {st : St}
    (h : quiet first rest st u = true) (hlast : u.getLast? = some 59) (a : Bool) : scan (named r t) a (u ++ v) = scan (named r t) a v := by
  refine scan_skip_append hn (.inr rfl) ?_
  intro u1 u2 hu hne
  rw [← hu] at h
  refine f_quiet hr h ?_
  rw [← hu, List.getLast?_append] at hlast
  cases h2 : u2.getLast? with
  | none => simp at h2; exact absurd h2 hne
  | some y => rw [h2] at hlast; simpa using hlast

theorem f_named_stop {r : Re} {first rest : Cls} (hr : NameRe r first rest) {t : Re} {s : Str} (h : Stops first s) : F (named r t) s := by
  refine f_seq (fun m hm => ?_)
  simp only [run, List.mem_map] at hm
  obtain ⟨m, hm, rfl⟩ := hm
  obtain ⟨c, u, e1, hc, hu⟩ := hr.text _ _ hm
  have e2 := run_text hm
  rw [e1] at e2
  rw [← e2] at h
  simp [hc] at h

theorem scan_named_blank {r : Re} {first rest : Cls} (hr : NameRe r first rest) {t : Re} (hn : (named r t).needs = true) {w v : Str} (hw : ∀ c ∈ w, first c = false) (a : Bool) :
    scan (named r t) a (w ++ v) = scan (named r t) a v := by
  refine scan_skip_append hn (.inr rfl) ?_
  intro u1 u2 hu hne
  refine f_named_stop hr ?_
  cases u2 with
  | nil => exact absurd rfl hne
  | cons c u2 =>
    rw [List.cons_append, stops_cons]
    exact hw c (by rw [← hu]; simp)

theorem blank_first {r : Re} {first rest : Cls} (hr : NameRe r first rest) {w : Str} (hw : Blank w) : ∀ c ∈ w, first c = false := by
  intro c hc
  cases h : first c with
  | false => rfl
  | true =>
    have := (hr.first_ws c h).1
    rw [blank_ws hw c hc] at this
    simp at this

/-! ### The three kinds of names -/

def isDollar : Cls := (· = dollarC)

theorem plusName {p q : Cls} {s : Str} {m : M} (h : m ∈ run (.seq (.chr p) (.star q)) s) :
    ∃ c u, m.text = c :: u ∧ p c = true ∧ ∀ d ∈ u, q d = true := by
  simp only [run, List.mem_flatMap, List.mem_map] at h
  obtain ⟨x, hx, y, hy, rfl⟩ := h
  cases s with
  | nil => simp at hx
  | cons c s =>
    by_cases hc : p c
    · simp only [hc, if_true, List.mem_singleton] at hx
      subst hx
      obtain ⟨_, _, h3⟩ := mem_starRun.1 hy
      exact ⟨c, y.text, by simp, hc, h3⟩
    · simp [hc] at hx

theorem serieName_re : NameRe reSerieName upper upperU := by
  refine ⟨fun s m hm => plusName hm, ?_, ?_⟩
  · intro c hc
    have := upper_iff.1 hc
    unfold UpperLetter at this
    refine ⟨not_blank (.inr (.inl (upper_iff.1 hc))), ?_⟩
    rintro rfl; simp at this
  · intro c hc
    rcases upperU_iff.1 hc with h | rfl
    · refine ⟨not_blank (.inr (.inl h)), ?_⟩
      rintro rfl; simp [UpperLetter] at h
    · decide

theorem patternName_re : NameRe rePatternName lower lowerU := by
  refine ⟨fun s m hm => plusName hm, ?_, ?_⟩
  · intro c hc
    have := lower_iff.1 hc
    refine ⟨not_blank (.inl this), ?_⟩
    rintro rfl; simp [LowerLetter] at this
  · intro c hc
    rcases lowerU_iff.1 hc with h | rfl
    · refine ⟨not_blank (.inl h), ?_⟩
      rintro rfl; simp [LowerLetter] at h
    · decide

theorem groupName_re : NameRe reGroupName isDollar upperU := by
  refine ⟨fun s m hm => ?_, ?_, serieName_re.rest_ws⟩
  · simp only [reGroupName, Re.plus, reC] at hm
    simp only [run, List.mem_flatMap, List.mem_map] at hm
    obtain ⟨x, hx, y, ⟨a, ha, b, hb, rfl⟩, rfl⟩ := hm
    cases s with
    | nil => simp at hx
    | cons c s =>
      by_cases hc : c = dollarC
      · simp only [hc, decide_true, if_true, List.mem_singleton] at hx
        subst hx
        simp only at ha
        cases s with
        | nil => simp at ha
        | cons d s =>
          by_cases hd : upperU d
          · simp only [hd, if_true, List.mem_singleton] at ha
            subst ha
            obtain ⟨_, _, h3⟩ := mem_starRun.1 hb
            refine ⟨dollarC, d :: b.text, by simp, by simp [isDollar], ?_⟩
            intro z hz
            rcases List.mem_cons.1 hz with rfl | hz
            · exact hd
            · exact h3 z hz
          · simp [hd] at ha
      · simp [hc] at hx
  · intro c hc
    have : c = dollarC := by simpa [isDollar] using hc
    subst this
    decide

end Verif.Text
