import Verif.Spec.LexerRead

/-! The order of the alternatives. -/

namespace Verif.Lexer
open Verif.Patterns Verif.Cardinality

theorem Reordered.readable {sw : Bool} {e e' : Element} (h : Reordered e e') : Readable sw e → Readable sw e' := by
  induction h with
  | @lines nm must must' nt hp =>
    intro hr
    cases hr with
    | mk h1 h2 => exact .mk (fun l hl => h1 l (hp.mem_iff.mpr hl)) (fun l hl => h2 l (hp.mem_iff.mpr hl))
  | @inside nm pre post l l' e e' sp card nt he ih =>
    intro hr
    cases hr with
    | mk h1 h2 =>
      have hx := h2 (l ++ .container (.token e sp card) :: l') (by simp)
      refine .mk ?_ ?_
      · intro x hxm hsw
        simp only [List.mem_append, List.mem_cons] at hxm
        rcases hxm with hxm | rfl | hxm
        · exact h1 x (by simp [hxm]) hsw
        · have := h1 (l ++ .container (.token e sp card) :: l') (by simp) hsw
          simpa using this
        · exact h1 x (by simp [hxm]) hsw
      · intro x hxm c hc
        simp only [List.mem_append, List.mem_cons] at hxm
        rcases hxm with hxm | rfl | hxm
        · exact h2 x (by simp [hxm]) c hc
        · simp only [List.mem_append, List.mem_cons, Instruction.container.injEq] at hc
          rcases hc with hc | rfl | hc
          · exact hx c (by simp [hc])
          · have := hx (.token e sp card) (by simp)
            cases this with
            | token h => exact .token (ih h)
          · exact hx c (by simp [hc])
        · exact h2 x (by simp [hxm]) c hc
  | trans _ _ ih1 ih2 => exact fun h => ih2 (ih1 h)

theorem linesRead_perm {gap : Reader} {must must' : List Line} (hp : must.Perm must') {ch : Bool} {s : Str} :
    ∀ {os}, LinesRead gap must ch s os → ∃ os', LinesRead gap must' ch s os' ∧ os.Perm os' := by
  induction hp with
  | nil => intro os h; exact ⟨os, h, .refl _⟩
  | cons l _ ih =>
    intro os h
    simp only [LinesRead] at h
    obtain ⟨o, os1, rfl, h1, h2⟩ := h
    obtain ⟨os2, h3, h4⟩ := ih h2
    refine ⟨o :: os2, ?_, h4.cons o⟩
    simp only [LinesRead]
    exact ⟨o, os2, rfl, h1, h3⟩
  | swap a b ls =>
    intro os h
    simp only [LinesRead] at h
    obtain ⟨o, os1, rfl, h1, o2, os2, rfl, h2, h3⟩ := h
    refine ⟨o2 :: o :: os2, ?_, .swap _ _ _⟩
    simp only [LinesRead]
    exact ⟨o2, _, rfl, h2, o, os2, rfl, h1, h3⟩
  | trans _ _ ih1 ih2 =>
    intro os h
    obtain ⟨os1, h1, h2⟩ := ih1 h
    obtain ⟨os2, h3, h4⟩ := ih2 h1
    exact ⟨os2, h3, h2.trans h4⟩

theorem bestRead_perm {os os' : List (Option Str)} (h : os.Perm os') {o : Option Str} (hb : BestRead os o) : BestRead os' o := by
  cases o with
  | none => exact fun v hv => hb v (h.mem_iff.mpr hv)
  | some w => exact ⟨h.mem_iff.mp hb.1, hb.2.1, fun v hv => hb.2.2 v (h.mem_iff.mpr hv)⟩

theorem lineReads_inside {gap : Reader} {c c' : PContainer} (hc : ∀ ch, c.Reads gap ch = c'.Reads gap ch) (ho : c.Optional = c'.Optional) (l l' : Line) :
    ∀ ch next s o, LineReads gap (l ++ .container c :: l') ch next s o ↔ LineReads gap (l ++ .container c' :: l') ch next s o := by
  induction l with
  | nil =>
    intro ch next s o
    have : c.Reads gap = c'.Reads gap := funext hc
    simp only [List.nil_append, LineReads, this, ho]
  | cons i l ih =>
    intro ch next s o
    cases i with
    | channelSwitch => simp only [List.cons_append, LineReads]; exact ih _ _ _ _
    | container d => simp only [List.cons_append, LineReads, ih]

theorem linesRead_inside {gap : Reader} {a b : Line} (hab : ∀ ch next s o, LineReads gap a ch next s o ↔ LineReads gap b ch next s o) (pre post : List Line)
    (ch : Bool) (s : Str) : ∀ os, LinesRead gap (pre ++ a :: post) ch s os ↔ LinesRead gap (pre ++ b :: post) ch s os := by
  induction pre with
  | nil => intro os; simp only [List.nil_append, LinesRead, hab]
  | cons p pre ih => intro os; simp only [List.cons_append, LinesRead, ih]

theorem Reordered.reads {e e' : Element} (h : Reordered e e') (gap : Reader) : ∀ ch s o, e.Reads gap ch s o ↔ e'.Reads gap ch s o := by
  induction h with
  | @lines nm must must' nt hp =>
    intro ch s o
    simp only [Element.Reads]
    constructor
    · rintro ⟨os, h1, h2⟩
      obtain ⟨os', h3, h4⟩ := linesRead_perm hp h1
      exact ⟨os', h3, bestRead_perm h4 h2⟩
    · rintro ⟨os, h1, h2⟩
      obtain ⟨os', h3, h4⟩ := linesRead_perm hp.symm h1
      exact ⟨os', h3, bestRead_perm h4 h2⟩
  | @inside nm pre post l l' e e' sp card nt he ih =>
    intro ch s o
    have hR : ∀ ch, e.Reads gap ch = e'.Reads gap ch := fun ch => by
      funext s o
      exact propext (ih ch s o)
    simp only [Element.Reads]
    have := linesRead_inside (gap := gap) (lineReads_inside (c := .token e sp card) (c' := .token e' sp card)
      (fun ch => by simp only [PContainer.Reads, hR]) rfl l l') pre post ch s
    simp only [this]
  | trans _ _ ih1 ih2 => intro ch s o; rw [ih1, ih2]

end Verif.Lexer
