import Verif.Props.BaseWritten

/-!
# C108: the meaning of a text

Facts about single texts, for all settings of the environment, all orders of the maps and every sufficient number of steps. Two of them are violations:
a text with two readings, and a literal which is not read as a value.
-/

set_option maxRecDepth 100000

namespace Verif.Base
open Verif.Patterns Verif.Lexer

/-- The lexer gives this root for the text, whatever the orders of the maps are. -/
def GivesRoot (script : Str) (r : Root) : Prop := ∀ (x : Setting) (order : List Path → Nat → List Path), AnyOrder order → ∀ fuel, 3000 ≤ fuel →
  x.root order fuel (Kind.name .program) script = some (.ok (.inl (some r)))

theorem text_clear {script : Str} {g : Program → Bool} (h : ∃ a, readsB id (fun r p => clearB 60 r && g p) a = true ∧
    ∀ (x : Setting) (order : List Path → Nat → List Path), AnyOrder order → ∀ fuel, 3000 ≤ fuel →
      x.ast order fuel (Kind.name .program) script = some (.ok (.success a))) :
    ∃ r p, g p = true ∧ GivesRoot script r ∧ ∀ y, AppRun (some (baseEvents exCfg)) r y ↔ y = .ok (.other (.program p)) := by
  obtain ⟨a, h1, h2⟩ := h
  obtain ⟨r, p, h3, h4, h5, h6⟩ := readsB_sound (fun l => List.Perm.refl l) h1
  rw [Bool.and_eq_true] at h5
  refine ⟨r, p, h5.2, fun x order ho fuel hf => x.root_eq (h2 x order ho fuel hf) h3, fun y => ?_⟩
  have hc := clearB_sound _ _ h5.1
  rw [C107_program exCfg r h4 hc]
  obtain ⟨v, hv, hw⟩ := (C107_only exCfg .program r h4 hc _).mp h6
  simp only [Out.ok.injEq, List.cons.injEq, and_true] at hv
  subst hv
  constructor
  · rintro ⟨q, rfl, hq⟩
    rw [C107_unique exCfg .program r h4 hc _ _ hq hw]
  · rintro rfl
    exact ⟨p, rfl, hw⟩

/-- C108: `if ab { break }` is read as the program which it is. -/
theorem C108_if : ∃ r, GivesRoot (lit "if ab { break }") r ∧ ∀ y, AppRun (some (baseEvents exCfg)) r y ↔
    y = .ok (.other (.program ⟨[.ifDecl (.plain (.var (lit "ab"))) (some [.direction .brk])], none⟩)) := by
  have := text_runs
  simp only [Bool.and_eq_true] at this
  obtain ⟨r, p, h1, h2⟩ := text_clear (run_success this.1.1.2)
  rw [isIf_eq h1] at h2
  exact ⟨r, h2⟩

/-- C108, violation: `ab = true` is not read as the assignment of a boolean, but of a list held by a variable of the name `true`. -/
theorem C108_true : ∃ r, GivesRoot (lit "ab = true") r ∧ ∀ y, AppRun (some (baseEvents exCfg)) r y ↔
    y = .ok (.other (.program ⟨[.assignment ⟨.name [.var (lit "ab")], [.list (.listValue (.var (lit "true")))]⟩], none⟩)) := by
  have := text_runs
  simp only [Bool.and_eq_true] at this
  obtain ⟨r, p, h1, h2⟩ := text_clear (run_success this.1.1.1)
  rw [isTrueName_eq h1] at h2
  exact ⟨r, h2⟩

/-- C108, violation: `int ab = 1` is not in the language (`:=` is needed after a declaration); it is read as the declaration `int ab`, without an error. -/
theorem C108_declaration : ∃ r, GivesRoot (lit "int ab = 1") r ∧ ∀ y, AppRun (some (baseEvents exCfg)) r y ↔
    y = .ok (.other (.program ⟨[.declaration ⟨⟨0, integerFlag⟩, lit "ab"⟩], none⟩)) := by
  have := text_runs
  simp only [Bool.and_eq_true] at this
  obtain ⟨a, h0, h00⟩ := run_success this.1.2
  rw [Bool.and_eq_true] at h0
  obtain ⟨r, p, h1, h2⟩ := text_clear ⟨a, h0.1, h00⟩
  rw [isDecl_eq h1] at h2
  exact ⟨r, h2⟩

/-- C108, violation: the text `ab = cd + ef` has two readings: the sum of `cd` and `ef`, and the sum of `ef` and `ef`. -/
theorem C108_two_readings : ∃ r, GivesRoot (lit "ab = cd + ef") r ∧
    AppRun (some (baseEvents exCfg)) r (.ok (.other (.program
      ⟨[.assignment ⟨.name [.var (lit "ab")], [.single (.op (.suffixed (.var (lit "cd")) (.mk 3 (.var (lit "ef")))))]⟩], none⟩))) ∧
    AppRun (some (baseEvents exCfg)) r (.ok (.other (.program
      ⟨[.assignment ⟨.name [.var (lit "ab")], [.single (.op (.suffixed (.var (lit "ef")) (.mk 3 (.var (lit "ef")))))]⟩], none⟩))) := by
  have hne : baseEvents exCfg ≠ [] := by simp [baseEvents]
  have := text_runs
  simp only [Bool.and_eq_true] at this
  obtain ⟨a, h0, h00⟩ := run_success this.2
  rw [Bool.and_eq_true] at h0
  obtain ⟨r, p, h3, _, h5, h6⟩ := readsB_sound (fun l => List.Perm.refl l) h0.1
  obtain ⟨r', p', h3', _, h5', h6'⟩ := readsB_sound (fun l => List.reverse_perm l) h0.2
  rw [h3] at h3'
  simp only [Out.ok.injEq, Option.some.injEq] at h3'
  subst h3'
  rw [isSum_eq h5] at h6
  rw [isSum_eq h5'] at h6'
  exact ⟨r, fun x order ho fuel hf => x.root_eq (h00 x order ho fuel hf) h3, (C48_application _ _ _).mpr ⟨_, [], rfl, hne, h6⟩,
    (C48_application _ _ _).mpr ⟨_, [], rfl, hne, h6'⟩⟩

/-- The two readings are different. -/
example : (⟨[.assignment ⟨.name [.var (lit "ab")], [.single (.op (.suffixed (.var (lit "cd")) (.mk 3 (.var (lit "ef")))))]⟩], none⟩ : Program) ≠
    ⟨[.assignment ⟨.name [.var (lit "ab")], [.single (.op (.suffixed (.var (lit "ef")) (.mk 3 (.var (lit "ef")))))]⟩], none⟩ := by
  simp [lit]

end Verif.Base
