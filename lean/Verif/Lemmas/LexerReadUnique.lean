import Verif.Lemmas.LexerReadElem

/-! The readings are unique. -/

namespace Verif.Lexer
open Verif.Patterns Verif.Cardinality

/-- What is read is at the beginning. -/
def Reader.Front (R : Reader) : Prop := ∀ s w, R s (some w) → w <+: s

/-- There is at most one reading. -/
def Reader.Det (R : Reader) : Prop := ∀ s o o', R s o → R s o' → o = o'

theorem judged_front {card : Card} {ws : List Str} {s u : Str} (h : Judged card ws (some u)) (hp : ws.flatten <+: s) : u <+: s := by
  rcases h with ⟨_, h⟩ | ⟨_, _, h⟩ | ⟨_, _, h⟩
  · simp at h; subst h; exact hp
  · simp at h; subst h; exact List.nil_prefix
  · simp at h

theorem judged_det {card : Card} {ws : List Str} {o o' : Option Str} (h : Judged card ws o) (h' : Judged card ws o') : o = o' := by
  rcases h with ⟨a, h⟩ | ⟨a, b, h⟩ | ⟨a, b, h⟩ <;> rcases h' with ⟨a', h'⟩ | ⟨a', b', h'⟩ | ⟨a', b', h'⟩ <;> simp_all

theorem repeats_det {R : Reader} (hR : R.Det) {lim : Option Nat} {s : Str} {ws ws' : List Str} (h : Repeats R lim s ws) (h' : Repeats R lim s ws') : ws = ws' := by
  induction h generalizing ws' with
  | full =>
    cases h' with
    | full => rfl
    | stop _ => rfl
    | more h _ _ => exact absurd rfl h
  | stop h =>
    cases h' with
    | full => rfl
    | stop _ => rfl
    | more _ h2 _ => simpa using hR _ _ _ h h2
  | more h1 h2 h3 ih =>
    cases h' with
    | full => exact absurd rfl h1
    | stop h => simpa using hR _ _ _ h h2
    | more _ h5 h6 =>
      have := hR _ _ _ h2 h5
      simp at this
      subst this
      rw [ih h6]

/-- Without a maximum nothing more is read behind the last repetition. -/
theorem repeats_end {R : Reader} {lim : Option Nat} {s : Str} {ws : List Str} (h : Repeats R lim s ws) (hl : lim = none) : R (s.drop ws.flatten.length) none := by
  induction h with
  | full => simp at hl
  | stop h => simpa using h
  | more _ _ _ ih =>
    subst hl
    have := ih rfl
    simpa [List.drop_drop, Nat.add_comm] using this

theorem patternReads_det (ps : List Pattern) : (PatternReads ps : Reader).Det := by
  have key : ∀ s w, PatternReads ps s none → ¬ PatternReads ps s (some w) := by
    rintro s w h ⟨pre, p, post, ts, h1, _, h2, h3, _⟩
    exact h3 (SpecLeading_det h2 (h p (by simp [h1])))
  intro s o o' h h'
  cases o with
  | none =>
    cases o' with
    | none => rfl
    | some w => exact absurd h' (key s w h)
  | some w =>
    cases o' with
    | none => exact absurd h (key s w h')
    | some w' =>
      obtain ⟨pre, p, post, ts, h1, h2, h3, h4, rfl⟩ := h
      obtain ⟨pre', p', post', ts', h1', h2', h3', h4', rfl⟩ := h'
      rw [h1] at h1'
      rcases List.append_eq_append_iff.mp h1' with ⟨a, rfl, e⟩ | ⟨a, rfl, e⟩
      · cases a with
        | nil =>
          simp at e
          obtain ⟨rfl, _⟩ := e
          rw [SpecLeading_det h3 h3']
        | cons x xs =>
          simp at e
          obtain ⟨rfl, _⟩ := e
          exact absurd (SpecLeading_det h3 (h2' p (by simp))) h4
      · cases a with
        | nil =>
          simp at e
          obtain ⟨rfl, _⟩ := e
          rw [SpecLeading_det h3 h3']
        | cons x xs =>
          simp at e
          obtain ⟨rfl, _⟩ := e
          exact absurd (SpecLeading_det h3' (h2 p' (by simp))) h4'

theorem ruleReads_det (r : Rule) : (RuleReads r : Reader).Det := by
  intro s o o' h h'
  unfold RuleReads at h h'
  cases hc : r.content with
  | constant c =>
    simp only [hc] at h h'
    rcases h with ⟨a, b, rfl⟩ | ⟨a, rfl⟩ <;> rcases h' with ⟨a', b', rfl⟩ | ⟨a', rfl⟩
    · rfl
    · exact absurd ⟨a, b⟩ a'
    · exact absurd ⟨a', b'⟩ a
    · rfl
  | pattern ps card =>
    simp only [hc] at h h'
    obtain ⟨ws, h1, rfl⟩ := h
    obtain ⟨ws', h1', rfl⟩ := h'
    rw [repeats_det (patternReads_det ps) h1 h1']

theorem ruleRepeated_det (r : Rule) (card : Card) : (RuleRepeated r card : Reader).Det := by
  rintro s o o' ⟨ws, h1, h2⟩ ⟨ws', h1', h2'⟩
  have := repeats_det (ruleReads_det r) h1 h1'
  subst this
  rcases h2 with ⟨a, rfl⟩ | ⟨a, b⟩ <;> rcases h2' with ⟨a', rfl⟩ | ⟨a', b'⟩
  · rfl
  · exact absurd a a'
  · exact absurd a' a
  · exact judged_det b b'

theorem ruleRepeated_front (r : Rule) (card : Card) : (RuleRepeated r card : Reader).Front := by
  rintro s w ⟨ws, h1, h2⟩
  rcases h2 with ⟨_, h⟩ | ⟨_, h⟩
  · simp at h
  · exact judged_front h (repeats_prefix (fun _ _ => ruleReads_prefix) h1)

theorem blockReads_det {gap : Reader} (hg : gap.Det) {R : Bool → Reader} (hR : ∀ x, (R x).Det) {opt : Prop} {next ch : Bool} {s : Str} {x y : Outcome}
    (h : BlockReads gap R opt next ch s x) (h' : BlockReads gap R opt next ch s y) : x = y := by
  induction h generalizing y with
  | endOptional a =>
    cases h' with
    | endOptional b => rfl
    | endMissing b => exact absurd a b
    | off h _ => exact absurd rfl h
    | noGap h _ _ => exact absurd rfl h
    | gap h _ _ => exact absurd rfl h
    | gapEnd h _ _ _ => exact absurd rfl h
  | endMissing a =>
    cases h' with
    | endOptional b => exact absurd b a
    | endMissing b => rfl
    | off h _ => exact absurd rfl h
    | noGap h _ _ => exact absurd rfl h
    | gap h _ _ => exact absurd rfl h
    | gapEnd h _ _ _ => exact absurd rfl h
  | off h1 h2 =>
    cases h' with
    | endOptional b => exact absurd rfl h1
    | endMissing b => exact absurd rfl h1
    | off _ h => rw [hR _ _ _ _ h2 h]
  | noGap h1 h2 h3 =>
    cases h' with
    | endOptional b => exact absurd rfl h1
    | endMissing b => exact absurd rfl h1
    | noGap _ _ h => rw [hR _ _ _ _ h3 h]
    | gap _ h _ => simpa using hg _ _ _ h2 h
    | gapEnd _ h _ _ => simpa using hg _ _ _ h2 h
  | gap h1 h2 h3 ih =>
    cases h' with
    | endOptional b => exact absurd rfl h1
    | endMissing b => exact absurd rfl h1
    | noGap _ h _ => simpa using hg _ _ _ h2 h
    | gap _ h h4 =>
      have := hg _ _ _ h2 h
      simp at this
      subst this
      have := ih h4
      simp at this
      rw [this]
    | gapEnd _ h h4 _ =>
      have := hg _ _ _ h2 h
      simp at this
      subst this
      simpa using ih h4
  | gapEnd h1 h2 h3 h4 ih =>
    cases h' with
    | endOptional b => exact absurd rfl h1
    | endMissing b => exact absurd rfl h1
    | noGap _ h _ => simpa using hg _ _ _ h2 h
    | gap _ h h4 =>
      have := hg _ _ _ h2 h
      simp at this
      subst this
      simpa using ih h4
    | gapEnd _ _ _ h => rw [hR _ _ _ _ h4 h]

theorem blockReads_front {gap : Reader} (hg : gap.Front) {R : Bool → Reader} (hR : ∀ x, (R x).Front) {opt : Prop} {next ch : Bool} {s : Str} {x : Outcome}
    (h : BlockReads gap R opt next ch s x) : ∀ u, x = .read (some u) → u <+: s := by
  induction h with
  | endOptional a => simp
  | endMissing a => simp
  | off h1 h2 => rintro u h; simp at h; subst h; exact hR _ _ _ h2
  | noGap h1 h2 h3 => rintro u h; simp at h; subst h; exact hR _ _ _ h3
  | @gap s g o h1 h2 h3 ih =>
    rintro u h
    simp at h
    obtain ⟨v, rfl, rfl⟩ := h
    obtain ⟨z, rfl⟩ := hg _ _ h2
    have := ih v rfl
    rw [List.drop_left] at this
    exact (List.prefix_append_right_inj _).mpr this
  | gapEnd h1 h2 h3 h4 ih => rintro u h; simp at h; subst h; exact hR _ _ _ h4

theorem bestRead_det {os : List (Option Str)} {s : Str} (hf : ∀ v, some v ∈ os → v <+: s) {o o' : Option Str} (h : BestRead os o) (h' : BestRead os o') : o = o' := by
  cases o with
  | none =>
    cases o' with
    | none => rfl
    | some w => exact absurd (h w h'.1) h'.2.1
  | some w =>
    cases o' with
    | none => exact absurd (h' w h.1) h.2.1
    | some w' =>
      have h1 := h.2.2 w' h'.1
      have h2 := h'.2.2 w h.1
      rw [(List.prefix_of_prefix_length_le (hf w h.1) (hf w' h'.1) h2).eq_of_length (by omega)]

section
variable {gap : Reader} (hg : gap.Front)
include hg
mutual
theorem Element.reads_front : (e : Element) → ∀ ch, (e.Reads gap ch).Front
  | .mk _ must _, ch => by
    intro s w h
    simp only [Element.Reads] at h
    obtain ⟨os, h1, h2⟩ := h
    exact linesRead_front must ch s os h1 w h2.1
theorem linesRead_front : (ls : List Line) → ∀ ch s os, LinesRead gap ls ch s os → ∀ v, some v ∈ os → v <+: s
  | [], ch, s, os, h => by simp only [LinesRead] at h; simp [h]
  | l :: ls, ch, s, os, h => by
    simp only [LinesRead] at h
    obtain ⟨o, os', rfl, h1, h2⟩ := h
    intro v hv
    rcases List.mem_cons.mp hv with rfl | hv
    · exact lineReads_front l _ _ _ _ h1
    · exact linesRead_front ls _ _ _ h2 v hv
theorem lineReads_front : (l : Line) → ∀ ch next, (LineReads gap l ch next : Reader).Front
  | [], ch, next => by intro s w h; simp only [LineReads] at h; simp at h; subst h; exact List.nil_prefix
  | .channelSwitch :: is, ch, next => by intro s w h; simp only [LineReads] at h; exact lineReads_front is _ _ _ _ h
  | .container c :: is, ch, next => by
    intro s w h
    simp only [LineReads] at h
    obtain ⟨x, h1, h2⟩ := h
    have hx := blockReads_front hg (PContainer.reads_front c) h1
    cases x with
    | stop => simp at h2; subst h2; exact List.nil_prefix
    | read o =>
      cases o with
      | none => simp at h2
      | some u =>
        obtain ⟨z, rfl⟩ := hx u rfl
        obtain ⟨o', h3, h4⟩ := h2
        rw [List.drop_left] at h3
        cases o' with
        | none => simp at h4
        | some v =>
          simp at h4
          subst h4
          exact (List.prefix_append_right_inj _).mpr (lineReads_front is _ _ _ _ h3)
theorem PContainer.reads_front : (c : PContainer) → ∀ ch, (c.Reads gap ch).Front
  | .token e _ card, ch => by
    intro s w h
    simp only [PContainer.Reads] at h
    obtain ⟨ws, h1, h2⟩ := h
    exact judged_front h2 (repeats_prefix (Element.reads_front e ch) h1)
  | .rule r card, ch => by
    intro s w h
    simp only [PContainer.Reads] at h
    exact ruleRepeated_front r card s w h
  | .recursive _ _ _, ch => by intro s w h; simp only [PContainer.Reads] at h
  | .lines _, ch => by intro s w h; simp only [PContainer.Reads] at h
end
end

section
variable {gap : Reader} (hf : gap.Front) (hg : gap.Det)
include hf hg
mutual
theorem Element.reads_det : (e : Element) → ∀ ch, (e.Reads gap ch).Det
  | .mk _ must _, ch => by
    intro s o o' h h'
    simp only [Element.Reads] at h h'
    obtain ⟨os, h1, h2⟩ := h
    obtain ⟨os', h1', h2'⟩ := h'
    have := linesRead_det must ch s os os' h1 h1'
    subst this
    exact bestRead_det (linesRead_front hf must ch s os h1) h2 h2'
theorem linesRead_det : (ls : List Line) → ∀ ch s os os', LinesRead gap ls ch s os → LinesRead gap ls ch s os' → os = os'
  | [], ch, s, os, os', h, h' => by simp only [LinesRead] at h h'; simp [h, h']
  | l :: ls, ch, s, os, os', h, h' => by
    simp only [LinesRead] at h h'
    obtain ⟨o, x, rfl, h1, h2⟩ := h
    obtain ⟨o', x', rfl, h1', h2'⟩ := h'
    rw [lineReads_det l _ _ _ _ _ h1 h1', linesRead_det ls _ _ _ _ h2 h2']
theorem lineReads_det : (l : Line) → ∀ ch next, (LineReads gap l ch next : Reader).Det
  | [], ch, next => by intro s o o' h h'; simp only [LineReads] at h h'; rw [h, h']
  | .channelSwitch :: is, ch, next => by intro s o o' h h'; simp only [LineReads] at h h'; exact lineReads_det is _ _ _ _ _ h h'
  | .container c :: is, ch, next => by
    intro s o o' h h'
    simp only [LineReads] at h h'
    obtain ⟨x, h1, h2⟩ := h
    obtain ⟨x', h1', h2'⟩ := h'
    have := blockReads_det hg (PContainer.reads_det c) h1 h1'
    subst this
    cases x with
    | stop => simp at h2 h2'; rw [h2, h2']
    | read u =>
      cases u with
      | none => simp at h2 h2'; rw [h2, h2']
      | some u =>
        obtain ⟨a, h3, h4⟩ := h2
        obtain ⟨a', h3', h4'⟩ := h2'
        rw [h4, h4', lineReads_det is _ _ _ _ _ h3 h3']
theorem PContainer.reads_det : (c : PContainer) → ∀ ch, (c.Reads gap ch).Det
  | .token e _ card, ch => by
    intro s o o' h h'
    simp only [PContainer.Reads] at h h'
    obtain ⟨ws, h1, h2⟩ := h
    obtain ⟨ws', h1', h2'⟩ := h'
    have := repeats_det (Element.reads_det e ch) h1 h1'
    subst this
    exact judged_det h2 h2'
  | .rule r card, ch => by
    intro s o o' h h'
    simp only [PContainer.Reads] at h h'
    exact ruleRepeated_det r card s _ _ h h'
  | .recursive _ _ _, ch => by intro s o o' h; simp only [PContainer.Reads] at h
  | .lines _, ch => by intro s o o' h; simp only [PContainer.Reads] at h
end
end

theorem noGap_front : noGap.Front := by intro s w h; simp [noGap] at h
theorem noGap_det : noGap.Det := by intro s o o' h h'; simp [noGap] at h h'; rw [h, h']

theorem gapReads_front (ps : List Path) : (GapReads ps).Front := by
  induction ps with
  | nil => intro s w h; simp [GapReads] at h
  | cons p ps ih =>
    intro s w h
    obtain ⟨x, h1, h2⟩ := h
    cases x with
    | none => exact ih _ _ h2
    | some v => simp at h2; subst h2; exact Element.reads_front noGap_front _ _ _ _ h1

theorem gapReads_det (ps : List Path) : (GapReads ps).Det := by
  induction ps with
  | nil => intro s o o' h h'; simp [GapReads] at h h'; rw [h, h']
  | cons p ps ih =>
    intro s o o' h h'
    obtain ⟨x, h1, h2⟩ := h
    obtain ⟨x', h1', h2'⟩ := h'
    have := Element.reads_det noGap_front noGap_det _ _ _ _ _ h1 h1'
    subst this
    cases x with
    | none => exact ih _ _ _ h2 h2'
    | some v => simp at h2 h2'; rw [h2, h2']

end Verif.Lexer
