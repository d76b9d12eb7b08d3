import Verif.Spec.LexerRead
import Verif.Lemmas.LexerReadUnique
import Verif.Lemmas.LexerReadOrder
import Verif.Props.Ast

/-!
# What a grammar without recursion reads, exactly
-/

namespace Verif.Lexer
open Verif.Patterns Verif.Cardinality

/-- C109: for a grammar without recursion, `not` lines, groups of lines and specifiers: the token of `ToToken` is valid exactly if the grammar, as
written, reads something at the beginning of the script, and then it is what the grammar reads: `Reads` holds of the text of the token if it is
valid and of `none` otherwise, and of nothing else. The channels are tried in the same order every time. -/
theorem C109_reading (env : Env) (chs : List Path) (hch : ∀ k, env.channels k = chs) (hchs : ∀ p ∈ chs, Readable false p.element)
    (hroot : Readable true env.root.element) (fuel : Nat) (script : Str) (hlen : script.length < 2 ^ 63) (st st' : St) (t : Token)
    (h : toToken env fuel script st = some (.ok t, st')) (o : Option Str) :
    env.root.element.Reads (GapReads chs) true script o ↔ o = if t.isValid = true then some t.discoveries else none := by
  have hr : env.root.element.Reads (GapReads chs) true script (if t.isValid = true then some t.discoveries else none) := by
    unfold toToken at h
    rw [M.bind_some_ok (M.get_run _), M.bind_some_ok (M.set_run _ _)] at h
    exact (readSound env chs (by simp [hch]) hchs fuel).elem _ _ _ _ _ _ _ _ true h hroot hlen (.inl (by simp [hch]))
  constructor
  · intro ho
    exact Element.reads_det (gapReads_front chs) (gapReads_det chs) _ _ _ _ _ ho hr
  · rintro rfl
    exact hr

/-- C109: whatever the orders of the channels, the token is a reading, where every text in front of a container is read in one of these orders. -/
theorem C109_any_order (env : Env) (chans : List Path) (hsub : ∀ k, ∀ p ∈ env.channels k, p ∈ chans) (hchs : ∀ p ∈ chans, Readable false p.element)
    (hroot : Readable true env.root.element) (fuel : Nat) (script : Str) (hlen : script.length < 2 ^ 63) (st st' : St) (t : Token)
    (h : toToken env fuel script st = some (.ok t, st')) :
    env.root.element.Reads (fun s o => ∃ k, GapReads (env.channels k) s o) true script (if t.isValid = true then some t.discoveries else none) := by
  unfold toToken at h
  rw [M.bind_some_ok (M.get_run _), M.bind_some_ok (M.set_run _ _)] at h
  exact (readSound env chans hsub hchs fuel).elem _ _ _ _ _ _ _ _ true h hroot hlen (.inl fun k s o h => ⟨k, h⟩)

/-- C109: what is read does not depend on the earlier calls, nor on the dependencies of the root. -/
theorem C109_history (env env' : Env) (chs : List Path) (hch : ∀ k, env.channels k = chs) (hch' : ∀ k, env'.channels k = chs)
    (hchs : ∀ p ∈ chs, Readable false p.element) (hroot : Readable true env.root.element) (he : env'.root.element = env.root.element)
    (fuel fuel' : Nat) (script : Str) (hlen : script.length < 2 ^ 63) (s1 s2 s1' s2' : St) (t t' : Token)
    (h : toToken env fuel script s1 = some (.ok t, s1')) (h' : toToken env' fuel' script s2 = some (.ok t', s2')) :
    t.isValid = t'.isValid ∧ (t.isValid = true → t.discoveries = t'.discoveries) := by
  have h1 := (C109_reading env chs hch hchs hroot fuel script hlen s1 s1' t h _).mpr rfl
  have h2 := (C109_reading env' chs hch' hchs (he ▸ hroot) fuel' script hlen s2 s2' t' h' (if t.isValid = true then some t.discoveries else none)).mp
    (by rw [he]; exact h1)
  cases hv : t.isValid <;> cases hv' : t'.isValid <;> simp [hv, hv'] at h2 ⊢
  exact h2

/-- C110: the order in which the alternatives are written, at the root and in the tokens inside, does not change what is read. -/
theorem C110_reordered (env env' : Env) (chs : List Path) (hch : ∀ k, env.channels k = chs) (hch' : ∀ k, env'.channels k = chs)
    (hchs : ∀ p ∈ chs, Readable false p.element) (hroot : Readable true env.root.element) (hr : Reordered env.root.element env'.root.element)
    (fuel fuel' : Nat) (script : Str) (hlen : script.length < 2 ^ 63) (s1 s2 s1' s2' : St) (t t' : Token)
    (h : toToken env fuel script s1 = some (.ok t, s1')) (h' : toToken env' fuel' script s2 = some (.ok t', s2')) :
    t.isValid = t'.isValid ∧ (t.isValid = true → t.discoveries = t'.discoveries) := by
  have h1 := (C109_reading env chs hch hchs hroot fuel script hlen s1 s1' t h _).mpr rfl
  have h2 := (C109_reading env' chs hch' hchs (hr.readable hroot) fuel' script hlen s2 s2' t' h' (if t.isValid = true then some t.discoveries else none)).mp
    ((hr.reads _ _ _ _).mp h1)
  cases hv : t.isValid <;> cases hv' : t'.isValid <;> simp [hv, hv'] at h2 ⊢
  exact h2

/-- A grammar with two alternatives, a token, repetitions and a channel: `list: item+ | C item;` and `item: A B{0,2};`, behind blanks. -/
def exReadRoot : Element := .mk (lit "root") [[.container (.token exItem [] .nonZeroMultiple)],
  [.container (.rule (exC "A" "a") .mandatory), .channelSwitch, .container (.rule (exC "C" "c") .optional)]] []
def exRead : Env := ⟨⟨exReadRoot, [exItem, exReadRoot]⟩, fun _ => [⟨exBlank, [exBlank]⟩]⟩
/-- The same grammar, with the alternatives in the other order. -/
def exReadRoot' : Element := .mk (lit "root") [[.container (.rule (exC "A" "a") .mandatory), .channelSwitch, .container (.rule (exC "C" "c") .optional)],
  [.container (.token exItem [] .nonZeroMultiple)]] []
def exRead' : Env := ⟨⟨exReadRoot', [exItem, exReadRoot']⟩, fun _ => [⟨exBlank, [exBlank]⟩]⟩

theorem exItem_readable (sw : Bool) : Readable sw exItem := by
  refine .mk (by simp) ?_
  simp only [List.mem_singleton, forall_eq, List.mem_cons, Instruction.container.injEq, List.not_mem_nil, or_false, forall_eq_or_imp]
  exact ⟨.rule trivial, .rule trivial⟩

theorem exBlank_readable (sw : Bool) : Readable sw exBlank := by
  refine .mk (by simp) ?_
  simp only [List.mem_singleton, forall_eq, Instruction.container.injEq]
  exact .rule trivial

theorem exReadRoot_readable : Readable true exReadRoot := by
  refine .mk (by simp) ?_
  simp only [forall_eq, List.mem_cons, Instruction.container.injEq, List.not_mem_nil, or_false, forall_eq_or_imp, reduceCtorEq, false_or]
  refine ⟨.token (exItem_readable _), ?_⟩
  exact ⟨.rule trivial, .rule trivial⟩

/-- The hypotheses of C109 and C110 are met, and both grammars read all of a text with channels. -/
example : (∀ p ∈ [(⟨exBlank, [exBlank]⟩ : Path)], Readable false p.element) ∧ Readable true exRead.root.element ∧
    Reordered exRead.root.element exRead'.root.element ∧
    (∃ t st', toToken exRead 30 (lit " ab ac") exSt = some (.ok t, st') ∧ t.isValid = true ∧ t.discoveries = lit " ab a") ∧
    (∃ t st', toToken exRead' 30 (lit " ab ac") exSt = some (.ok t, st') ∧ t.isValid = true ∧ t.discoveries = lit " ab a") ∧
    (∃ t st', toToken exRead 30 (lit "cab") exSt = some (.ok t, st') ∧ t.isValid = false) := by
  refine ⟨by simpa using exBlank_readable false, exReadRoot_readable, .lines (List.Perm.swap _ _ _), ?_, ?_, ?_⟩
  · obtain ⟨t, st', h1, h2⟩ := of_shows (f := fun t : Token => (t.isValid, t.discoveries)) (v := (true, lit " ab a"))
      (x := toToken exRead 30 (lit " ab ac") exSt) (by decide +kernel)
    simp at h2
    exact ⟨t, st', h1, h2.1, h2.2⟩
  · obtain ⟨t, st', h1, h2⟩ := of_shows (f := fun t : Token => (t.isValid, t.discoveries)) (v := (true, lit " ab a"))
      (x := toToken exRead' 30 (lit " ab ac") exSt) (by decide +kernel)
    simp at h2
    exact ⟨t, st', h1, h2.1, h2.2⟩
  · exact of_shows (by decide +kernel)

/-- C109: there is no going back. A rule as often as possible and then once more is never read, whatever the script. -/
theorem C109_no_backtracking (env : Env) (hch : ∀ k, env.channels k = []) (name : Str) (r : Rule) (hw : RuleWF r)
    (hroot : env.root.element = .mk name [[.container (.rule r .zeroMultiple), .container (.rule r .mandatory)]] [])
    (fuel : Nat) (script : Str) (hlen : script.length < 2 ^ 63) (st st' : St) (t : Token)
    (h : toToken env fuel script st = some (.ok t, st')) : t.isValid = false := by
  have hread : Readable true env.root.element := by
    rw [hroot]
    refine .mk (by simp) ?_
    simp only [forall_eq, List.mem_cons, Instruction.container.injEq, List.not_mem_nil, or_false, forall_eq_or_imp]
    exact ⟨.rule hw, .rule hw⟩
  have h1 := (C109_reading env [] hch (by simp) hread fuel script hlen st st' t h _).mpr rfl
  by_contra hv
  have hv : t.isValid = true := by simpa using hv
  rw [hv, if_pos rfl, hroot] at h1
  simp only [Element.Reads, LinesRead, LineReads, PContainer.Reads] at h1
  obtain ⟨os, ⟨o, os', rfl, hline, rfl⟩, hmem, hne, _⟩ := h1
  simp at hmem
  subst hmem
  obtain ⟨x, hx, hrest⟩ := hline
  have key : ∀ u, RuleRepeated r .zeroMultiple script (some u) → RuleReads r (script.drop u.length) none := by
    rintro u ⟨ws, h2, h3⟩
    rcases h3 with ⟨_, h3⟩ | ⟨_, h3⟩
    · simp at h3
    · rcases h3 with ⟨_, h3⟩ | ⟨h3, _⟩ | ⟨h3, _⟩
      · simp at h3; subst h3
        exact repeats_end h2 rfl
      · exact absurd trivial h3
      · exact absurd trivial h3
  have hx : ∃ u, x = .read (some u) ∧ RuleRepeated r .zeroMultiple script (some u) := by
    cases hx with
    | endOptional _ => simp at hrest; exact absurd hrest hne
    | endMissing h2 => exact absurd trivial h2
    | @noGap _ o _ h2 h3 =>
      cases o with
      | none => simp at hrest
      | some u => exact ⟨u, rfl, h3⟩
    | gap _ h2 _ => simp [GapReads] at h2
    | gapEnd _ h2 _ _ => simp [GapReads] at h2
  obtain ⟨u, rfl, hu⟩ := hx
  have hno := key u hu
  simp only [if_true] at hrest
  obtain ⟨o', ⟨y, hy, hrest'⟩, h4⟩ := hrest
  generalize script.drop u.length = rest at hy hno hrest'
  have hy : ∃ v, RuleRepeated r .mandatory rest (some v) := by
    cases hy with
    | endOptional h2 => simp [PContainer.Optional, SpecAllows] at h2
    | endMissing h2 => simp at hrest'; subst hrest'; simp at h4
    | @noGap _ o _ h2 h3 =>
      cases o with
      | none => simp at hrest'; subst hrest'; simp at h4
      | some v => exact ⟨v, h3⟩
    | gap _ h2 _ => simp [GapReads] at h2
    | gapEnd _ h2 _ _ => simp [GapReads] at h2
  obtain ⟨v, ws, h5, h6⟩ := hy
  have hone : ws = [] := by
    cases h5 with
    | stop _ => rfl
    | more _ h7 _ => simpa using ruleReads_det r _ _ _ hno h7
  subst hone
  rcases h6 with ⟨⟨_, _, _, h6, _⟩, _⟩ | ⟨_, h6⟩
  · exact h6 rfl
  · rcases h6 with ⟨h6, _⟩ | ⟨_, h6, _⟩ | ⟨_, _, h6⟩
    · simp [SpecAllows] at h6
    · simp [SpecAllows] at h6
    · simp at h6

/-- `a* a`. -/
def exBack : Env := ⟨⟨.mk (lit "root") [[.container (.rule (exC "A" "a") .zeroMultiple), .container (.rule (exC "A" "a") .mandatory)]] [], []⟩, fun _ => []⟩

example : RuleWF (exC "A" "a") ∧ ∃ t st', toToken exBack 30 (lit "aaa") exSt = some (.ok t, st') ∧ t.isValid = false :=
  ⟨trivial, of_shows (by decide +kernel)⟩

end Verif.Lexer
