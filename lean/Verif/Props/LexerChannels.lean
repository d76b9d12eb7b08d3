import Verif.Lemmas.LexerChannels
import Verif.Props.LexerMore

/-!
# C68: channels and channel switches

`env.channels k` is the order in which the channels are tried for the `k`-th time; here there is one channel, a token with one
line, the constant `z`.
-/

namespace Verif.Lexer
open Verif.Patterns Verif.Cardinality

/-- C68: a line of mandatory constants and channel switches (`items`), with a channel of the constant text `z`: a script is
accepted exactly if it begins with a text of `SwitchText`, which is then the recognised text. (No constant begins with the
channel text, and conversely.) -/
theorem C68_channel_line (env : Env) (z : Str) (items : List (Option Str)) (hchan : ConstChannel env z)
    (hr : ConstRoot env items) (hsome : ∃ c, some c ∈ items) (hcs : ConstsFit z items) (script : Str) (st : St) (fuel : Nat)
    (hfuel : 2 * script.length + 13 ≤ fuel) :
    ∃ t st', toToken env fuel script st = some (.ok t, st') ∧
      (t.isValid = true ↔ ∃ w rest, script = w ++ rest ∧ SwitchText z true true items w) ∧
      (t.isValid = true → ∃ rest, script = t.discoveries ++ rest ∧ SwitchText z true true items t.discoveries) := by
  obtain ⟨hz0, zn, rz, zd, hzn, hz, hch⟩ := hchan
  obtain ⟨name, line, hname, hline, hroot⟩ := hr
  unfold ConstsFit at hcs
  obtain ⟨n, rfl⟩ : ∃ n, fuel = n + 4 := ⟨fuel - 4, by omega⟩
  have hnn : ¬ ∀ i ∈ items, i = none := by
    obtain ⟨c, hc⟩ := hsome
    intro h; have := h _ hc; simp at this
  obtain ⟨l, st', h1, h2, h3⟩ := line_channels hzn hz hz0 (zd := zd) hch env.root.deps n items line hline hcs true true script []
    { st with recursive := fun _ => none } (by omega) (by simp [blocksValid]) (fun h => absurd h hnn)
  have hw : ∀ a b w, SwitchText z a b items w → w ≠ [] := by
    intro a b w h
    clear h2 h3 h1 hnn hline
    induction h with
    | nil => simp at hsome
    | switch _ ih => exact ih (by simpa using hsome) (fun c hc => hcs c (by simp [hc]))
    | @const _ _ c _ _ _ _ _ _ _ => have := (hcs c (by simp)).1; simp [this]
  have hne : blocksValid l = true → blocksDiscoveries l ≠ [] := by
    intro hv
    obtain ⟨w, rest, _, e2, e3⟩ := h2 hv
    rw [e3]
    simpa [blocksDiscoveries] using hw _ _ w e2
  have hrun : lineToMatches env (n + 1) line env.root.deps script true { st with recursive := fun _ => none } =
      some (.ok (some l), st') := by simpa only [lineToMatches] using h1
  have := token_single hrun hne hname
  refine ⟨.mk name (some (.mk (.mk 0 l) none)), st', ?_, ?_, ?_⟩
  · unfold toToken
    rw [M.bind_some_ok (M.get_run _), M.bind_some_ok (M.set_run _ _), hroot]
    exact this
  · simp only [Token.isValid, TokenContent.isValid, LineMatch.isValid]
    constructor
    · intro hv
      obtain ⟨w, rest, e1, e2, _⟩ := h2 hv
      exact ⟨w, rest, e1, e2⟩
    · rintro ⟨w, rest, e1, e2⟩
      exact h3 w rest e1 e2
  · intro hv
    have hv' : blocksValid l = true := by simpa [Token.isValid, TokenContent.isValid, LineMatch.isValid] using hv
    obtain ⟨w, rest, e1, e2, e3⟩ := h2 hv'
    have : Token.discoveries (.mk name (some (.mk (.mk 0 l) none))) = w := by
      simp [Token.discoveries, TokenContent.discoveries, LineMatch.discoveries, hv', e3, blocksDiscoveries]
    rw [this]
    exact ⟨rest, e1, e2⟩

/-- C68: without switches a script is accepted exactly if it begins with the constants, each of them with any number of channel
texts in front of it. -/
theorem C68_no_switch (env : Env) (z : Str) (cs : List Str) (h0 : cs ≠ []) (hchan : ConstChannel env z)
    (hr : ConstRoot env (cs.map some)) (hcs : ConstsFit z (cs.map some)) (script : Str) (st : St) (fuel : Nat)
    (hfuel : 2 * script.length + 13 ≤ fuel) :
    ∃ t st', toToken env fuel script st = some (.ok t, st') ∧
      (t.isValid = true ↔ ∃ (js : List Nat) (rest : Str), js.length = cs.length ∧
        script = (List.zipWith (fun j c => (List.replicate j z).flatten ++ c) js cs).flatten ++ rest) := by
  obtain ⟨t, st', h1, h2, _⟩ := C68_channel_line env z _ hchan hr
    (by obtain ⟨c, cs', rfl⟩ := List.exists_cons_of_ne_nil h0; exact ⟨c, by simp⟩) hcs script st fuel hfuel
  refine ⟨t, st', h1, h2.trans ?_⟩
  constructor
  · rintro ⟨w, rest, e1, e2⟩
    obtain ⟨js, e3, rfl⟩ := (switchText_no_switch z cs w).mp e2
    exact ⟨js, rest, e3, e1⟩
  · rintro ⟨js, rest, e1, e2⟩
    exact ⟨_, rest, e2, (switchText_no_switch z cs _).mpr ⟨js, e1, rfl⟩⟩

/-- C68 (violation): a switch takes effect too late. The line `a`, switch, `b` accepts a channel text between `a` and `b`. -/
theorem C68_switch_late (env : Env) (z a b : Str) (hchan : ConstChannel env z) (hr : ConstRoot env [some a, none, some b])
    (hcs : ConstsFit z [some a, none, some b]) (rest : Str) (st : St) (fuel : Nat)
    (hfuel : 2 * (a ++ z ++ b ++ rest).length + 13 ≤ fuel) :
    ∃ t st', toToken env fuel (a ++ z ++ b ++ rest) st = some (.ok t, st') ∧ t.isValid = true := by
  obtain ⟨t, st', h1, h2, _⟩ := C68_channel_line env z _ hchan hr ⟨a, by simp⟩ hcs _ st fuel hfuel
  exact ⟨t, st', h1, h2.mpr ⟨_, rest, rfl, switchText_switch_late z a b⟩⟩

/-- C68 (violation): channels are never switched on again. The line switch, `a`, switch, `b` accepts no channel text between `a`
and `b`, where the channels should be on again; it accepts one in front of `a`, where they should be off. -/
theorem C68_switch_once (env : Env) (z a b : Str) (hchan : ConstChannel env z)
    (hr : ConstRoot env [none, some a, none, some b]) (hcs : ConstsFit z [none, some a, none, some b]) (script : Str) (st : St)
    (fuel : Nat) (hfuel : 2 * script.length + 13 ≤ fuel) :
    ∃ t st', toToken env fuel script st = some (.ok t, st') ∧
      (t.isValid = true ↔ a ++ b <+: script ∨ z ++ a ++ b <+: script) := by
  obtain ⟨t, st', h1, h2, _⟩ := C68_channel_line env z _ hchan hr ⟨a, by simp⟩ hcs script st fuel hfuel
  refine ⟨t, st', h1, h2.trans ?_⟩
  constructor
  · rintro ⟨w, rest, rfl, e2⟩
    rcases (switchText_switch_once z a b hchan.1 w).mp e2 with rfl | rfl
    · exact .inl ⟨rest, rfl⟩
    · exact .inr ⟨rest, rfl⟩
  · rintro (⟨rest, rfl⟩ | ⟨rest, rfl⟩)
    · exact ⟨_, rest, rfl, (switchText_switch_once z a b hchan.1 _).mpr (.inl rfl)⟩
    · exact ⟨_, rest, rfl, (switchText_switch_once z a b hchan.1 _).mpr (.inr rfl)⟩

/-- The line `a`, switch, `b`, `c` with the channel `_`. -/
def exSwitchLine : Line := [.container (.rule (exC "A" "a") .mandatory), .channelSwitch, .container (.rule (exC "B" "b") .mandatory),
  .container (.rule (exC "C" "c") .mandatory)]
def exSwitchEnv : Env := ⟨⟨.mk (lit "root") [exSwitchLine] [], []⟩,
  fun _ => [⟨.mk (lit "ws") [[.container (.rule (exC "W" "_") .mandatory)]] [], []⟩]⟩

example : ConstChannel exSwitchEnv (lit "_") ∧ ConstRoot exSwitchEnv [some (lit "a"), none, some (lit "b"), some (lit "c")] ∧
    ConstsFit (lit "_") [some (lit "a"), none, some (lit "b"), some (lit "c")] ∧
    (∃ t st', toToken exSwitchEnv 40 (lit "__a_bc") exSt = some (.ok t, st') ∧ t.isValid = true) ∧
    (∃ t st', toToken exSwitchEnv 40 (lit "__ab_c") exSt = some (.ok t, st') ∧ t.isValid = false) := by
  refine ⟨⟨by decide, _, _, _, by decide, rfl, fun _ => rfl⟩,
    ⟨lit "root", exSwitchLine, by decide, ⟨_, _, rfl, rfl, _, rfl, _, _, rfl, rfl, _, _, rfl, rfl, rfl⟩, rfl⟩, ?_,
    of_shows (by decide +kernel), of_shows (by decide +kernel)⟩
  intro c hc
  simp at hc
  rcases hc with rfl | rfl | rfl <;> decide

end Verif.Lexer
