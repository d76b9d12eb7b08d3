import Verif.Lemmas.BaseParser
import Verif.Lemmas.BaseCheck
import Verif.Props.Parsers

/-!
# C72, C73, C76, C79: the parser of the base language

`baseEvents cfg` are the events of the base language; `ProgRun (baseEvents cfg) (evX r) x`: `x` is a possible outcome of the event
of the token X, called with the root `r`. `Conf cfg k r`: the root `r` is a tree for the token `k` of the grammar.
-/

namespace Verif.Base
open Verif.Patterns Verif.Lexer

/-! ## C72: numbers -/

/-- C72: a text is read as an unsigned number exactly if it is a decimal number in the range of the bit size, which is at most 64. -/
theorem C72_unsigned (s : Str) (b n : Nat) : parseUint s b = .ok n ↔ DecimalText s n ∧ b ≤ 64 ∧ n < 2 ^ bits b := by
  rw [← decimal?_text, parseUint]
  by_cases h1 : s = []
  · simp [h1]
  · by_cases h2 : b > 64
    · simp only [if_neg h1, if_pos h2]
      constructor
      · simp
      · rintro ⟨_, h, _⟩; omega
    · simp only [if_neg h1, if_neg h2]
      cases h3 : decimal? s 0 with
      | none => simp
      | some m =>
        simp only [ne_eq, h1, not_false_eq_true, Option.some.injEq, true_and]
        by_cases h4 : m < 2 ^ bits b
        · rw [if_pos (show m < 2 ^ (if b = 0 then 64 else b) from h4)]
          simp only [Out.ok.injEq]; constructor
          · rintro rfl; exact ⟨rfl, by omega, h4⟩
          · exact fun h => h.1
        · rw [if_neg (show ¬ m < 2 ^ (if b = 0 then 64 else b) from h4)]
          constructor
          · simp
          · rintro ⟨rfl, _, h⟩; exact absurd h h4

/-- C72: a text behind a minus is read as a number exactly if it is a decimal number whose negative is in the range of signed numbers. -/
theorem C72_negative (s : Str) (b : Nat) (z : Int) : parseNeg s b = .ok z ↔
    ∃ n : Nat, z = -(n : Int) ∧ DecimalText s n ∧ b ≤ 64 ∧ n ≤ 2 ^ (bits b - 1) := by
  rw [parseNeg]
  by_cases h1 : s = []
  · subst h1; simp [← decimal?_text]
  · by_cases h2 : b > 64
    · simp only [if_neg h1, if_pos h2]
      constructor
      · simp
      · rintro ⟨_, _, _, h, _⟩; omega
    · simp only [if_neg h1, if_neg h2, ← decimal?_text]
      cases h3 : decimal? s 0 with
      | none => simp
      | some m =>
        simp only [ne_eq, h1, not_false_eq_true, Option.some.injEq, true_and]
        by_cases h4 : m ≤ 2 ^ (bits b - 1)
        · rw [if_pos (show m ≤ 2 ^ ((if b = 0 then 64 else b) - 1) from h4)]
          simp only [Out.ok.injEq]; constructor
          · rintro rfl; exact ⟨m, rfl, rfl, by omega, h4⟩
          · rintro ⟨n, rfl, rfl, _⟩; rfl
        · rw [if_neg (show ¬ m ≤ 2 ^ ((if b = 0 then 64 else b) - 1) from h4)]
          constructor
          · simp
          · rintro ⟨n, rfl, rfl, _, h⟩; exact absurd h h4

/-- C72: every number has a text, which is read as this number. -/
theorem C72_every (n : Nat) (h : n < 2 ^ 64) : parseUint (decimalText n) 64 = .ok n :=
  (C72_unsigned _ _ _).mpr ⟨decimalText_spec n, le_refl _, h⟩

/-- C72: the value of an integer without minus is the unsigned number of its text; if the text is no number in range there is an
error and no value. -/
theorem C72_int (cfg : Cfg) (r : Root) (hr : Leaf r) (s : Str) (ht : Texts r (lit "INT_PATTERN") [s])
    (hm : r.exists (lit "MINUS") = false) (x : Out V) : ProgRun (baseEvents cfg) (evIntValue cfg r) x ↔
      (∃ n, DecimalText s n ∧ cfg.bitSize ≤ 64 ∧ n < 2 ^ bits cfg.bitSize ∧
        x = .ok (.other (.value ⟨⟨0, integerFlag ||| unsignedFlag⟩, .uint n⟩))) ∨
      ((∀ n, DecimalText s n → cfg.bitSize ≤ 64 → ¬ n < 2 ^ bits cfg.bitSize) ∧ x = .err) := by
  rw [evIntValue, need, run_call (trigger_leaf hr ht)]
  simp only [List.map_cons, List.map_nil, assertFirst, assert, asText, step, hm, Bool.false_eq_true, if_false]
  cases hp : parseUint s cfg.bitSize with
  | panic => exact absurd hp (parseUint_ne_panic _ _)
  | err =>
    rw [run_done]
    have hno : ∀ n, DecimalText s n → cfg.bitSize ≤ 64 → ¬ n < 2 ^ bits cfg.bitSize := fun n h1 h2 h3 => by
      rw [(C72_unsigned s cfg.bitSize n).mpr ⟨h1, h2, h3⟩] at hp; simp at hp
    constructor
    · exact fun h => .inr ⟨hno, h⟩
    · rintro (⟨n, h1, h2, h3, _⟩ | ⟨_, h⟩)
      · exact absurd h3 (hno n h1 h2)
      · exact h
  | ok n =>
    obtain ⟨h1, h2, h3⟩ := (C72_unsigned s cfg.bitSize n).mp hp
    show ProgRun _ (.done (.ok (.other (.value ⟨⟨0, integerFlag ||| unsignedFlag⟩, .uint n⟩)))) x ↔ _
    rw [run_done]
    constructor
    · exact fun h => .inl ⟨n, h1, h2, h3, h⟩
    · rintro (⟨m, h4, h5, h6, rfl⟩ | ⟨h, _⟩)
      · rw [(C72_unsigned s cfg.bitSize m).mpr ⟨h4, h5, h6⟩] at hp
        simp only [Out.ok.injEq] at hp; rw [hp]
      · exact absurd h3 (h n h1 h2)

/-- C72: the same for an integer with a minus, which is a signed number. -/
theorem C72_minus (cfg : Cfg) (r : Root) (hr : Leaf r) (s : Str) (ht : Texts r (lit "INT_PATTERN") [s])
    (hm : r.exists (lit "MINUS") = true) (x : Out V) : ProgRun (baseEvents cfg) (evIntValue cfg r) x ↔
      (∃ n : Nat, DecimalText s n ∧ cfg.bitSize ≤ 64 ∧ n ≤ 2 ^ (bits cfg.bitSize - 1) ∧
        x = .ok (.other (.value ⟨⟨0, integerFlag⟩, .int (-(n : Int))⟩))) ∨
      ((∀ n, DecimalText s n → cfg.bitSize ≤ 64 → ¬ n ≤ 2 ^ (bits cfg.bitSize - 1)) ∧ x = .err) := by
  rw [evIntValue, need, run_call (trigger_leaf hr ht)]
  simp only [List.map_cons, List.map_nil, assertFirst, assert, asText, step, hm, if_true]
  cases hp : parseNeg s cfg.bitSize with
  | panic => exact absurd hp (parseNeg_ne_panic _ _)
  | err =>
    rw [run_done]
    have hno : ∀ n, DecimalText s n → cfg.bitSize ≤ 64 → ¬ n ≤ 2 ^ (bits cfg.bitSize - 1) := fun n h1 h2 h3 => by
      rw [(C72_negative s cfg.bitSize _).mpr ⟨n, rfl, h1, h2, h3⟩] at hp; simp at hp
    constructor
    · exact fun h => .inr ⟨hno, h⟩
    · rintro (⟨n, h1, h2, h3, _⟩ | ⟨_, h⟩)
      · exact absurd h3 (hno n h1 h2)
      · exact h
  | ok z =>
    obtain ⟨n, rfl, h1, h2, h3⟩ := (C72_negative s cfg.bitSize z).mp hp
    show ProgRun _ (.done (.ok (.other (.value ⟨⟨0, integerFlag⟩, .int (-(n : Int))⟩)))) x ↔ _
    rw [run_done]
    constructor
    · exact fun h => .inl ⟨n, h1, h2, h3, h⟩
    · rintro (⟨m, h4, h5, h6, rfl⟩ | ⟨h, _⟩)
      · rw [(C72_negative s cfg.bitSize _).mpr ⟨m, rfl, h4, h5, h6⟩] at hp
        simp only [Out.ok.injEq] at hp; rw [hp]
      · exact absurd h3 (h n h1 h2)

/-- C72: an index is the unsigned number of its text. -/
theorem C72_index (cfg : Cfg) (r : Root) (hr : Leaf r) (s : Str) (ht : Texts r (lit "INT_PATTERN") [s])
    (hv : r.exists (lit "variableName") = false) (x : Out V) : ProgRun (baseEvents cfg) (evIndexValue cfg r) x ↔
      (∃ n, DecimalText s n ∧ cfg.bitSize ≤ 64 ∧ n < 2 ^ bits cfg.bitSize ∧
        x = .ok (.other (.index (.value ⟨⟨0, integerFlag ||| unsignedFlag⟩, .uint n⟩)))) ∨
      ((∀ n, DecimalText s n → cfg.bitSize ≤ 64 → ¬ n < 2 ^ bits cfg.bitSize) ∧ x = .err) := by
  rw [evIndexValue, if_pos ht.exists, need, run_call (trigger_leaf hr ht)]
  simp only [List.map_cons, List.map_nil, assertFirst, assert, asText, step, opt, hv, Bool.false_eq_true, if_false]
  cases hp : parseUint s cfg.bitSize with
  | panic => exact absurd hp (parseUint_ne_panic _ _)
  | err =>
    simp only [run_done]
    have hno : ∀ n, DecimalText s n → cfg.bitSize ≤ 64 → ¬ n < 2 ^ bits cfg.bitSize := fun n h1 h2 h3 => by
      rw [(C72_unsigned s cfg.bitSize n).mpr ⟨h1, h2, h3⟩] at hp; simp at hp
    constructor
    · exact fun h => .inr ⟨hno, h⟩
    · rintro (⟨n, h1, h2, h3, _⟩ | ⟨_, h⟩)
      · exact absurd h3 (hno n h1 h2)
      · exact h
  | ok n =>
    obtain ⟨h1, h2, h3⟩ := (C72_unsigned s cfg.bitSize n).mp hp
    show ProgRun _ (.done (.ok (.other (.index (.value ⟨⟨0, integerFlag ||| unsignedFlag⟩, .uint n⟩))))) x ↔ _
    rw [run_done]
    constructor
    · exact fun h => .inl ⟨n, h1, h2, h3, h⟩
    · rintro (⟨m, h4, h5, h6, rfl⟩ | ⟨h, _⟩)
      · rw [(C72_unsigned s cfg.bitSize m).mpr ⟨h4, h5, h6⟩] at hp
        simp only [Out.ok.injEq] at hp; rw [hp]
      · exact absurd h3 (h n h1 h2)

/-- `-042` and `042`. -/
example : Leaf (tree .intValue "-042" [rl "MINUS" "-", rl "INT_PATTERN" "042"]) ∧
    Texts (tree .intValue "-042" [rl "MINUS" "-", rl "INT_PATTERN" "042"]) (lit "INT_PATTERN") [lit "042"] ∧
    DecimalText (lit "042") 42 ∧ parseUint (lit "042") 64 = .ok 42 ∧ parseNeg (lit "042") 64 = .ok (-42) ∧
    parseUint (lit "256") 8 = .err ∧ parseUint (lit "0x1") 8 = .err := by
  refine ⟨⟨by decide, ?_⟩, ⟨_, .tail _ (.head _), rfl, rfl⟩, ?_, rfl, rfl, rfl, rfl⟩
  · intro n hn
    simp only [tree, rl, Root.nodes, List.map_cons, List.map_nil, List.mem_cons, List.not_mem_nil, or_false] at hn
    rcases hn with rfl | rfl <;> simp [Node.containers, Node.name, RContainer.root, RContainer.name]
  · exact (decimal?_text _ _).mp ⟨by decide, rfl⟩

/-! ## C76: termination -/

/-- C76: for every root, conforming or not, and every order of the maps the parser of the base language ends, and there is an
outcome. -/
theorem C76_ends (cfg : Cfg) (r : Root) :
    CallEnds (baseEvents cfg) r.name r ∧ ∃ x, AppRun (some (baseEvents cfg)) r x := by
  obtain ⟨h1, x, h2⟩ := C48_ends (baseEvents cfg) (fun name l hl e he u => by
    obtain ⟨k, _, rfl⟩ := get_events cfg name l hl
    simp only [List.mem_cons, List.not_mem_nil, or_false] at he
    subst he
    exact stays cfg k u) r
  refine ⟨h1, ?_⟩
  have hm : managerNow (some (baseEvents cfg)) = .ok (baseEvents cfg) := rfl
  cases x with
  | err => exact ⟨_, .err hm h2⟩
  | panic => exact ⟨_, .panic hm h2⟩
  | ok l =>
    cases l with
    | cons v l => exact ⟨_, .ok hm h2⟩
    | nil =>
      exfalso
      obtain ⟨l, v, _, _, h⟩ := (C48_execute _ _ _).mp h2
      cases h

/-! ## C79: conforming trees -/

/-- C79: whatever the order of the maps, the parser delivers an object of the right kind for the root tree of every token. -/
theorem C79_token (cfg : Cfg) (k : Kind) (r : Root) (h : Conf cfg k r) (x : Out (List V)) (hx : ExecuteRun (baseEvents cfg) r x) :
    ∃ v, x = .ok [v] ∧ Good k v := by
  have hname : r.name = k.name := by obtain ⟨l, h⟩ := h.line; exact h.name
  cases hx with
  | err he => rw [hname] at he; obtain ⟨v, h, _⟩ := events_conf (delivers cfg k r h) he; simp at h
  | panic he => rw [hname] at he; obtain ⟨v, h, _⟩ := events_conf (delivers cfg k r h) he; simp at h
  | ok he =>
    rw [hname] at he
    obtain ⟨v, h, hv, _⟩ := events_conf (delivers cfg k r h) he
    simp only [Out.ok.injEq] at h
    subst h
    exact ⟨v, (good_plain hv.1).2, hv.1⟩

/-- C79: for the root tree of every program the parser ends with a program, without error and panic, whatever the order of the
maps. -/
theorem C79_program (cfg : Cfg) (r : Root) (h : Conf cfg .program r) :
    (∃ x, AppRun (some (baseEvents cfg)) r x) ∧
    ∀ x, AppRun (some (baseEvents cfg)) r x → ∃ p, x = .ok (.other (.program p)) := by
  refine ⟨(C76_ends cfg r).2, fun x hx => ?_⟩
  cases hx with
  | noManager h => simp [managerNow, baseEvents] at h
  | err hm he =>
    have : managerNow (some (baseEvents cfg)) = .ok (baseEvents cfg) := rfl
    rw [this] at hm; simp only [Out.ok.injEq] at hm; subst hm
    obtain ⟨v, h1, _⟩ := C79_token cfg _ r h _ he; simp at h1
  | panic hm he =>
    have : managerNow (some (baseEvents cfg)) = .ok (baseEvents cfg) := rfl
    rw [this] at hm; simp only [Out.ok.injEq] at hm; subst hm
    obtain ⟨v, h1, _⟩ := C79_token cfg _ r h _ he; simp at h1
  | ok hm he =>
    have : managerNow (some (baseEvents cfg)) = .ok (baseEvents cfg) := rfl
    rw [this] at hm; simp only [Out.ok.injEq] at hm; subst hm
    obtain ⟨v, h1, p, rfl⟩ := C79_token cfg _ r h _ he
    simp only [Out.ok.injEq, List.cons.injEq] at h1
    obtain ⟨rfl, _⟩ := h1
    exact ⟨p, rfl⟩

/-- `if ab { break }` is a program. -/
example : Conf exCfg .program exIf ∧ ∃ p, AppRun (some (baseEvents exCfg)) exIf (.ok (.other (.program p))) := by
  refine ⟨exIf_conf, ?_⟩
  obtain ⟨⟨x, hx⟩, h⟩ := C79_program exCfg exIf exIf_conf
  obtain ⟨p, rfl⟩ := h x hx
  exact ⟨p, hx⟩

end Verif.Base
