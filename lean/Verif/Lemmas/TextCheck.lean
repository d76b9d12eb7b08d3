import Verif.Spec.TextPatterns
import Mathlib.Data.List.Infix

/-!
# Deciding whether entries can be written
-/

namespace Verif.Text
open Verif.Patterns Verif.Cardinality Verif.Lexer

def isBlank (w : Str) : Bool := w.all (fun c => c == 32 || c == 9 || c == 13 || c == 10)
def isLower (c : UInt8) : Bool := Nat.ble 97 c.toNat && Nat.ble c.toNat 122
def isUpper (c : UInt8) : Bool := Nat.ble 65 c.toNat && Nat.ble c.toNat 90
def isTokenName : Str → Bool
  | [] => false
  | c :: u => isLower c && u.all (fun d => isLower d || isUpper d)
def isRuleName (n : Str) : Bool := !n.isEmpty && n.all (fun c => isUpper c || c == 95)
def isPatternName : Str → Bool
  | [] => false
  | c :: u => isLower c && u.all (fun d => isLower d || d == 95)
def isSerieName : Str → Bool
  | [] => false
  | c :: u => isUpper c && u.all (fun d => isUpper d || d == 95)
def isGroupName : Str → Bool
  | [] => false
  | c :: u => c == 36 && !u.isEmpty && u.all (fun d => isUpper d || d == 95)

theorem blank_of {w : Str} (h : isBlank w = true) : Blank w := by
  intro c hc
  have := List.all_eq_true.1 h c hc
  simpa [or_assoc] using this
theorem lower_of {c : UInt8} (h : isLower c = true) : LowerLetter c := by
  simpa [isLower, LowerLetter, Nat.ble_eq] using h
theorem upper_of {c : UInt8} (h : isUpper c = true) : UpperLetter c := by
  simpa [isUpper, UpperLetter, Nat.ble_eq] using h
theorem tokenName_of {n : Str} (h : isTokenName n = true) : TokenName n := by
  cases n with
  | nil => cases h
  | cons c u =>
    simp only [isTokenName, Bool.and_eq_true, List.all_eq_true, Bool.or_eq_true] at h
    exact ⟨c, u, rfl, lower_of h.1, fun d hd => (h.2 d hd).imp lower_of upper_of⟩
theorem ruleName_of {n : Str} (h : isRuleName n = true) : RuleName n := by
  simp only [isRuleName, Bool.and_eq_true, List.all_eq_true, Bool.or_eq_true, beq_iff_eq, Bool.not_eq_true', List.isEmpty_eq_false_iff] at h
  exact ⟨h.1, fun d hd => (h.2 d hd).imp upper_of id⟩
theorem patternName_of {n : Str} (h : isPatternName n = true) : PatternName n := by
  cases n with
  | nil => cases h
  | cons c u =>
    simp only [isPatternName, Bool.and_eq_true, List.all_eq_true, Bool.or_eq_true, beq_iff_eq] at h
    exact ⟨c, u, rfl, lower_of h.1, fun d hd => (h.2 d hd).imp lower_of id⟩
theorem serieName_of {n : Str} (h : isSerieName n = true) : SerieName n := by
  cases n with
  | nil => cases h
  | cons c u =>
    simp only [isSerieName, Bool.and_eq_true, List.all_eq_true, Bool.or_eq_true, beq_iff_eq] at h
    exact ⟨c, u, rfl, upper_of h.1, fun d hd => (h.2 d hd).imp upper_of id⟩
theorem groupName_of {n : Str} (h : isGroupName n = true) : GroupName n := by
  cases n with
  | nil => cases h
  | cons c u =>
    simp only [isGroupName, Bool.and_eq_true, List.all_eq_true, Bool.or_eq_true, beq_iff_eq, Bool.not_eq_true', List.isEmpty_eq_false_iff] at h
    exact ⟨u, by rw [h.1.1], h.1.2, fun d hd => (h.2 d hd).imp upper_of id⟩

/-! ## Patterns -/

instance (o : Str) : Decidable (OptionOk o) := by unfold OptionOk; infer_instance
instance (p : PatternT) : Decidable (∀ c ∈ p.choices.tail, c.isReverse = true ∨ c.pre ≠ []) := inferInstance

def GroupT.check (g : GroupT) : Bool :=
  isBlank g.pre && isGroupName g.name && isBlank g.g1 && isBlank g.g2 && !g.options.isEmpty && g.options.all (fun o => decide (OptionOk o)) && isBlank g.post
def SerieT.check (s : SerieT) : Bool :=
  isBlank s.pre && isSerieName s.name && isBlank s.g1 && !s.refs.isEmpty && s.refs.all (fun r => isBlank r.1 && isGroupName r.2) && isBlank s.post
def PatternT.check (p : PatternT) : Bool :=
  isBlank p.pre && isPatternName p.name && isBlank p.g1 && !p.choices.isEmpty && p.choices.all (fun c => isBlank c.pre && isSerieName c.serie) &&
    p.choices.tail.all (fun c => c.isReverse || !c.pre.isEmpty) && isBlank p.post
def Entry.check : Entry → Bool
  | .group g => g.check
  | .serie s => s.check
  | .pattern p => p.check

theorem entry_of {e : Entry} (h : e.check = true) : e.Ok := by
  cases e with
  | group g =>
    simp only [Entry.check, GroupT.check, Bool.and_eq_true, List.all_eq_true, Bool.not_eq_true', List.isEmpty_eq_false_iff, decide_eq_true_eq] at h
    obtain ⟨⟨⟨⟨⟨⟨h1, h2⟩, h3⟩, h4⟩, h5⟩, h6⟩, h7⟩ := h
    exact ⟨blank_of h1, groupName_of h2, blank_of h3, blank_of h4, h5, h6, blank_of h7⟩
  | serie s =>
    simp only [Entry.check, SerieT.check, Bool.and_eq_true, List.all_eq_true, Bool.not_eq_true', List.isEmpty_eq_false_iff] at h
    obtain ⟨⟨⟨⟨⟨h1, h2⟩, h3⟩, h4⟩, h5⟩, h6⟩ := h
    exact ⟨blank_of h1, serieName_of h2, blank_of h3, h4, fun r hr => ⟨blank_of (h5 r hr).1, groupName_of (h5 r hr).2⟩, blank_of h6⟩
  | pattern p =>
    simp only [Entry.check, PatternT.check, Bool.and_eq_true, List.all_eq_true, Bool.not_eq_true', List.isEmpty_eq_false_iff, Bool.or_eq_true] at h
    obtain ⟨⟨⟨⟨⟨⟨h1, h2⟩, h3⟩, h4⟩, h5⟩, h6⟩, h7⟩ := h
    exact ⟨blank_of h1, patternName_of h2, blank_of h3, h4, fun r hr => ⟨blank_of (h5 r hr).1, serieName_of (h5 r hr).2⟩, h6, blank_of h7⟩

/-! ## Rules -/

instance (k : Card) : Decidable (SpecNumbersFit k) := by
  unfold SpecNumbersFit
  split <;> infer_instance

def checkCard (k : Option Card) : Bool := decide (k ≠ some .mandatory) && (k.elim true (fun c => decide (SpecNumbersFit c)))
theorem card_of {k : Option Card} (h : checkCard k = true) : CardOk k := by
  simp only [checkCard, Bool.and_eq_true, decide_eq_true_eq] at h
  refine ⟨h.1, ?_⟩
  rintro c rfl
  simpa using h.2

def BodyT.check (known : List Str) : BodyT → Bool
  | .constant pre c post => isBlank pre && isBlank post && decide (59 ∉ c) && decide (35 ∉ c) && decide (92 ∉ c)
  | .pattern pre inner names gap card post => isBlank pre && isBlank inner && isBlank gap && isBlank post && !names.isEmpty &&
      names.all (fun n => isPatternName n && known.contains n) && checkCard (some card)
def RuleT.check (known : List Str) (r : RuleT) : Bool := isBlank r.pre && isRuleName r.name && r.body.check known

theorem rule_of {known : List Str} {ps : PatternSet} (hk : ∀ n ∈ known, ∃ p, ps.find n = .ok p) {r : RuleT} (h : r.check known = true) : r.Ok ps := by
  simp only [RuleT.check, Bool.and_eq_true] at h
  refine ⟨blank_of h.1.1, ruleName_of h.1.2, ?_⟩
  have hb := h.2
  cases hr : r.body with
  | constant pre c post =>
    rw [hr] at hb
    simp only [BodyT.check, Bool.and_eq_true, decide_eq_true_eq] at hb
    obtain ⟨⟨⟨⟨h1, h2⟩, h3⟩, h4⟩, h5⟩ := hb
    exact ⟨blank_of h1, blank_of h2, h3, h4, h5⟩
  | pattern pre inner names gap card post =>
    rw [hr] at hb
    simp only [BodyT.check, Bool.and_eq_true, Bool.not_eq_true', List.isEmpty_eq_false_iff, List.all_eq_true, List.contains_eq_mem, decide_eq_true_eq] at hb
    obtain ⟨⟨⟨⟨⟨⟨h1, h2⟩, h3⟩, h4⟩, h5⟩, h6⟩, h7⟩ := hb
    exact ⟨blank_of h1, blank_of h2, blank_of h3, blank_of h4, h5, fun n hn => ⟨patternName_of (h6 n hn).1, hk _ (h6 n hn).2⟩, card_of h7⟩

/-! ## Tokens -/

def SpecT.check (known : List Str) (s : SpecT) : Bool :=
  isBlank s.pre && isBlank s.mid && decide (SpecNumbersFit (.specific s.card)) && (if s.isRule then isRuleName s.name && known.contains s.name else isTokenName s.name)
def Item.check (known : List Str) : Item → Bool
  | .token n gap k specs close => isTokenName n && isBlank gap && isBlank close && checkCard k && specs.all (SpecT.check known)
  | .rule n gap k => isRuleName n && isBlank gap && checkCard k && known.contains n
  | .switch => true
def LineT.check (known : List Str) (l : LineT) : Bool :=
  !l.isEmpty && l.all (fun x => isBlank x.1 && x.2.check known) && l.tail.all (fun x => !x.1.isEmpty)
def LinesT.check (known : List Str) (l : LinesT) : Bool := !l.isEmpty && l.all (fun x => LineT.check known x.1 && isBlank x.2)
def LinesT.spaced (l : LinesT) : Bool := l.getLast?.elim true (fun x => !x.2.isEmpty)
/-- Whether a text begins with another one. -/
def begins : Str → Str → Bool
  | [], _ => true
  | _ :: _, [] => false
  | a :: u, b :: v => a == b && begins u v
def occurs (u : Str) : Str → Bool
  | [] => begins u []
  | c :: s => begins u (c :: s) || occurs u s
def checkTest (t : Str) : Bool := !t.isEmpty && decide (59 ∉ t) && !occurs [43, 43, 43] t && !occurs [35, 35, 35] (t ++ [35, 35])
/-- Only tokens without lines which must not match. -/
def TokenT.check (known : List Str) (t : TokenT) : Bool :=
  isBlank t.pre && isTokenName t.name && isBlank t.gap && t.must.check known && t.not.isNone &&
    t.tests.elim true (fun s => isBlank s.gap && isBlank s.close && !s.tests.isEmpty && s.tests.all checkTest && t.must.spaced)

theorem begins_of {u s : Str} : begins u s = true ↔ u <+: s := by
  induction u generalizing s with
  | nil => simp [begins]
  | cons a u ih =>
    cases s with
    | nil => simp [begins]
    | cons b s => simp [begins, ih, List.cons_prefix_cons]
theorem occurs_of {u s : Str} : occurs u s = true ↔ u <:+: s := by
  induction s with
  | nil => simp [occurs, begins_of]
  | cons c s ih => simp only [occurs, Bool.or_eq_true, begins_of, ih, List.infix_cons_iff]

theorem test_of {t : Str} (h : checkTest t = true) : TestOk t := by
  simp only [checkTest, Bool.and_eq_true, Bool.not_eq_true', List.isEmpty_eq_false_iff, decide_eq_true_eq] at h
  obtain ⟨⟨⟨h1, h2⟩, h3⟩, h4⟩ := h
  refine ⟨h1, h2, ?_, ?_⟩
  · rw [show lit "+++" = [43, 43, 43] by decide, ← occurs_of]; simp [h3]
  · rw [show lit "###" = [35, 35, 35] by decide, show lit "##" = [35, 35] by decide, ← occurs_of]; simp [h4]

theorem spec_of {known : List Str} {rules : RuleSet} (hk : ∀ n ∈ known, ∃ r, rules.find n = .ok r) {s : SpecT} (h : s.check known = true) : s.Ok rules := by
  simp only [SpecT.check, Bool.and_eq_true, decide_eq_true_eq] at h
  obtain ⟨⟨⟨h1, h2⟩, h3⟩, h4⟩ := h
  refine ⟨blank_of h1, blank_of h2, h3, ?_, ?_⟩
  · intro hr; rw [hr] at h4; exact tokenName_of (by simpa using h4)
  · intro hr
    rw [hr] at h4
    simp only [if_true, Bool.and_eq_true, List.contains_eq_mem, decide_eq_true_eq] at h4
    exact ⟨ruleName_of h4.1, hk _ h4.2⟩

theorem item_of {known : List Str} {rules : RuleSet} (hk : ∀ n ∈ known, ∃ r, rules.find n = .ok r) {i : Item} (h : i.check known = true) : i.Ok rules := by
  cases i with
  | token n gap k specs close =>
    simp only [Item.check, Bool.and_eq_true, List.all_eq_true] at h
    obtain ⟨⟨⟨⟨h1, h2⟩, h3⟩, h4⟩, h5⟩ := h
    exact ⟨tokenName_of h1, blank_of h2, blank_of h3, card_of h4, fun s hs => spec_of hk (h5 s hs)⟩
  | rule n gap k =>
    simp only [Item.check, Bool.and_eq_true, List.contains_eq_mem, decide_eq_true_eq] at h
    obtain ⟨⟨⟨h1, h2⟩, h3⟩, h4⟩ := h
    exact ⟨ruleName_of h1, blank_of h2, card_of h3, hk _ h4⟩
  | switch => trivial

theorem lines_of {known : List Str} {rules : RuleSet} (hk : ∀ n ∈ known, ∃ r, rules.find n = .ok r) {l : LinesT} (h : l.check known = true) : l.Ok rules := by
  simp only [LinesT.check, Bool.and_eq_true, List.all_eq_true, Bool.not_eq_true', List.isEmpty_eq_false_iff] at h
  refine ⟨h.1, fun x hx => ⟨?_, blank_of (h.2 x hx).2⟩⟩
  have hl := (h.2 x hx).1
  simp only [LineT.check, Bool.and_eq_true, List.all_eq_true, Bool.not_eq_true', List.isEmpty_eq_false_iff] at hl
  exact ⟨hl.1.1, fun y hy => ⟨blank_of (hl.1.2 y hy).1, item_of hk (hl.1.2 y hy).2⟩, hl.2⟩

theorem spaced_of {l : LinesT} (h : l.spaced = true) : l.Spaced := by
  intro x hx
  unfold LinesT.spaced at h
  cases hl : l.getLast? with
  | none => rw [hl] at hx; cases hx
  | some y =>
    rw [hl] at hx h
    cases hx
    simpa using h

theorem token_of {known : List Str} {rules : RuleSet} (hk : ∀ n ∈ known, ∃ r, rules.find n = .ok r) {t : TokenT} (h : t.check known = true) : t.Ok rules := by
  simp only [TokenT.check, Bool.and_eq_true] at h
  obtain ⟨⟨⟨⟨⟨h1, h2⟩, h3⟩, h4⟩, h5⟩, h6⟩ := h
  refine ⟨blank_of h1, tokenName_of h2, blank_of h3, lines_of hk h4, ?_, ?_⟩
  · intro n hn; rw [hn] at h5; cases h5
  · intro s hs
    rw [hs] at h6
    simp only [Option.elim, Bool.and_eq_true, List.all_eq_true, Bool.not_eq_true', List.isEmpty_eq_false_iff] at h6
    obtain ⟨⟨⟨⟨g1, g2⟩, g3⟩, g4⟩, g5⟩ := h6
    refine ⟨blank_of g1, blank_of g2, g3, fun x hx => test_of (g4 x hx), fun _ => spaced_of g5, ?_⟩
    intro n hn; rw [hn] at h5; cases h5

end Verif.Text
