import Verif.Lemmas.BaseBuilt

/-! # The text in front of the first sign: names, commas, blanks and comments are skipped -/

set_option maxRecDepth 100000

namespace Verif.Base
open Verif.Patterns Verif.Lexer Verif.Cardinality

/-- Where a text stands: outside of comments, behind a slash, in a line comment, behind the beginning of a block comment (and behind a star there), in a block
comment (and behind a star there), or behind the first sign. -/
inductive CState where
  | out | slash | line | opened | openedStar | block | blockStar
  | stop (c : UInt8)
  deriving DecidableEq

/-- Letters, underscores, commas and blanks. -/
def skipped (c : UInt8) : Bool := c == 32 || c == 9 || c == 10 || c == 44 || c == 95 || (97 ≤ c && c ≤ 122) || (65 ≤ c && c ≤ 90)

def CState.next : CState → UInt8 → CState
  | .out, c => if skipped c then .out else if c = 47 then .slash else .stop c
  | .slash, c => if c = 47 then .line else if c = 42 then .opened else .stop 47
  | .line, c => if c = 10 then .out else .line
  | .opened, c => if c = 42 then .openedStar else .block
  | .openedStar, c => if c = 47 then .stop 42 else if c = 42 then .blockStar else .block
  | .block, c => if c = 42 then .blockStar else .block
  | .blockStar, c => if c = 47 then .out else if c = 42 then .blockStar else .block
  | .stop d, _ => .stop d

def CState.run (q : CState) (s : Str) : CState := s.foldl CState.next q

theorem run_append (q : CState) (s u : Str) : q.run (s ++ u) = (q.run s).run u := by simp [CState.run]
theorem run_stop (d : UInt8) (s : Str) : (CState.stop d).run s = .stop d := by
  induction s with
  | nil => rfl
  | cons c s ih => exact ih

/-- The state fits to what comes. -/
def Clean (q : CState) (s : Str) : Prop :=
  q = .out ∨ s = [] ∨ (q = .line ∧ ∃ r, s = 10 :: r) ∨ (q = .opened ∧ ∃ r, s = 42 :: 47 :: r)

def Skip (s u : Str) : Prop := ∀ rest, s = u ++ rest → ∀ q, Clean q s → Clean (q.run u) rest

theorem Skip.nil (s : Str) : Skip s [] := by
  rintro rest rfl q h
  exact h

theorem Skip.append {s s' u v : Str} (h : Skip s u) (hs : s = u ++ s') (h' : Skip s' v) : Skip s (u ++ v) := by
  rintro rest rfl q hq
  rw [run_append]
  have : s' = v ++ rest := by simpa using hs.symm
  exact h' rest this _ (h s' hs q hq)

/-- Only outside of comments a text goes on with a sign which does not end a comment. -/
theorem Clean.out {q : CState} {c : UInt8} {s : Str} (h : Clean q (c :: s)) (h1 : c ≠ 10) (h2 : c ≠ 42) : q = .out := by
  rcases h with h | h | ⟨_, r, h⟩ | ⟨_, r, h⟩
  · exact h
  · simp at h
  · simp at h; exact absurd h.1 h1
  · simp at h; exact absurd h.1 h2

theorem skip_char {c : UInt8} (h : skipped c = true) (s : Str) : Skip s [c] := by
  rintro rest rfl q hq
  left
  simp only [List.singleton_append] at hq
  rcases hq with rfl | h' | ⟨rfl, r, h'⟩ | ⟨rfl, r, h'⟩
  · simp [CState.run, CState.next, h]
  · simp at h'
  · simp at h'; simp [CState.run, CState.next, h'.1]
  · simp at h'
    rw [h'.1] at h
    exact absurd h (by decide)

/-! ## Patterns -/

theorem leading_cons {c : Choice} {cs : List Choice} {s : Str} {ts : List Str} (h : SpecLeading (c :: cs) s ts) (hne : ts ≠ []) :
    ∃ us r vs, SpecChoice c s us r ∧ SpecLeading cs r vs ∧ ts = us ++ vs := by
  cases h with
  | stop _ => exact absurd rfl hne
  | cons h1 h2 => exact ⟨_, _, _, h1, h2, rfl⟩

theorem choice_plain {n : Str} {l : List Str} {s : Str} {ts : List Str} {r : Str} (h : SpecChoice (choice n l false) s ts r) : ∃ t ∈ l, ts = [t] ∧ s = t ++ r := by
  simp only [SpecChoice, choice, Bool.false_eq_true, if_false] at h
  cases h with
  | cons h1 h2 =>
    cases h2
    exact ⟨_, h1.1, rfl, rfl⟩

theorem choice_one {n e s : Str} (he : e ≠ []) : SpecChoice (choice n [e] false) (e ++ s) [e] s := by
  simp only [SpecChoice, choice, Bool.false_eq_true, if_false]
  exact .cons ⟨by simp, he, by simp, by simp⟩ (.nil _)

theorem choice_reverse {n e : Str} {s : Str} {ts : List Str} {r : Str} (h : SpecChoice (choice n [e] true) s ts r) :
    ∃ t, ts = [t] ∧ s = t ++ r ∧ t ≠ [] ∧ (∀ i < t.length, ¬ (e ≠ [] ∧ e <+: s.drop i)) ∧ (r = [] ∨ e <+: r) := by
  simp only [SpecChoice, choice, if_true] at h
  obtain ⟨t, rfl, g, gs, hg, h1, h2, h3, h4⟩ := h
  simp at hg
  obtain ⟨rfl, rfl⟩ := hg
  refine ⟨t, rfl, h1, h2, ?_, ?_⟩
  · intro i hi hh
    exact h3 i hi ⟨e, by simp, hh⟩
  · rcases h4 with h4 | ⟨e', h4, _, h5⟩
    · exact .inl h4
    · simp at h4; subst h4; exact .inr h5

theorem reverse_exists {n e : Str} (he : e ≠ []) : ∀ s : Str, s ≠ [] → ¬ e <+: s → ∃ ts r, SpecChoice (choice n [e] true) s ts r := by
  intro s
  induction s with
  | nil => intro h; exact absurd rfl h
  | cons c s ih =>
    intro _ hns
    have hns' : ¬ SpecStarts [e] (c :: s) := by
      rintro ⟨e', h, _, h'⟩; simp at h; exact hns (h ▸ h')
    by_cases hs : s = [] ∨ e <+: s
    · refine ⟨[[c]], s, ?_⟩
      simp only [SpecChoice, choice, if_true]
      refine ⟨_, rfl, _, _, rfl, rfl, by simp, ?_, ?_⟩
      · intro i hi
        simp at hi
        subst hi
        exact hns'
      · exact hs.imp id fun h => ⟨e, by simp, he, h⟩
    · rw [not_or] at hs
      obtain ⟨ts, r, h⟩ := ih hs.1 hs.2
      simp only [SpecChoice, choice, if_true] at h ⊢
      obtain ⟨t, rfl, g, gs, hg, h1, h2, h3, h4⟩ := h
      simp at hg
      obtain ⟨rfl, rfl⟩ := hg
      refine ⟨_, _, c :: t, rfl, _, _, rfl, by simp [h1], by simp, ?_, h4⟩
      intro i hi
      cases i with
      | zero => exact hns'
      | succ i => simpa using h3 i (by simpa using hi)

/-- A pattern of single signs. -/
theorem skip_letters {n : Str} {l : List Str} (hl : ∀ t ∈ l, ∃ c, t = [c] ∧ skipped c = true) {s : Str} {ts : List Str}
    (h : SpecLeading [choice n l false] s ts) (hne : ts ≠ []) : Skip s ts.flatten := by
  obtain ⟨us, r, vs, h1, h2, rfl⟩ := leading_cons h hne
  cases h2
  obtain ⟨t, ht, rfl, rfl⟩ := choice_plain h1
  obtain ⟨c, rfl, hc⟩ := hl t ht
  simpa using skip_char hc _

theorem run_line {t : Str} (h : ∀ i < t.length, ¬ (lit "\n" <+: (t.drop i))) : CState.line.run t = .line := by
  induction t with
  | nil => rfl
  | cons c t ih =>
    have hc : c ≠ 10 := fun e => h 0 (by simp) ⟨t, by simp [e, lit]⟩
    have : CState.line.run (c :: t) = CState.line.run t := by simp [CState.run, CState.next, hc]
    rw [this]
    exact ih fun i hi => by simpa using h (i + 1) (by simpa using hi)

theorem skip_line {s : Str} {ts : List Str} (h : SpecLeading pLineComment.choices s ts) (hne : ts ≠ []) : Skip s ts.flatten := by
  obtain ⟨us, r, vs, h1, h2, rfl⟩ := leading_cons h hne
  obtain ⟨t, ht, rfl, rfl⟩ := choice_plain h1
  simp at ht
  subst ht
  rintro rest e q hq
  have e' : r = vs.flatten ++ rest := by simpa using e
  obtain rfl : q = .out := hq.out (by decide) (by decide)
  rw [List.flatten_append, run_append]
  have : CState.out.run [lit "//"].flatten = .line := by decide
  rw [this]
  clear this e h h1 hne hq
  cases h2 with
  | stop hno =>
    simp at e'
    subst e'
    simp only [List.flatten_nil]
    by_cases hr : r = []
    · exact .inr (.inl hr)
    · by_cases hr2 : lit "\n" <+: r
      · obtain ⟨r', rfl⟩ := hr2
        exact .inr (.inr (.inl ⟨rfl, r', rfl⟩))
      · obtain ⟨ts, r', h⟩ := reverse_exists (n := lit "EOF") (e := lit "\n") (by decide) r hr hr2
        exact absurd h (hno _ _)
  | cons g1 g2 =>
    obtain ⟨t, rfl, rfl, h3, h4, h5⟩ := choice_reverse g1
    rw [List.flatten_append, run_append]
    have hrun : CState.line.run [t].flatten = .line := by
      simp only [List.flatten_cons, List.flatten_nil, List.append_nil]
      refine run_line fun i hi hh => h4 i hi ⟨by decide, ?_⟩
      rw [List.drop_append_of_le_length (by omega)]
      exact hh.trans (List.prefix_append _ _)
    rw [hrun]
    simp only [List.flatten_append, List.flatten_cons, List.flatten_nil, List.append_nil, List.append_assoc, List.append_cancel_left_eq] at e'
    rcases h5 with rfl | ⟨r', rfl⟩
    · right; left
      have := congrArg List.length e'
      simp at this
      exact List.eq_nil_of_length_eq_zero (by omega)
    · cases g2 with
      | stop hno => exact absurd (choice_one (by decide)) (hno _ _)
      | cons k1 k2 =>
        cases k2
        obtain ⟨t', ht', rfl, e2⟩ := choice_plain k1
        simp at ht'
        subst ht'
        left
        decide

/-- Inside of a block comment. -/
theorem run_block : ∀ (t r : Str), (∀ i < t.length, ¬ (lit "*/" <+: ((t ++ r).drop i))) →
    (CState.block.run t = .block ∨ CState.block.run t = .blockStar) ∧
    ((t = [] ∨ t.head? ≠ some 47) → CState.blockStar.run t = .block ∨ CState.blockStar.run t = .blockStar) := by
  intro t
  induction t with
  | nil => intro r _; exact ⟨.inl rfl, fun _ => .inr rfl⟩
  | cons c t ih =>
    intro r h
    have hno : ¬ lit "*/" <+: (c :: t ++ r) := h 0 (by simp)
    have ih := ih r fun i hi => by simpa using h (i + 1) (by simpa using hi)
    have star : c = 42 → t = [] ∨ t.head? ≠ some 47 := by
      rintro rfl
      cases t with
      | nil => exact .inl rfl
      | cons d t =>
        right
        intro e
        simp at e
        subst e
        exact hno ⟨t ++ r, rfl⟩
    refine ⟨?_, ?_⟩
    · by_cases hc : c = 42
      · have : CState.block.run (c :: t) = CState.blockStar.run t := by simp [CState.run, CState.next, hc]
        rw [this]
        exact ih.2 (star hc)
      · have : CState.block.run (c :: t) = CState.block.run t := by simp [CState.run, CState.next, hc]
        rw [this]
        exact ih.1
    · intro hh
      have hc7 : c ≠ 47 := by rcases hh with h | h <;> simp at h; exact h
      by_cases hc : c = 42
      · have : CState.blockStar.run (c :: t) = CState.blockStar.run t := by simp [CState.run, CState.next, hc]
        rw [this]
        exact ih.2 (star hc)
      · have : CState.blockStar.run (c :: t) = CState.block.run t := by simp [CState.run, CState.next, hc, hc7]
        rw [this]
        exact ih.1

theorem run_opened {t r : Str} (hne : t ≠ []) (h : ∀ i < t.length, ¬ (lit "*/" <+: ((t ++ r).drop i))) :
    CState.opened.run t = .block ∨ CState.opened.run t = .blockStar ∨ CState.opened.run t = .openedStar := by
  cases t with
  | nil => exact absurd rfl hne
  | cons c t =>
    have hno : ¬ lit "*/" <+: (c :: t ++ r) := h 0 (by simp)
    have h' : ∀ i < t.length, ¬ (lit "*/" <+: ((t ++ r).drop i)) := fun i hi => by simpa using h (i + 1) (by simpa using hi)
    by_cases hc : c = 42
    · have e : CState.opened.run (c :: t) = CState.openedStar.run t := by simp [CState.run, CState.next, hc]
      rw [e]
      cases t with
      | nil => exact .inr (.inr rfl)
      | cons d t =>
        have hd : d ≠ 47 := by
          rintro rfl
          subst hc
          exact hno ⟨t ++ r, rfl⟩
        have h'' : ∀ i < t.length, ¬ (lit "*/" <+: ((t ++ r).drop i)) := fun i hi => by simpa using h' (i + 1) (by simpa using hi)
        by_cases hd2 : d = 42
        · have e : CState.openedStar.run (d :: t) = CState.blockStar.run t := by simp [CState.run, CState.next, hd2]
          rw [e]
          have hs : t = [] ∨ t.head? ≠ some 47 := by
            cases t with
            | nil => exact .inl rfl
            | cons f t =>
              right
              intro e
              simp at e
              subst e
              subst hd2
              exact h' 0 (by simp) ⟨t ++ r, rfl⟩
          rcases (run_block t r h'').2 hs with h | h
          · exact .inl h
          · exact .inr (.inl h)
        · have e : CState.openedStar.run (d :: t) = CState.block.run t := by simp [CState.run, CState.next, hd2, hd]
          rw [e]
          rcases (run_block t r h'').1 with h | h
          · exact .inl h
          · exact .inr (.inl h)
    · have e : CState.opened.run (c :: t) = CState.block.run t := by simp [CState.run, CState.next, hc]
      rw [e]
      rcases (run_block t r h').1 with h | h
      · exact .inl h
      · exact .inr (.inl h)

theorem skip_block {s : Str} {ts : List Str} (h : SpecLeading pBlockComment.choices s ts) (hne : ts ≠ []) : Skip s ts.flatten := by
  obtain ⟨us, r, vs, h1, h2, rfl⟩ := leading_cons h hne
  obtain ⟨t, ht, rfl, rfl⟩ := choice_plain h1
  simp at ht
  subst ht
  rintro rest e q hq
  have e' : r = vs.flatten ++ rest := by simpa using e
  obtain rfl : q = .out := hq.out (by decide) (by decide)
  rw [List.flatten_append, run_append]
  have : CState.out.run [lit "/*"].flatten = .opened := by decide
  rw [this]
  clear this e h h1 hne hq
  cases h2 with
  | stop hno =>
    simp at e'
    subst e'
    simp only [List.flatten_nil]
    by_cases hr : r = []
    · exact .inr (.inl hr)
    · by_cases hr2 : lit "*/" <+: r
      · obtain ⟨r', rfl⟩ := hr2
        exact .inr (.inr (.inr ⟨rfl, r', rfl⟩))
      · obtain ⟨ts, r', h⟩ := reverse_exists (n := lit "STAR_SLASH") (e := lit "*/") (by decide) r hr hr2
        exact absurd h (hno _ _)
  | cons g1 g2 =>
    obtain ⟨t, rfl, rfl, h3, h4, h5⟩ := choice_reverse g1
    rw [List.flatten_append, run_append]
    have hrun := run_opened (t := t) h3 fun i hi hh => h4 i hi ⟨by decide, hh⟩
    simp only [List.flatten_append, List.flatten_cons, List.flatten_nil, List.append_nil, List.append_assoc, List.append_cancel_left_eq] at e' ⊢
    rcases h5 with rfl | ⟨r', rfl⟩
    · right; left
      have := congrArg List.length e'
      simp at this
      exact List.eq_nil_of_length_eq_zero (by omega)
    · cases g2 with
      | stop hno => exact absurd (choice_one (by decide)) (hno _ _)
      | cons k1 k2 =>
        cases k2
        obtain ⟨t', ht', rfl, e2⟩ := choice_plain k1
        simp at ht'
        subst ht'
        left
        rcases hrun with h | h | h <;> rw [h] <;> decide

/-! ## Rules -/

def SkipRule (r : Rule) : Prop := ∀ s u, RuleFindsOne r s u → Skip s u

theorem skip_patterns {ps : List Pattern} (hp : ∀ p ∈ ps, ∀ s ts, SpecLeading p.choices s ts → ts ≠ [] → Skip s ts.flatten) : ∀ {us : List Str} {s : Str},
    PatternsFind ps s us → Skip s us.flatten := by
  intro us
  induction us with
  | nil => intro s _; exact Skip.nil s
  | cons u us ih =>
    rintro s ⟨⟨p, hm, ts, h1, h2, rfl⟩, h3⟩ rest e q hq
    refine (Skip.append (s' := us.flatten ++ rest) (hp p hm s ts h1 h2) (by simpa using e) ?_) rest e q hq
    have : s.drop ts.flatten.length = us.flatten ++ rest := by
      rw [e]; simp only [List.flatten_cons, List.append_assoc, List.drop_left]
    rw [← this]
    exact ih h3

theorem skipRule_pattern {r : Rule} {ps : List Pattern} {card : Cardinality.Card} (h : r.content = .pattern ps card)
    (hp : ∀ p ∈ ps, ∀ s ts, SpecLeading p.choices s ts → ts ≠ [] → Skip s ts.flatten) : SkipRule r := by
  intro s u hu
  rw [RuleFindsOne, h] at hu
  obtain ⟨us, _, rfl, hu⟩ := hu
  exact skip_patterns hp hu

theorem skipRule_char {r : Rule} {c : UInt8} (h : r.content = .constant [c]) (hc : skipped c = true) : SkipRule r := by
  intro s u hu
  rw [RuleFindsOne, h] at hu
  rw [hu.1]
  exact skip_char hc s

theorem skip_rules {r : Rule} (hr : SkipRule r) : ∀ {ws : List Str} {s : Str}, RuleFinds r s ws → Skip s ws.flatten := by
  intro ws
  induction ws with
  | nil => intro s _; exact Skip.nil s
  | cons u us ih =>
    rintro s ⟨h1, h3⟩ rest e q hq
    refine (Skip.append (s' := us.flatten ++ rest) (hr s u h1) (by simpa using e) ?_) rest e q hq
    have : s.drop u.length = us.flatten ++ rest := by
      rw [e]; simp only [List.flatten_cons, List.append_assoc, List.drop_left]
    rw [← this]
    exact ih h3

/-! ## Trees -/

theorem matchesDiscovery_append' (a b : List AMatch) : matchesDiscovery (a ++ b) = matchesDiscovery a ++ matchesDiscovery b := by
  induction a with
  | nil => simp [matchesDiscovery]
  | cons x a ih => simp [matchesDiscovery, ih]

section
variable {ts chans : List GToken} {Cut : GToken → GElement → Str → Prop} {S : Str → Prop}

/-- A line which is skipped. -/
def SkipLine (S : Str → Prop) (l : GLine) : Prop :=
  ∀ e, .element e ∈ l → (∀ r, e.content = .rule r → SkipRule r) ∧ ∀ n specs, e.content = .token n specs → S n

theorem SkipLine.tail {i : GInstr} {l : GLine} (h : SkipLine S (i :: l)) : SkipLine S l := fun e he => h e (by simp [he])

variable (hS : ∀ t ∈ ts, S t.name → ∀ l ∈ t.must, SkipLine S l) (hC : ∀ ch ∈ chans, ∀ l ∈ ch.must, SkipLine S l)
include hS hC

mutual
theorem tree_skip : ∀ {t : GToken} {s : Str} {a : AToken} {c : Str → Nat}, Tree ts chans Cut t s a c → t ∈ ts → S t.name → Skip s a.discovery
  | _, _, _, _, .mk h1 h2 h3, ht, hs => treeLine_skip h3 (hS _ ht hs _ (List.mem_of_getElem? h1))
theorem trees_skip : ∀ {t : GToken} {s : Str} {as : List AToken} {c : Str → Nat}, Trees ts chans Cut t s as c → t ∈ ts → S t.name →
    Skip s (aTokensDiscovery as)
  | _, s, _, _, .nil, _, _ => Skip.nil s
  | _, _, _, _, .cons e h1 h2, ht, hs => by
    have a1 := tree_skip h1 ht hs
    have a2 := trees_skip h2 ht hs
    exact a1.append e a2
theorem treeLine_skip : ∀ {t : GToken} {gl : GLine} {s : Str} {ms : List AMatch} {c : Str → Nat}, TreeLine ts chans Cut t gl s ms c →
    SkipLine S gl → Skip s (matchesDiscovery ms)
  | _, _, s, _, _, .done, _ => Skip.nil s
  | _, _, _, _, _, .switch h, hl => treeLine_skip h hl.tail
  | _, _, _, _, _, .absent _ hg e h, hl => by
    have a1 := treeGap_skip hg
    have a2 := treeLine_skip h hl.tail
    rw [matchesDiscovery_append']
    exact a1.append e a2
  | _, _, _, _, _, .token hg e h0 hu _ _ hts' _ e2 h, hl => by
    have a1 := treeGap_skip hg
    have a2 := treeLine_skip h hl.tail
    have a3 := trees_skip hts' hu ((hl _ (by simp)).2 _ _ h0)
    rw [matchesDiscovery_append']
    exact a1.append e (a3.append e2 a2)
  | _, _, _, _, _, .rule hg e h0 _ hws _ hx e2 h, hl => by
    have a1 := treeGap_skip hg
    have a2 := treeLine_skip h hl.tail
    have a3 := skip_rules ((hl _ (by simp)).1 _ h0) hws
    rw [matchesDiscovery_append']
    refine a1.append e ?_
    simp only [matchesDiscovery, AMatch.discovery, hx]
    exact a3.append e2 a2
  | _, _, s, _, _, .cut _, _ => Skip.nil s
theorem treeGap_skip : ∀ {s : Str} {g : List AMatch}, TreeGap ts chans Cut s g → Skip s (matchesDiscovery g)
  | s, _, .nil => Skip.nil s
  | _, _, .cons h1 h2 _ h3 e h4 => by
    have a1 := treeLine_skip h3 (hC _ h1 _ h2)
    have a2 := treeGap_skip h4
    rw [matchesDiscovery_append']
    exact a1.append e a2
end
end

/-! ## The shipped grammar -/

theorem chars_skipped {a b : Nat} (h : (chars a b).all (fun t => match t with | [c] => skipped c | _ => false) = true) : ∀ t ∈ chars a b, ∃ c, t = [c] ∧ skipped c = true := by
  intro t ht
  have := List.all_eq_true.mp h t ht
  match t, this with
  | [c], h => exact ⟨c, rfl, h⟩

theorem skip_min {s : Str} {ts : List Str} : SpecLeading pMinLetters.choices s ts → ts ≠ [] → Skip s ts.flatten :=
  skip_letters (chars_skipped (by decide +kernel))
theorem skip_maj {s : Str} {ts : List Str} : SpecLeading pMajLetters.choices s ts → ts ≠ [] → Skip s ts.flatten :=
  skip_letters (chars_skipped (by decide +kernel))
theorem skip_white {s : Str} {ts : List Str} : SpecLeading pWhitespace.choices s ts → ts ≠ [] → Skip s ts.flatten :=
  skip_letters (by
    intro t ht
    simp only [List.mem_cons, List.not_mem_nil, or_false] at ht
    rcases ht with rfl | rfl | rfl <;> exact ⟨_, rfl, by decide⟩)

section
variable {rs : RuleSet} {ts cs : TokenSet} (h : BaseRead rs ts cs)
include h

theorem BaseRead.content {n : String} {c : RuleContent} (hc : ∀ x ∈ baseRules, x.1 = lit n → x.2 = c) {r : Rule} (hr : rs.find (lit n) = .ok r) : r.content = c := by
  obtain ⟨h1, h2⟩ := h.find_rule hr
  have : (r.name, r.content) ∈ baseRules := by rw [← h.rules]; exact List.mem_map_of_mem h1
  exact hc _ this h2

/-- The names, one behind the other. -/
def nameKinds : List Kind := [.assigneeNames, .commaAssigneeName, .assigneeName, .variableName]
def nameTok (n : Str) : Prop := ∃ k ∈ nameKinds, n = k.name

theorem BaseRead.skip_rule {n : String} (hn : n ∈ ["COMMA", "UNDERSCORE", "FIRST_LETTER", "MIN_MAJ_LETTERS", "WHITESPACES", "MULTI_LINE_COMMENT", "SINGLE_LINE_COMMENT"])
    {r : Rule} (hr : rs.find (lit n) = .ok r) : SkipRule r := by
  simp only [List.mem_cons, List.not_mem_nil, or_false] at hn
  rcases hn with rfl | rfl | rfl | rfl | rfl | rfl | rfl
  · exact skipRule_char (c := 44) (h.content (by decide +kernel) hr) (by decide)
  · exact skipRule_char (c := 95) (h.content (by decide +kernel) hr) (by decide)
  · exact skipRule_pattern (h.content (c := .pattern [pMinLetters] (.specific (.amount 1))) (by decide +kernel) hr) (by
      intro p hp s ts
      simp at hp
      subst hp
      exact skip_min)
  · exact skipRule_pattern (h.content (c := .pattern [pMinLetters, pMajLetters] .nonZeroMultiple) (by decide +kernel) hr) (by
      intro p hp s ts
      simp at hp
      rcases hp with rfl | rfl
      · exact skip_min
      · exact skip_maj)
  · exact skipRule_pattern (h.content (c := .pattern [pWhitespace] .nonZeroMultiple) (by decide +kernel) hr) (by
      intro p hp s ts
      simp at hp
      subst hp
      exact skip_white)
  · exact skipRule_pattern (h.content (c := .pattern [pBlockComment] (.specific (.amount 1))) (by decide +kernel) hr) (by
      intro p hp s ts
      simp at hp
      subst hp
      exact skip_block)
  · exact skipRule_pattern (h.content (c := .pattern [pLineComment] (.specific (.amount 1))) (by decide +kernel) hr) (by
      intro p hp s ts
      simp at hp
      subst hp
      exact skip_line)

theorem BaseRead.skip_name : ∀ t ∈ ts.list, nameTok t.name → ∀ l ∈ t.must, SkipLine nameTok l := by
  rintro t ht ⟨k, hk, hn⟩ gl hgl e he
  obtain ⟨k', hk'⟩ := h.token ht
  obtain rfl : k' = k := name_inj (hk'.1.symm.trans hn)
  obtain ⟨l, hl, hp⟩ := h.line hk' hgl
  obtain ⟨s, rep, spec, hm, hp⟩ := part_of h hp he
  have key : ∀ k ∈ nameKinds, ∀ l ∈ source k, ∀ p ∈ l, (match p with
    | .part (.tok k) _ _ => decide (k ∈ nameKinds)
    | .part (.rule n) _ _ => decide (n ∈ ["COMMA", "UNDERSCORE", "FIRST_LETTER", "MIN_MAJ_LETTERS", "WHITESPACES", "MULTI_LINE_COMMENT", "SINGLE_LINE_COMMENT"])
    | .switch => true) = true := by decide +kernel
  have key := key _ hk l hl _ hm
  cases s with
  | tok k2 =>
    obtain ⟨e', h1, _, h2⟩ := hp
    cases h1
    refine ⟨fun r hr => (by rw [h2] at hr; cases hr), fun n specs hs => ?_⟩
    rw [h2] at hs
    cases hs
    exact ⟨k2, by simpa using key, rfl⟩
  | rule n =>
    obtain ⟨e', r, h1, _, h2, h3⟩ := hp
    cases h1
    refine ⟨fun r' hr => ?_, fun n specs hs => by rw [h2] at hs; cases hs⟩
    rw [h2] at hr
    cases hr
    exact h.skip_rule (of_decide_eq_true key) h3

theorem BaseRead.skip_chan : ∀ ch ∈ cs.list, ∀ l ∈ ch.must, SkipLine nameTok l := by
  intro t ht l hl e he
  obtain ⟨x, hx, _, _, _, r, e', h1, h2, h3, h4⟩ := h.channel ht
  rw [h1] at hl
  simp at hl
  subst hl
  simp at he
  subst he
  refine ⟨fun r' hr => ?_, fun n specs hs => by rw [h2] at hs; cases hs⟩
  rw [h2] at hr
  cases hr
  simp only [List.mem_cons, List.not_mem_nil, or_false] at hx
  rcases hx with rfl | rfl | rfl <;> exact h.skip_rule (by simp) h4

/-- A sign which is not skipped, in a line which goes on behind skipped text. -/
theorem BaseRead.sign {t : GToken} {e : GElement} {is : GLine} {s : Str} {ms : List AMatch} {c : Str → Nat} {n : String} {d : UInt8}
    (hl : TreeLine ts.list cs.list (GivesUp ts.list) t (.element e :: is) s ms c) (hp : PieceIs rs (.part (.rule n) .one none) (.element e))
    (hn : ∀ x ∈ baseRules, x.1 = lit n → x.2 = .constant [d]) (hd : skipped d = false) (hd7 : d ≠ 47) (hd2 : d ≠ 42)
    {q : CState} (hq : Clean q s) : q.run (matchesDiscovery ms) = .stop d := by
  obtain ⟨e', r, h1, h2, h3, h4⟩ := hp
  cases h1
  have hm : ¬ SpecAllows e.times 0 := by simp [GElement.times, h2, Rep.card, SpecAllows]
  cases hl with
  | absent h0 => exact absurd h0 hm
  | token _ _ h0 => rw [h3] at h0; cases h0
  | cut h0 =>
    rcases h0 with ⟨_, h0⟩ | ⟨_, _, ⟨_, h0⟩, _⟩
    · exact absurd h0 hm
    · rw [h3] at h0; cases h0
  | @rule _ _ r' _ _ s' rest g ms ws x c hg e1 h0 hne hws hcard hx e2 hl =>
    rw [h3] at h0
    cases h0
    have hq' := treeGap_skip h.skip_name h.skip_chan hg _ e1 q hq
    rw [matchesDiscovery_append', run_append]
    cases ws with
    | nil => exact absurd rfl hne
    | cons w ws =>
      have hw := hws.1
      rw [RuleFindsOne, h.content hn h4] at hw
      obtain ⟨rfl, _⟩ := hw
      have : s' = d :: (ws.flatten ++ rest) := by rw [e2]; simp
      rw [this] at hq'
      rw [hq'.out (by rintro rfl; simp [skipped] at hd) hd2]
      simp only [matchesDiscovery, AMatch.discovery, hx, List.flatten_cons, List.cons_append, List.nil_append]
      have : ∀ u, CState.out.run (d :: u) = .stop d := by
        intro u
        have : CState.out.run (d :: u) = (CState.stop d).run u := by simp [CState.run, CState.next, hd, hd7]
        rw [this, run_stop]
      exact this _

/-- Names, and a sign behind them. -/
theorem BaseRead.names_sign {t : GToken} {e e2 : GElement} {is : GLine} {s : Str} {ms : List AMatch} {c : Str → Nat} {n : String} {d : UInt8} {spec : Option (Kind × Nat)}
    (hl : TreeLine ts.list cs.list (GivesUp ts.list) t (.element e :: .element e2 :: is) s ms c) (hne : matchesDiscovery ms ≠ [])
    (hp : PieceIs rs (.part (.tok .assigneeNames) .one spec) (.element e)) (hp2 : PieceIs rs (.part (.rule n) .one none) (.element e2))
    (hn : ∀ x ∈ baseRules, x.1 = lit n → x.2 = .constant [d]) (hd : skipped d = false) (hd7 : d ≠ 47) (hd2 : d ≠ 42) :
    CState.out.run (matchesDiscovery ms) = .stop d := by
  obtain ⟨e', h1, h2, h3⟩ := hp
  cases h1
  have hm : ¬ SpecAllows e.times 0 := by simp [GElement.times, h2, Rep.card, SpecAllows]
  cases hl with
  | absent h0 => exact absurd h0 hm
  | rule _ _ h0 => rw [h3] at h0; cases h0
  | cut h0 => simp [matchesDiscovery] at hne
  | @token _ u _ specs _ _ s' rest g ms as kc c hg e1 h0 hu hne' hcard hts' hsp e3 hl =>
    rw [h3] at h0
    simp only [GContent.token.injEq] at h0
    have hq := treeGap_skip h.skip_name h.skip_chan hg _ e1 .out (.inl rfl)
    have hq := trees_skip h.skip_name h.skip_chan hts' hu ⟨.assigneeNames, by simp [nameKinds], h0.1.symm⟩ _ e3 _ hq
    have := h.sign hl hp2 hn hd hd7 hd2 hq
    rw [matchesDiscovery_append', run_append]
    simp only [matchesDiscovery, AMatch.discovery]
    rw [run_append]
    exact this

/-- The first sign of a `forStatement`. -/
theorem BaseRead.for_sign {a : AToken} (ha : TreeOf rs ts.list cs.list (GivesUp ts.list) .forStatement a) :
    CState.out.run a.discovery = .stop 58 ∨ CState.out.run a.discovery = .stop 40 := by
  obtain ⟨t, ht, hk, s, c, ha⟩ := ha
  cases ha with
  | @mk _ i gl _ ms _ h1 h2 h3 =>
    obtain ⟨l, hl, hp⟩ := h.line hk (List.mem_of_getElem? h1)
    simp only [source, List.mem_cons, List.not_mem_nil, or_false] at hl
    rcases hl with rfl | rfl
    · left
      cases hp with
      | cons p1 hp =>
        cases hp with
        | cons p2 hp =>
          obtain ⟨e, q1, _⟩ := id p1
          obtain ⟨e2, r, q2, _⟩ := id p2
          subst q1 q2
          exact h.names_sign h3 h2 p1 p2 (by decide +kernel) (by decide) (by decide) (by decide)
    · right
      cases hp with
      | cons p1 hp =>
        obtain ⟨e, r, q1, _⟩ := id p1
        subst q1
        exact h.sign h3 p1 (by decide +kernel) (by decide) (by decide) (by decide) (.inl rfl)

/-- The first sign of an `assignee` with `assigneeNames`. -/
theorem BaseRead.assignee_sign {a : AToken} (ha : TreeOf rs ts.list cs.list (GivesUp ts.list) .assignee a) (hn : ∃ it ∈ a.items, it.name = lit "assigneeNames") :
    CState.out.run a.discovery = .stop 61 := by
  obtain ⟨t, ht, hk, s, c, ha⟩ := ha
  cases ha with
  | @mk _ i gl _ ms _ h1 h2 h3 =>
    obtain ⟨l, hl, hp⟩ := h.line hk (List.mem_of_getElem? h1)
    simp only [source, List.mem_cons, List.not_mem_nil, or_false] at hl
    rcases hl with rfl | rfl
    · obtain ⟨it, hit, hn⟩ := hn
      have hi := treeLine_items (fun _ h1 _ h2 => h.chanLine h1 h2) (fun _ h1 => h.token h1) (fun _ _ h1 => (h.find_rule h1).2) hp h3
      have := hi.none (n := lit "assigneeNames") (by decide +kernel) (by decide +kernel)
      rw [List.filter_eq_nil_iff] at this
      exact absurd (by simpa using hn) (this it hit)
    · cases hp with
      | cons p1 hp =>
        cases hp with
        | cons p2 hp =>
          obtain ⟨e, q1, _⟩ := id p1
          obtain ⟨e2, r, q2, _⟩ := id p2
          subst q1 q2
          exact h.names_sign h3 h2 p1 p2 (by decide +kernel) (by decide) (by decide) (by decide)
end

end Verif.Base
