import Verif.Lemmas.Results

/-!
# Properties C33–C37 and C54 (`containers/patterns`, `asts/results`)
-/

namespace Verif.Patterns
open Verif.Cardinality

/-! ## C33 -/

/-- C33: `Contains` is the length of the longest non-empty element with which the content begins. -/
theorem C33_contains_longest (list : List Str) (s t : Str) (h : SpecLongest list s t) :
    contains list s = t.length := contains_longest h

/-- C33: and 0 exactly when no non-empty element begins the content. -/
theorem C33_contains_zero_iff (list : List Str) (s : Str) : contains list s = 0 ↔ ¬ SpecStarts list s :=
  contains_zero

/-- C33: a longest element exists as soon as any element matches. -/
theorem C33_longest_exists (list : List Str) (s : Str) (h : SpecStarts list s) : ∃ t, SpecLongest list s t :=
  ⟨_, (contains_pos (contains_zero.not.mpr (not_not.mpr h))).1⟩

/-- C33: the result of matching a group is its longest element at the first position where one of them occurs;
an error means that none occurs. -/
theorem C33_group_result (g : Group) (content : Str) :
    (∀ r, fromGroup g content = .ok r → ∃ i t, i < content.length ∧ r.discoveries = [⟨i, t, .group g⟩] ∧
      SpecLongest g.list (content.drop i) t ∧ (∀ j < i, ¬ SpecStarts g.list (content.drop j)) ∧ r.input = content) ∧
    (fromGroup g content = .err ↔ ∀ j < content.length, ¬ SpecStarts g.list (content.drop j)) ∧
    fromGroup g content ≠ .panic := by
  unfold fromGroup
  by_cases hc : content = []
  · subst hc; simp [fromGroupAt]
  rcases fromGroupAt_spec g content content 0 hc with ⟨k, t, h1, h2, h3, h4⟩ | ⟨h1, h2⟩
  · rw [h4]
    refine ⟨?_, ?_, by simp⟩
    · intro r hr
      simp at hr; subst hr
      exact ⟨k, t, h1, rfl, h2, h3, rfl⟩
    · simp only [reduceCtorEq, false_iff, not_forall, not_not]
      exact ⟨k, h1, t, h2.1, h2.2.1, h2.2.2.1⟩
  · rw [h2]
    exact ⟨by simp, by simpa using h1, by simp⟩

def exGroup : Group := ⟨lit "$G", [lit "ab", lit "a", lit "abc", lit ""]⟩

example : SpecLongest exGroup.list (lit "abx") (lit "ab") := by
  unfold SpecLongest; decide

example : ∃ r, fromGroup exGroup (lit "xxabx") = .ok r ∧ r.discoveries = [⟨2, lit "ab", .group exGroup⟩] :=
  ⟨_, rfl, by decide⟩

/-! ## C34 -/

/-- C34: the objects made by the builders are well formed, so the theorems below apply to all of them. -/
theorem C34_builders (name : Str) (list : Option (List Choice)) (p : Pattern) (h : patternNow name list = .ok p)
    (hs : ∀ l, list = some l → ∀ c ∈ l, ∃ n gs, serieNow n gs = .ok c.serie) : WellFormed p := by
  unfold patternNow at h
  split at h
  · simp at h
  · split at h
    · simp at h
    · simp at h
    · rename_i l hl
      simp at h; subst h
      refine ⟨fun e => hl (by rw [show l = [] from e]), ?_⟩
      intro c hc
      obtain ⟨n, gs, hsn⟩ := hs l rfl c hc
      unfold serieNow at hsn
      split at hsn
      · simp at hsn
      · split at hsn
        · simp at hsn
        · simp at hsn
        · rename_i g hg
          simp at hsn; rw [← hsn]
          exact fun e => hg (by rw [show g = [] from e])

/-- C34: matching a pattern finds, at the first index where its first choice is found, the texts of its leading
choices; it reports an error exactly when there is no such index, and never panics. -/
theorem C34_pattern_result (p : Pattern) (hp : WellFormed p) (content : Str) :
    (∀ r, fromPattern p content = .ok r → ∃ i, i < content.length ∧ r.index = .ok i ∧ r.input = content.drop i ∧
      r.discoveries ≠ [] ∧ SpecLeading p.choices (content.drop i) (r.discoveries.map Discovery.content) ∧
      ∀ j < i, SpecLeading p.choices (content.drop j) []) ∧
    (fromPattern p content = .err ↔ ∀ j < content.length, SpecLeading p.choices (content.drop j) []) ∧
    fromPattern p content ≠ .panic := by
  rcases fromPattern_cases p hp content with ⟨k, r, h1, h2, h3, h4, h5, h6, h7⟩ | ⟨h1, h2⟩
  · rw [h2]
    refine ⟨?_, ?_, by simp⟩
    · intro r' hr
      simp at hr; subst hr
      exact ⟨k, h1, h6, h3, h4, h5, h7⟩
    · simp only [reduceCtorEq, false_iff]
      intro h
      have := SpecLeading_det h5 (h k h1)
      simp at this; exact h4 this
  · rw [h2]
    exact ⟨by simp, by simpa using h1, by simp⟩

/-- C34: the discoveries of a result are not empty, and their concatenation, of length `Amount`, stands in the content
at the reported index. -/
theorem C34_anchored (p : Pattern) (hp : WellFormed p) (content : Str) (r : Result)
    (h : fromPattern p content = .ok r) : ∃ i, r.index = .ok i ∧ r.content <+: content.drop i ∧
      r.amount = r.content.length ∧ 0 < r.amount ∧ ∀ d ∈ r.discoveries, d.content ≠ [] := by
  obtain ⟨i, h1, h2, h3, h4, h5, _⟩ := (C34_pattern_result p hp content).1 r h
  obtain ⟨k1, k2⟩ := SpecLeading_prefix h5
  refine ⟨i, h2, k1, rfl, ?_, ?_⟩
  · cases hd : r.discoveries with
    | nil => exact absurd hd h4
    | cons d ds =>
      have := k2 d.content (by rw [hd]; simp)
      have := List.length_pos_iff.mpr this
      simp only [Result.amount, Result.content, hd]
      simp; omega
  · intro d hd
    exact k2 _ (List.mem_map_of_mem hd)

/-- C34: the texts of the leading choices are determined by the pattern and the content, so the theorem above says
which result is returned. -/
theorem C34_leading_unique (cs : List Choice) (s : Str) (ts us : List Str) (h : SpecLeading cs s ts)
    (h' : SpecLeading cs s us) : ts = us := SpecLeading_det h h'

def exDigits : Group := ⟨lit "$D", [lit "0", lit "1"]⟩
def exQuote : Group := ⟨lit "$Q", [lit "'"]⟩
def exString : Pattern := ⟨lit "str", [⟨⟨lit "Q", [exQuote]⟩, false⟩, ⟨⟨lit "Q", [exQuote]⟩, true⟩,
  ⟨⟨lit "Q", [exQuote]⟩, false⟩]⟩

example : WellFormed exString := by unfold WellFormed; decide
example : ∃ r, fromPattern exString (lit "x='ab';") = .ok r ∧ r.content = lit "'ab'" ∧ r.index = .ok 2 ∧
    r.remaining = lit ";" ∧ r.next = none := ⟨_, rfl, by decide, by decide, by decide, rfl⟩

/-! ## C35 -/

/-- C35: the remaining text of a group result is the content without its first `k` bytes, where `k` is the length of the
discovery, wherever the discovery stands. -/
theorem C35_group_remaining (g : Group) (content : Str) (r : Result) (i : Nat) (t : Str)
    (h : fromGroup g content = .ok r) (hd : r.discoveries = [⟨i, t, .group g⟩]) :
    r.remaining = content.drop t.length := by
  unfold fromGroup at h
  by_cases hc : content = []
  · subst hc; simp [fromGroupAt] at h
  rcases fromGroupAt_spec g content content 0 hc with ⟨k, t', h1, h2, h3, h4⟩ | ⟨h1, h2⟩
  · rw [h4] at h
    simp at h; subst h
    simp at hd
    obtain ⟨rfl, rfl⟩ := hd
    simp only
    split
    · rfl
    · rename_i hlt; rw [List.drop_eq_nil_of_le (by omega)]
  · rw [h2] at h; simp at h

/-- C35: it is the text behind the discovery exactly when the discovery stands at index 0; in all other cases the
property is violated. -/
theorem C35_remaining_iff (g : Group) (content : Str) (r : Result) (i : Nat) (t : Str)
    (h : fromGroup g content = .ok r) (hd : r.discoveries = [⟨i, t, .group g⟩]) :
    r.remaining = content.drop (i + t.length) ↔ i = 0 := by
  rw [C35_group_remaining g content r i t h hd]
  constructor
  · intro e
    obtain ⟨i', t', h1, h2, h3, _⟩ := (C33_group_result g content).1 r h
    rw [hd] at h2
    simp at h2
    obtain ⟨rfl, rfl⟩ := h2
    have hl := congrArg List.length e
    have := h3.2.2.1.length_le
    have := List.length_pos_iff.mpr h3.2.1
    simp at *
    omega
  · rintro rfl; simp

/-- The violating case is reached: the remaining text of `b` in `ab` is `b`, not the empty text. -/
example : ∃ r, fromGroup ⟨lit "g", [lit "b"]⟩ (lit "ab") = .ok r ∧
    r.discoveries = [⟨1, lit "b", .group ⟨lit "g", [lit "b"]⟩⟩] ∧ r.remaining = lit "b" :=
  ⟨_, rfl, by decide, by decide⟩

/-! ## C54: the remaining text of a pattern result -/

/-- C54: if all the choices of the pattern are found, discoveries and remaining text make up the input, and there is no
next element. -/
theorem C54_complete_remaining (p : Pattern) (hp : WellFormed p) (content : Str) (r : Result)
    (h : fromPattern p content = .ok r) (ts : List Str) (rest : Str) (ha : SpecAll p.choices r.input ts rest) :
    r.input = r.content ++ r.remaining ∧ r.next = none ∧ r.remaining = rest ∧
      r.discoveries.map Discovery.content = ts := by
  have aux : ∀ s i, fromPatternAt p i s = .ok r → ∃ k j, s.drop k ≠ [] ∧ matchPattern p (s.drop k) j = .ok (some r) := by
    intro s
    induction s with
    | nil => intro i h; simp [fromPatternAt] at h
    | cons c cs ih =>
      intro i h
      simp only [fromPatternAt, Out.bind_eq_ok] at h
      obtain ⟨x, hx, h⟩ := h
      cases x with
      | some x => simp at h; subst h; exact ⟨0, i, by simp, by simpa using hx⟩
      | none =>
        obtain ⟨k, j, a, b⟩ := ih (i + 1) h
        exact ⟨k + 1, j, by simpa using a, by simpa using b⟩
  obtain ⟨k, j, a, b⟩ := aux content 0 h
  obtain ⟨d0, n0, r0, e0, _⟩ := matchChoices_spec p.choices hp.2 (content.drop k) j []
  have hin : r.input = content.drop k := by
    rw [matchPattern, e0] at b
    simp only [List.nil_append, Out.bind_ok] at b
    split at b
    · simp at b
    · rename_i hne
      cases d0 with
      | nil => exact absurd rfl hne
      | cons d ds => simp [resultNow, a] at b; rw [← b]
  rw [hin] at ha
  obtain ⟨ds, e1, e2⟩ := matchChoices_all p.choices hp.2 (content.drop k) j [] ts rest ha
  rw [matchPattern, e1] at b
  simp only [List.nil_append, Out.bind_ok] at b
  split at b
  · simp at b
  · rename_i hne
    cases ds with
    | nil => exact absurd rfl hne
    | cons d ds =>
      simp [resultNow, a] at b
      subst b
      refine ⟨?_, rfl, rfl, e2⟩
      simp only
      rw [SpecAll_append ha, ← e2]; rfl

/-- C54 (violation): when a pattern stops at a reversed choice that finds nothing, the remaining text is empty, whatever
still follows, and no next element is reported: the result looks complete. -/
theorem C54_reverse_loses_text (n n1 n2 : Str) (g g' : Group) (gs' : List Group) (t rest : Str)
    (h1 : SpecLongest g.list (t ++ rest) t) (h2 : SpecStarts g'.list rest) :
    ∃ r, fromPattern ⟨n, [⟨⟨n1, [g]⟩, false⟩, ⟨⟨n2, g' :: gs'⟩, true⟩]⟩ (t ++ rest) = .ok r ∧
      r.content = t ∧ r.remaining = [] ∧ r.next = none ∧ rest ≠ [] := by
  have hrest : rest ≠ [] := by
    rintro rfl
    obtain ⟨e, _, hne, hp⟩ := h2
    simp at hp; exact hne hp
  have hc : contains g.list (t ++ rest) = t.length := contains_longest h1
  have ht : 0 < t.length := List.length_pos_iff.mpr h1.2.1
  have hr : reverseAmount g'.list rest = 0 := by
    cases rest with
    | nil => rfl
    | cons c cs =>
      simp only [reverseAmount]
      rw [if_neg (contains_zero.not.mpr (not_not.mpr h2))]
  have hne : t ++ rest ≠ [] := by simp [h1.2.1]
  refine ⟨⟨t ++ rest, [⟨0, t, .group g⟩], [], none⟩, ?_, by simp [Result.content], rfl, rfl, hrest⟩
  cases hs : t ++ rest with
  | nil => exact absurd hs hne
  | cons c cs =>
    rw [← hs]
    have hm : matchPattern ⟨n, [⟨⟨n1, [g]⟩, false⟩, ⟨⟨n2, g' :: gs'⟩, true⟩]⟩ (t ++ rest) 0 =
        .ok (some ⟨t ++ rest, [⟨0, t, .group g⟩], [], none⟩) := by
      have ht0 : t.length ≠ 0 := by omega
      simp [matchPattern, matchChoices, matchChoice, matchSerie, matchReversedSerie, matchesGroup, hc, hne, hr,
        discoveryNow, h1.2.1, resultNow]
    unfold fromPattern
    conv_lhs => rw [hs]
    simp only [fromPatternAt]
    rw [← hs, hm]; simp

example : ∃ r, fromPattern ⟨lit "p", [⟨⟨lit "D", [exDigits]⟩, false⟩, ⟨⟨lit "Q", [exQuote]⟩, true⟩]⟩ (lit "1'abc") =
    .ok r ∧ r.remaining = [] ∧ r.next = none := ⟨_, rfl, by decide, rfl⟩

/-- C54 (violation): when a pattern stops in the middle of a serie, the text of the groups found before is in neither the
discoveries nor the remaining text. -/
theorem C54_partial_serie_loses_text (n n1 n2 : Str) (g g1 g2 : Group) (t u rest : Str)
    (h : SpecLongest g.list (t ++ (u ++ rest)) t) (h1 : SpecLongest g1.list (u ++ rest) u)
    (h2 : ¬ SpecStarts g2.list rest) :
    ∃ r, fromPattern ⟨n, [⟨⟨n1, [g]⟩, false⟩, ⟨⟨n2, [g1, g2]⟩, false⟩]⟩ (t ++ (u ++ rest)) = .ok r ∧
      r.content = t ∧ r.remaining = rest ∧ r.input ≠ r.content ++ r.remaining := by
  have hc : contains g.list (t ++ (u ++ rest)) = t.length := contains_longest h
  have hc1 : contains g1.list (u ++ rest) = u.length := contains_longest h1
  have hc2 : contains g2.list rest = 0 := contains_zero.mpr h2
  have hu : u ≠ [] := h1.2.1
  have hur : u ++ rest ≠ [] := by simp [hu]
  have hne : t ++ (u ++ rest) ≠ [] := by simp [h.2.1]
  refine ⟨⟨t ++ (u ++ rest), [⟨0, t, .group g⟩], rest, some ⟨false, g2⟩⟩, ?_, by simp [Result.content], rfl, ?_⟩
  · have hm : matchPattern ⟨n, [⟨⟨n1, [g]⟩, false⟩, ⟨⟨n2, [g1, g2]⟩, false⟩]⟩ (t ++ (u ++ rest)) 0 =
        .ok (some ⟨t ++ (u ++ rest), [⟨0, t, .group g⟩], rest, some ⟨false, g2⟩⟩) := by
      by_cases hr : rest = []
      · subst hr
        simp only [List.append_nil] at hc hc1 hne hur ⊢
        simp [matchPattern, matchChoices, matchChoice, matchSerie, matchesGroup, hc, hc1, h.2.1,
          discoveryNow, hu, resultNow]
      · have hle : ¬ (u.length + rest.length ≤ u.length) := by
          have := List.length_pos_iff.mpr hr
          omega
        simp [matchPattern, matchChoices, matchChoice, matchSerie, matchesGroup, hc, hc1, hc2, h.2.1,
          discoveryNow, hu, resultNow, hr, hle]
    cases hs : t ++ (u ++ rest) with
    | nil => exact absurd hs hne
    | cons c cs =>
      rw [← hs]
      unfold fromPattern
      conv_lhs => rw [hs]
      simp only [fromPatternAt]
      rw [← hs, hm]; simp
  · simp [Result.content, hu]

example : ∃ r, fromPattern ⟨lit "p", [⟨⟨lit "D", [exDigits]⟩, false⟩, ⟨⟨lit "E", [exDigits, exQuote]⟩, false⟩]⟩
    (lit "10x") = .ok r ∧ r.content = lit "1" ∧ r.remaining = lit "x" := ⟨_, rfl, by decide, by decide⟩

/-! ## C36 -/

/-- C36: of the patterns of a list, the result of the first one with the smallest index is returned. -/
theorem C36_earliest_pattern (ps : List Pattern) (hp : ∀ p ∈ ps, WellFormed p) (content : Str) (r : Result)
    (h : fromPatterns ps content = .ok r) :
    ∃ pre p post i, ps = pre ++ p :: post ∧ fromPattern p content = .ok r ∧ r.index = .ok i ∧
      (∀ q ∈ pre, ∀ r' i', fromPattern q content = .ok r' → r'.index = .ok i' → i < i') ∧
      (∀ q ∈ post, ∀ r' i', fromPattern q content = .ok r' → r'.index = .ok i' → i ≤ i') := by
  rcases fromPatterns_cases content ps hp with ⟨_, b⟩ | ⟨pre, p, post, r', i, a, b, c, d, e, f⟩
  · rw [b] at h; simp at h
  · rw [d] at h; simp at h; subst h
    exact ⟨pre, p, post, i, a, b, c, e, f⟩

/-- C36: an error is reported exactly when every pattern of the list reports one; there is no panic. -/
theorem C36_error_iff (ps : List Pattern) (hp : ∀ p ∈ ps, WellFormed p) (content : Str) :
    (fromPatterns ps content = .err ↔ ∀ p ∈ ps, fromPattern p content = .err) ∧
    fromPatterns ps content ≠ .panic := by
  rcases fromPatterns_cases content ps hp with ⟨a, b⟩ | ⟨pre, p, post, r', i, a, b, c, d, e, f⟩
  · rw [b]; exact ⟨by simpa using a, by simp⟩
  · rw [d]
    refine ⟨?_, by simp⟩
    simp only [reduceCtorEq, false_iff]
    intro h
    rw [h p (by rw [a]; simp)] at b; simp at b

example : ∃ r, fromPatterns [exString, ⟨lit "d", [⟨⟨lit "D", [exDigits]⟩, false⟩]⟩] (lit "x1'a'") = .ok r ∧
    r.content = lit "1" := ⟨_, rfl, by decide⟩

/-! ## C37 -/

/-- C37: the matches of a rule with patterns: they stand one behind the other at the front of the script, each at index 0
of what the previous ones left, not more than the maximum, and as many as possible. -/
theorem C37_pattern_rule (rule : Rule) (ps : List Pattern) (card : Card) (hc : rule.content = .pattern ps card)
    (hp : ∀ p ∈ ps, WellFormed p) (script : Str) :
    ∃ rr rest, toResult rule script = .ok rr ∧ rr.input = rule ∧ script = rr.content ++ rest ∧
      (∀ l, rr.results = some l → l ≠ [] ∧ ∀ r ∈ l, r.index = .ok 0 ∧ r.content ≠ [] ∧
        ∃ p ∈ ps, ∃ s, s <:+ script ∧ fromPattern p s = .ok r) ∧
      (∀ m, card.delimiter.2 = some m → rr.amount ≤ m.toNat) ∧
      (rest = [] ∨ (∀ p ∈ ps, SpecLeading p.choices rest []) ∨
        ∃ m, card.delimiter.2 = some m ∧ (rr.amount = m.toNat ∨ 2 ^ 63 ≤ m.toNat)) := by
  obtain ⟨new, rest, h1, h2, h3, h4, h5⟩ :=
    resultLoop_spec ps hp card.delimiter.2 script.length [] script le_rfl
  simp only [List.nil_append, List.length_nil, Nat.zero_add] at h1 h4 h5
  have hlast : rest = [] ∨ (∀ p ∈ ps, SpecLeading p.choices rest []) ∨
        ∃ m, card.delimiter.2 = some m ∧ (new.length = m.toNat ∨ 2 ^ 63 ≤ m.toNat) := by
    rcases h5 with h5 | h5 | h5
    · exact .inl h5
    · right; right
      cases hm : card.delimiter.2 with
      | none => rw [hm] at h5; simp [maxReached] at h5
      | some m =>
        refine ⟨m, rfl, ?_⟩
        rw [hm] at h5
        by_cases hb : m.toNat < 2 ^ 63
        · left
          have := (maxReached_small hb).mp h5
          rcases h4 with rfl | h4
          · simp at this ⊢; omega
          · have := h4 m hm; omega
        · right; omega
    · exact .inr (.inl h5)
  unfold toResult
  rw [hc]
  simp only [h1, Out.bind_ok]
  by_cases hn : new = []
  · subst hn
    refine ⟨⟨rule, none⟩, rest, by simp, rfl, by simpa [RuleResult.content] using h2, by simp, by simp [RuleResult.amount],
      ?_⟩
    simpa [RuleResult.amount] using hlast
  · refine ⟨⟨rule, some new⟩, rest, by simp [hn], rfl, h2, ?_, ?_, hlast⟩
    · intro l hl
      simp at hl; subst hl
      exact ⟨hn, h3⟩
    · intro m hm
      rcases h4 with h4 | h4
      · exact absurd h4 hn
      · exact h4 m hm

/-- C37 (violation): a maximum from 2^63 on (as in `{-1}`) lets nothing match, although the script may begin with any number
of matches. -/
theorem C37_huge_maximum (rule : Rule) (ps : List Pattern) (card : Card) (m : UInt64) (script : Str)
    (hc : rule.content = .pattern ps card) (hm : card.delimiter.2 = some m) (hb : 2 ^ 63 ≤ m.toNat) :
    toResult rule script = .ok ⟨rule, none⟩ := by
  have : ∀ fuel, resultLoop ps (some m) fuel [] script = .ok [] := by
    intro fuel
    cases fuel with
    | zero => rfl
    | succ fuel =>
      simp only [resultLoop, maxReached_huge hb]
      split <;> rfl
  unfold toResult
  rw [hc]
  simp [hm, this]

/-- C37: a rule with a constant has one match, at the first occurrence of the constant wherever it is in the script, and
none exactly when the constant does not occur. -/
theorem C37_constant_rule (rule : Rule) (s : Str) (hc : rule.content = .constant s) (hs : s ≠ []) (script : Str) :
    (¬ s <:+: script ∧ toResult rule script = .ok ⟨rule, none⟩) ∨
    (∃ pre post r, script = pre ++ s ++ post ∧ ¬ s <:+: pre ++ s.dropLast ∧
      toResult rule script = .ok ⟨rule, some [r]⟩ ∧ r.content = s ∧ r.index = .ok pre.length ∧ r.input = script) := by
  have starts : ∀ x, SpecStarts [s] x ↔ s <+: x := by
    intro x; simp [SpecStarts, hs]
  unfold toResult
  rw [hc]
  simp only [hs, if_false, groupNow, Out.bind_ok]
  obtain ⟨h1, h2, h3⟩ := C33_group_result ⟨s, [s]⟩ script
  cases hf : fromGroup ⟨s, [s]⟩ script with
  | panic => exact absurd hf h3
  | err =>
    left
    refine ⟨?_, by simp⟩
    rintro ⟨a, b, e⟩
    have := h2.mp hf a.length (by have := List.length_pos_iff.mpr hs; rw [← e]; simp; omega)
    apply this
    rw [starts, ← e]; simp
  | ok r =>
    right
    obtain ⟨i, t, k1, k2, k3, k4, k5⟩ := h1 r hf
    have : t = s := by simpa using k3.1
    subst this
    obtain ⟨post, hpost⟩ := k3.2.2.1
    have e : script = script.take i ++ t ++ post := by
      rw [List.append_assoc, hpost, List.take_append_drop]
    refine ⟨script.take i, post, r, e, ?_, by simp, ?_, ?_, k5⟩
    · rw [← first_occ hs (b := post), ← e]
      intro j hj
      simp only [starts] at k4
      apply k4 j
      simp at hj; omega
    · simp [Result.content, k2]
    · simp [Result.index, k2]; omega

/-- C37: a rule with neither constant nor pattern never matches. -/
theorem C37_empty_rule (rule : Rule) (hc : rule.content = .constant []) (script : Str) :
    toResult rule script = .ok ⟨rule, none⟩ := by
  simp [toResult, hc]

def exRule : Rule := ⟨lit "R", lit "R: [d]{1,2};", .pattern [⟨lit "d", [⟨⟨lit "D", [exDigits]⟩, false⟩]⟩]
  (.specific (.range ⟨1, some 2⟩)), lit "[d]{1,2}"⟩

example : ∃ rr, toResult exRule (lit "101x") = .ok rr ∧ rr.content = lit "10" ∧ rr.amount = 2 :=
  ⟨_, rfl, by decide, by decide⟩

/-- The counting of the maximum is on sub-pattern results. -/
example : ∃ rr, toResult { exRule with content := .constant (lit "1") } (lit "001") = .ok rr ∧
    rr.content = lit "1" := ⟨_, rfl, by decide⟩

end Verif.Patterns
