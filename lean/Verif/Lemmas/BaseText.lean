import Verif.Lemmas.BaseTextData
import Verif.Lemmas.TextCheck
import Verif.Spec.BaseText
import Verif.Props.TextPatterns
import Verif.Props.TextRules
import Verif.Props.TextTokens

/-!
# Lemmas: the shipped texts of the base grammar are read
-/

set_option maxRecDepth 100000

namespace Verif.Base
open Verif.Text Verif.Patterns Verif.Lexer

/-! ## What is read is determined -/

def lastOf {α : Type} (name : α → Str) (l : List α) (k : Str) : Option α := (l.filter (fun a => name a = k)).getLast?

theorem lastOf_eq {α : Type} {name : α → Str} {l : List α} {k : Str} {a : α} (h : LastNamed name l k a) : lastOf name l k = some a := by
  obtain ⟨pre, post, rfl, h2, h3⟩ := h
  have : post.filter (fun a => name a = k) = [] := by
    rw [List.filter_eq_nil_iff]
    intro b hb
    simpa using h3 b hb
  simp [lastOf, List.filter_append, h2, this]

def groupFor (l : List Entry) (n : Str) : Group := ⟨n, ((lastOf GroupT.name (groupsOf l) n).map GroupT.options).getD []⟩
def serieFor (l : List Entry) (n : Str) : Serie := ⟨n, ((lastOf SerieT.name (seriesOf l) n).map (fun t => t.refs.map (fun r => groupFor l r.2))).getD []⟩
def patternFor (l : List Entry) (p : PatternT) : Pattern := ⟨p.name, p.choices.map (fun c => ⟨serieFor l c.serie, c.isReverse⟩)⟩

theorem forall₂_map {α β : Type} {R : α → β → Prop} {f : α → β} (hf : ∀ a b, R a b → b = f a) {l : List α} {m : List β} (h : List.Forall₂ R l m) :
    m = l.map f := by
  induction h with
  | nil => rfl
  | cons hx _ ih => rw [List.map_cons, ← ih, ← hf _ _ hx]

theorem group_det {l : List Entry} {n : Str} {g : Group} (h : GroupShows l n g) : g = groupFor l n := by
  obtain ⟨h1, t, h2, h3⟩ := h
  cases g
  simp only at h1 h3
  simp [groupFor, lastOf_eq h2, h1, h3]
theorem serie_det {l : List Entry} {n : Str} {g : Serie} (h : SerieShows l n g) : g = serieFor l n := by
  obtain ⟨h1, t, h2, h3⟩ := h
  have h4 := forall₂_map (f := fun r : Str × Str => groupFor l r.2) (fun a b hab => group_det hab) h3
  cases g
  simp only at h1 h4
  simp [serieFor, lastOf_eq h2, h1, h4]
theorem pattern_det {l : List Entry} {p : PatternT} {g : Pattern} (h : PatternShows l p g) : g = patternFor l p := by
  obtain ⟨h1, h2⟩ := h
  have h4 := forall₂_map (f := fun c : ChoiceT => (⟨serieFor l c.serie, c.isReverse⟩ : Choice)) (fun a b hab => by
    cases b
    simp only at hab
    rw [← serie_det hab.2, hab.1]) h2
  cases g
  simp only at h1 h4
  simp [patternFor, h1, h4]

/-! ## Patterns -/

theorem patternsData_ok : ∀ e ∈ patternsData, e.Ok := by
  have h : patternsData.all Entry.check = true := by decide +kernel
  intro e he
  exact entry_of (List.all_eq_true.1 h e he)

theorem patternsData_complete : Complete patternsData := by unfold Complete; decide +kernel

theorem patternsData_read : (patternsOf patternsData).map (patternFor patternsData) = basePatterns := by
  simp only [basePatterns, pNumbers, pUnderscore, pMinLetters, pMajLetters, pWhitespace, pNoQuotation, pLineComment, pBlockComment, litBytes]
  decide +kernel

theorem end_blank : Blank (lit "\n") := blank_of (by decide)

theorem base_patterns : ∃ ps, Text.toPatterns patternsAlex = .ok ps ∧ ps.list = basePatterns ∧ ∀ p ∈ basePatterns, ps.find p.name = .ok p := by
  obtain ⟨ps, h1, h2, h3⟩ := (C88_patterns_read patternsData patternsEnd patternsData_ok end_blank).1 patternsData_complete
  have hl : ps.list = basePatterns := by
    rw [forall₂_map (fun a b hab => pattern_det hab) h2, patternsData_read]
  refine ⟨ps, ?_, hl, ?_⟩
  · rw [← h1, patternsAlex, patternsPieces_eq, ← patterns_pieces]
    rfl
  · intro p hp
    have hn : (basePatterns.map Pattern.name).Nodup := by
      simp only [basePatterns, pNumbers, pUnderscore, pMinLetters, pMajLetters, pWhitespace, pNoQuotation, pLineComment, pBlockComment, litBytes]
      decide +kernel
    rcases h3 p.name with ⟨a, ha, hlast⟩ | ⟨_, hno⟩
    · rw [hl] at hlast
      rw [ha, last_unique hlast ((last_nodup hn).2 ⟨hp, rfl⟩)]
    · exact absurd rfl (hno p (hl ▸ hp))

/-! ## Rules -/

/-- The content of a rule, given the patterns. -/
def bodyFor (find : Str → Option Pattern) : BodyT → RuleContent
  | .constant _ c _ => .constant c
  | .pattern _ _ names _ card _ => .pattern (names.map (fun n => (find n).getD ⟨[], []⟩)) card

theorem forall₂_map_mem {α β γ : Type} {R : α → β → Prop} {f : α → γ} {g : β → γ} {l : List α} {m : List β} (h : List.Forall₂ R l m)
    (hf : ∀ a ∈ l, ∀ b, R a b → g b = f a) : m.map g = l.map f := by
  induction h with
  | nil => rfl
  | cons hx _ ih => rw [List.map_cons, List.map_cons, hf _ List.mem_cons_self _ hx, ih (fun a ha => hf a (List.mem_cons_of_mem _ ha))]

def findPattern (n : Str) : Option Pattern := basePatterns.find? (fun p => p.name = n)

theorem basePatterns_nodup : (basePatterns.map Pattern.name).Nodup := by
  simp only [basePatterns, pNumbers, pUnderscore, pMinLetters, pMajLetters, pWhitespace, pNoQuotation, pLineComment, pBlockComment, litBytes]
  decide +kernel

theorem find_nodup {α : Type} {name : α → Str} {l : List α} (hn : (l.map name).Nodup) {a : α} (ha : a ∈ l) : l.find? (fun b => name b = name a) = some a := by
  induction l with
  | nil => cases ha
  | cons b l ih =>
    simp only [List.map_cons, List.nodup_cons] at hn
    by_cases hb : name b = name a
    · rcases List.mem_cons.1 ha with rfl | ha
      · simp
      · exact absurd (List.mem_map.2 ⟨a, ha, hb.symm⟩) hn.1
    · rcases List.mem_cons.1 ha with rfl | ha
      · exact absurd rfl hb
      · simp only [List.find?_cons, hb, decide_false]
        exact ih hn.2 ha

def patternNames : List Str :=
  [bytes% "numbers", bytes% "underscore", bytes% "min_letters", bytes% "maj_letters", bytes% "whitespace", bytes% "everything_except_quotation",
   bytes% "single_line_comment", bytes% "multi_line_comment"]

theorem patternNames_eq : basePatterns.map Pattern.name = patternNames := by
  simp only [basePatterns, pNumbers, pUnderscore, pMinLetters, pMajLetters, pWhitespace, pNoQuotation, pLineComment, pBlockComment, litBytes]
  decide +kernel

theorem rulesData_check : rulesData.all (RuleT.check patternNames) = true := by decide +kernel
theorem rulesData_nodup : (rulesData.map RuleT.name).Nodup := by decide +kernel

theorem rulesData_read : rulesData.map (fun r => (r.name, bodyFor findPattern r.body)) = baseRules := by
  unfold baseRules
  simp only [litBytes]
  unfold findPattern
  simp only [basePatterns, pNumbers, pUnderscore, pMinLetters, pMajLetters, pWhitespace, pNoQuotation, pLineComment, pBlockComment, litBytes]
  decide +kernel

/-- The rule which is read for a text. -/
def ruleFor (r : RuleT) : Rule := ⟨r.name, r.code, bodyFor findPattern r.body, r.body.code⟩

theorem base_rules_exact : ∃ ps rs, Text.toPatterns patternsAlex = .ok ps ∧ Text.toRules rulesAlex ps = .ok rs ∧ ps.list = basePatterns ∧
    rs.list = rulesData.map ruleFor ∧ (∀ r ∈ rs.list, rs.find r.name = .ok r) := by
  obtain ⟨ps, h1, h2, h3⟩ := base_patterns
  have hk : ∀ n ∈ patternNames, ∃ p, ps.find n = .ok p := by
    intro n hn
    rw [← patternNames_eq, List.mem_map] at hn
    obtain ⟨p, hp, rfl⟩ := hn
    exact ⟨p, h3 p hp⟩
  have hok : ∀ r ∈ rulesData, r.Ok ps := fun r hr => rule_of hk (List.all_eq_true.1 rulesData_check r hr)
  obtain ⟨rs, g1, g2, g3⟩ := (C86_rules_read ps rulesData rulesEnd hok end_blank).1 ⟨by simp [rulesData], rulesData_nodup⟩
  refine ⟨ps, rs, h1, ?_, h2, ?_, g3⟩
  · rw [← g1, rulesAlex, rulesPieces_eq, ← rules_pieces]
    rfl
  · have hf : ∀ r ∈ rulesData, ∀ n p, n ∈ patternNames → ps.find n = .ok p → findPattern n = some p := by
      intro r _ n p hn hp
      rw [← patternNames_eq, List.mem_map] at hn
      obtain ⟨q, hq, rfl⟩ := hn
      rw [h3 q hq] at hp
      cases hp
      exact find_nodup basePatterns_nodup hq
    have key : ∀ r ∈ rulesData, ∀ g, RuleShows ps r g → id g = ruleFor r := by
      intro r hr g hg
      obtain ⟨e1, e2, e3, e4⟩ := hg
      have hc := List.all_eq_true.1 rulesData_check r hr
      simp only [RuleT.check, Bool.and_eq_true] at hc
      cases g with | mk gn gc gb ge =>
      simp only at e1 e2 e3 e4
      subst e1 e2 e4
      simp only [id, ruleFor, Rule.mk.injEq, true_and, and_true]
      cases hb : r.body with
      | constant pre d post =>
        rw [hb] at e3
        cases hgc : gb with
        | constant e => rw [hgc] at e3; simp only [BodyShows] at e3; simp [bodyFor, e3]
        | pattern l k => rw [hgc] at e3; cases e3
      | pattern pre inner names gap card post =>
        rw [hb] at e3 hc
        simp only [BodyT.check, Bool.and_eq_true, List.all_eq_true, List.contains_eq_mem, decide_eq_true_eq] at hc
        cases hgc : gb with
        | constant e => rw [hgc] at e3; cases e3
        | pattern l k =>
          rw [hgc] at e3
          simp only [BodyShows] at e3
          rw [bodyFor, e3.1]
          congr 1
          have := forall₂_map_mem (g := id) (f := fun n => (findPattern n).getD ⟨[], []⟩) e3.2 (fun n hn p hp => by
            rw [hf r hr n p (hc.2.1.2 n hn).2 hp]; rfl)
          simpa using this
    have := forall₂_map_mem g2 key
    rwa [List.map_id] at this

theorem base_rules : ∃ ps rs, Text.toPatterns patternsAlex = .ok ps ∧ Text.toRules rulesAlex ps = .ok rs ∧ ps.list = basePatterns ∧
    rs.list.map (fun r => (r.name, r.content)) = baseRules ∧ (∀ r ∈ rs.list, rs.find r.name = .ok r) := by
  obtain ⟨ps, rs, h1, h2, h3, h4, h5⟩ := base_rules_exact
  refine ⟨ps, rs, h1, h2, h3, ?_, h5⟩
  rw [h4, ← rulesData_read, List.map_map]
  rfl

end Verif.Base
