import Verif.Lemmas.Containers
import Verif.Props.Lexer

/-!
# Property C38: the containers of a grammar, and the builders of its parts
-/

namespace Verif.Lexer
open Verif.Patterns Verif.Cardinality

variable {α : Type} {name : α → Str}

/-- C38: the containers of rules and of tokens can be built exactly from the non-empty lists without two entries of one name;
otherwise an error is returned. -/
theorem C38_unique_iff (list : List α) :
    ((∃ c, uniqueNow name list = .ok c) ↔ list ≠ [] ∧ (list.map name).Nodup) ∧ uniqueNow name list ≠ .panic := by
  cases list with
  | nil => simp [uniqueNow]
  | cons a l =>
    rcases mapUnique_spec (name := name) (a :: l) GoMap.empty with ⟨h1, h2, h3⟩ | ⟨h1, h2⟩
    · simp only [uniqueNow, h3, Out.bind_ok, Out.pure_eq]
      exact ⟨⟨fun _ => ⟨by simp, h1⟩, fun _ => ⟨_, rfl⟩⟩, by simp⟩
    · simp only [uniqueNow, h2, Out.bind_err]
      refine ⟨⟨by simp, ?_⟩, by simp⟩
      rintro ⟨_, h⟩
      exact absurd ⟨h, fun _ _ => rfl⟩ h1

/-- C38: a container of rules or of tokens lists the entries in their order, and `Find` returns the entry with the name, and an
error exactly when there is none. -/
theorem C38_unique_find (list : List α) (c : Named α) (h : uniqueNow name list = .ok c) :
    c.list = list ∧ (∀ k a, c.find k = .ok a ↔ a ∈ list ∧ name a = k) ∧
    (∀ k, c.find k = .err ↔ ∀ a ∈ list, name a ≠ k) ∧ (∀ k, c.find k ≠ .panic) := by
  have hn := (C38_unique_iff list).1.mp ⟨c, h⟩
  have hc : c = ⟨list, mapByName name list GoMap.empty⟩ := by
    cases list with
    | nil => simp [uniqueNow] at h
    | cons a l =>
      rcases mapUnique_spec (name := name) (a :: l) GoMap.empty with ⟨h1, h2, h3⟩ | ⟨h1, h2⟩
      · simp only [uniqueNow, h3, Out.bind_ok, Out.pure_eq, Out.ok.injEq] at h
        exact h.symm
      · simp [uniqueNow, h2] at h
  subst hc
  have key : ∀ k, FindsLast name list k ((mapByName name list GoMap.empty).find k) := fun k => goFind_last list k
  refine ⟨rfl, ?_, ?_, ?_⟩
  · intro k a
    rw [← last_nodup hn.2]
    rcases key k with ⟨b, h1, h2⟩ | ⟨h1, h2⟩
    · simp only [Named.find, h1, Out.ok.injEq]
      exact ⟨fun e => e ▸ h2, fun h' => last_unique h2 h'⟩
    · simp only [Named.find, h1]
      simp only [reduceCtorEq, false_iff]
      rintro ⟨p, q, rfl, h3, _⟩
      exact h2 a (by simp) h3
  · intro k
    rcases key k with ⟨b, h1, p, q, rfl, h3, _⟩ | ⟨h1, h2⟩
    · simp only [Named.find, h1]
      simp only [reduceCtorEq, false_iff]
      intro h'
      exact h' b (by simp) h3
    · simp only [Named.find, h1]
      simpa using h2
  · intro k
    rcases key k with ⟨b, h1, _⟩ | ⟨h1, _⟩ <;> simp [Named.find, h1]

example : ∃ c, tokensNow [⟨lit "a", [[.channelSwitch]], none, none⟩, ⟨lit "b", [[.channelSwitch]], none, none⟩] = .ok c ∧
    c.find (lit "b") = .ok ⟨lit "b", [[.channelSwitch]], none, none⟩ ∧ c.find (lit "c") = .err :=
  ⟨_, rfl, by decide, by decide⟩
example : tokensNow [⟨lit "a", [[.channelSwitch]], none, none⟩, ⟨lit "a", [], none, none⟩] = .err := by rfl

/-- C38: the containers of patterns and of groups are built from every non-empty list, duplicates included, and `Find` returns
the last entry of the name. -/
theorem C38_duplicates (list : List α) :
    (list = [] → lastNow name list = .err) ∧
    (list ≠ [] → ∃ c, lastNow name list = .ok c ∧ c.list = list ∧ ∀ k, FindsLast name list k (c.find k)) := by
  cases list with
  | nil => simp [lastNow]
  | cons a l => exact ⟨by simp, fun _ => ⟨_, rfl, rfl, fun k => goFind_last _ k⟩⟩

example : ∃ c, groupsNow [⟨lit "g", [lit "1"]⟩, ⟨lit "g", [lit "2"]⟩] = .ok c ∧ c.find (lit "g") = .ok ⟨lit "g", [lit "2"]⟩ :=
  ⟨_, rfl, by decide⟩

/-- C38: the same for the discoveries of a result, for the groups and the patterns, and for the dependencies of a path. -/
theorem C38_last_wins (ds : List Discovery) (gs : List Group) (ps : List Pattern) (es : List Element) (k : Str) :
    FindsLast (fun d : Discovery => d.container.name) ds k (findDiscovery ds k) ∧
    FindsLast Group.name gs k (findGroup gs k) ∧ FindsLast Pattern.name ps k (findPattern ps k) ∧
    FindsLast Element.name es k (fetch es k) := by
  refine ⟨?_, ?_, ?_, ?_⟩
  · have h := find_reverse (name := fun d : Discovery => d.container.name) ds k
    unfold findDiscovery
    cases hf : List.find? (fun d : Discovery => decide (d.container.name = k)) ds.reverse <;> rw [hf] at h <;> exact h
  · have h := find_reverse (name := Group.name) gs k
    unfold findGroup
    cases hf : List.find? (fun d : Group => decide (d.name = k)) gs.reverse <;> rw [hf] at h <;> exact h
  · have h := find_reverse (name := Pattern.name) ps k
    unfold findPattern
    cases hf : List.find? (fun d : Pattern => decide (d.name = k)) ps.reverse <;> rw [hf] at h <;> exact h
  · have h := find_reverse (name := Element.name) es k
    unfold fetch
    cases hf : List.find? (fun d : Element => decide (d.name = k)) es.reverse <;> rw [hf] at h <;> exact h

example : findDiscovery [⟨0, lit "1", .group ⟨lit "g", [lit "1"]⟩⟩, ⟨1, lit "2", .group ⟨lit "g", [lit "2"]⟩⟩] (lit "g") =
    .ok ⟨1, lit "2", .group ⟨lit "g", [lit "2"]⟩⟩ := by decide

/-- C38: links are found by the local token, and by the pair of include and referenced token; the last one wins. -/
theorem C38_links (list : List Link) :
    (list = [] → linksNow list = .err) ∧
    (list ≠ [] → ∃ c, linksNow list = .ok c ∧ c.list = list ∧
      (∀ k, FindsLast Link.localToken list k (c.fetchByLocalToken k)) ∧
      (∀ i k, FindsLast Link.refToken (list.filter (fun x => x.includeName = i)) k (c.fetchByReferenceToken i k))) := by
  cases list with
  | nil => simp [linksNow]
  | cons a l =>
    refine ⟨by simp, fun _ => ⟨_, rfl, rfl, fun k => goFind_last _ k, ?_⟩⟩
    intro i k
    simp only [Links.fetchByReferenceToken]
    rcases refLoop_spec (a :: l) GoMap.empty i k with ⟨b, h1, h2⟩ | ⟨h1, h2⟩
    · left
      refine ⟨b, ?_, h2⟩
      cases hr : refLoop (a :: l) GoMap.empty i with
      | none => simp [hr] at h1
      | some inner =>
        simp only [hr, Option.bind_some] at h1
        simp [GoMap.find, h1]
    · right
      refine ⟨?_, by intro x hx; simp only [List.mem_filter, decide_eq_true_eq] at hx; exact h2 x hx.1 hx.2⟩
      cases hr : refLoop (a :: l) GoMap.empty i with
      | none => simp
      | some inner =>
        simp only [hr, Option.bind_some, GoMap.empty, Option.bind_none] at h1
        simp [GoMap.find, h1]

example : ∃ c, linksNow [⟨lit "inc", lit "a", lit "x"⟩, ⟨lit "inc", lit "b", lit "x"⟩, ⟨lit "other", lit "c", lit "x"⟩] = .ok c ∧
    c.fetchByReferenceToken (lit "inc") (lit "x") = .ok ⟨lit "inc", lit "b", lit "x"⟩ ∧
    c.fetchByLocalToken (lit "a") = .ok ⟨lit "inc", lit "a", lit "x"⟩ := ⟨_, rfl, by decide, by decide⟩

/-! ## C65: the builders of the parts -/

/-- C65: groups, series and patterns need a name and at least one entry, and keep both. -/
theorem C65_pattern_builders (name : Str) :
    (∀ list g, groupNow name list = .ok g ↔ name ≠ [] ∧ g.list ≠ [] ∧ list = some g.list ∧ g.name = name) ∧
    (∀ list s, serieNow name list = .ok s ↔ name ≠ [] ∧ s.groups ≠ [] ∧ list = some s.groups ∧ s.name = name) ∧
    (∀ list p, patternNow name list = .ok p ↔ name ≠ [] ∧ p.choices ≠ [] ∧ list = some p.choices ∧ p.name = name) := by
  refine ⟨?_, ?_, ?_⟩
  · rintro list ⟨n, l⟩
    unfold groupNow
    by_cases hn : name = []
    · simp [hn]
    · rcases list with _ | (_ | ⟨a, l'⟩) <;> simp [hn] <;> aesop
  · rintro list ⟨n, l⟩
    unfold serieNow
    by_cases hn : name = []
    · simp [hn]
    · rcases list with _ | (_ | ⟨a, l'⟩) <;> simp [hn] <;> aesop
  · rintro list ⟨n, l⟩
    unfold patternNow
    by_cases hn : name = []
    · simp [hn]
    · rcases list with _ | (_ | ⟨a, l'⟩) <;> simp [hn] <;> aesop

/-- C65: a rule needs a name, a content and both codes, and keeps them. -/
theorem C65_rule_builder (name code : Str) (content : Option RuleContent) (elementCode : Str) (r : Rule) :
    ruleNow name code content elementCode = .ok r ↔
      (name ≠ [] ∧ code ≠ [] ∧ elementCode ≠ [] ∧ content = some r.content ∧ r.name = name ∧ r.code = code ∧
        r.elementCode = elementCode) := by
  obtain ⟨n, c, k, e⟩ := r
  unfold ruleNow
  cases content with
  | none => simp
  | some x =>
    by_cases h1 : elementCode = [] <;> by_cases h2 : name = [] <;> by_cases h3 : code = [] <;> simp [h1, h2, h3]
    aesop

/-- C65: of the flags of a cardinality builder the strongest wins: optional, mandatory, non-zero multiple, zero multiple; the
specific cardinality is taken when no flag is set, and without anything an error is returned. -/
theorem C65_cardinality_builder (b : Builder) :
    (b.isOptional = true → b.now = .ok .optional) ∧
    (b.isOptional = false → b.isMandatory = true → b.now = .ok .mandatory) ∧
    (b.isOptional = false → b.isMandatory = false → b.isNonZeroMultiple = true → b.now = .ok .nonZeroMultiple) ∧
    (b.isOptional = false → b.isMandatory = false → b.isNonZeroMultiple = false → b.isZeroMultiple = true →
      b.now = .ok .zeroMultiple) ∧
    (b.isOptional = false → b.isMandatory = false → b.isNonZeroMultiple = false → b.isZeroMultiple = false →
      (∀ s, b.specific = some s → b.now = .ok (.specific s)) ∧ (b.specific = none → b.now = .err)) := by
  obtain ⟨o, m, n, z, s⟩ := b
  cases o <;> cases m <;> cases n <;> cases z <;> cases s <;> simp [Builder.now]

example : Builder.now { isMandatory := true, isZeroMultiple := true } = .ok .mandatory ∧ Builder.now {} = .err := by decide

/-- C65: a specific cardinality is an amount, which must not be zero, or else a range, which is not checked. -/
theorem C65_specific_builder (amount : Option UInt64) (rnge : Option Range) (s : Specific) :
    specificNow amount rnge = .ok s ↔
      (∃ n, amount = some n ∧ n ≠ 0 ∧ s = .amount n) ∨ (amount = none ∧ ∃ r, rnge = some r ∧ s = .range r) := by
  have h0 : ∀ m : UInt64, m ≤ 0 ↔ m = 0 := by
    intro m
    constructor
    · intro h; exact UInt64.le_antisymm h (UInt64.zero_le)
    · rintro rfl; exact UInt64.le_refl _
  cases amount with
  | none => cases rnge <;> simp [specificNow, eq_comm]
  | some n =>
    by_cases hn : n = 0
    · simp [specificNow, hn]
    · simp [specificNow, h0, hn, eq_comm]

/-- What the builders of the grammar enforce: names, lines and contents are not empty. -/
def GSpecBuilt (s : GSpec) : Prop := match s.content with
  | .token n => n ≠ []
  | .rule _ => True
def GElementBuilt (e : GElement) : Prop := e.code ≠ [] ∧ match e.content with
  | .token n specs => n ≠ [] ∧ ∀ s ∈ specs, GSpecBuilt s
  | .rule _ => True
def GLineBuilt (l : GLine) : Prop := l ≠ [] ∧ ∀ e, .element e ∈ l → GElementBuilt e
def GTokenBuilt (t : GToken) : Prop := t.name ≠ [] ∧ t.must ≠ [] ∧ (∀ l ∈ t.must, GLineBuilt l) ∧
  ∀ ls, t.not = some ls → ls ≠ [] ∧ ∀ l ∈ ls, GLineBuilt l

/-- C65: whatever the builders of the grammar return has non-empty names, lines and codes, all the way down, given that its
parts have been built by the builders. -/
theorem C65_grammar_builders :
    (∀ n r s, gspecContentNow n r = .ok s → ∀ k, GSpecBuilt ⟨s, k⟩) ∧
    (∀ n sp c, gtokenRefNow n sp = .ok c → (∀ l, sp = some l → ∀ s ∈ l, GSpecBuilt s) →
      ∀ code card e, gelementNow (some c) code card = .ok e → GElementBuilt e) ∧
    (∀ r code card e, gelementNow (some (.rule r)) code card = .ok e → GElementBuilt e) ∧
    (∀ l l', gnonEmptyNow l = .ok l' → (∀ e, GInstr.element e ∈ l → GElementBuilt e) → GLineBuilt l') ∧
    (∀ name must not tests t m, gnonEmptyNow m = .ok must → (∀ l ∈ m, GLineBuilt l) →
      (∀ n, not = some n → ∃ n', gnonEmptyNow n' = .ok n ∧ ∀ l ∈ n', GLineBuilt l) →
      gtokenNow name (some must) not tests = .ok t → GTokenBuilt t) := by
  refine ⟨?_, ?_, ?_, ?_, ?_⟩
  · intro n r s h k
    unfold gspecContentNow at h
    cases r with
    | some r => simp at h; subst h; trivial
    | none =>
      by_cases hn : n = [] <;> simp [hn] at h
      subst h; exact hn
  · intro n sp c h hs code card e he
    have hn : n ≠ [] := by rintro rfl; simp [gtokenRefNow] at h
    have hc : ∃ l, c = .token n l ∧ ∀ s ∈ l, GSpecBuilt s := by
      rcases sp with _ | (_ | ⟨a, l⟩) <;> simp [gtokenRefNow, hn] at h
      · exact ⟨[], h.symm, by simp⟩
      · exact ⟨a :: l, h.symm, hs _ rfl⟩
    obtain ⟨l, rfl, hl⟩ := hc
    unfold gelementNow at he
    by_cases hcode : code = [] <;> simp [hcode] at he
    subst he
    exact ⟨hcode, hn, hl⟩
  · intro r code card e he
    unfold gelementNow at he
    by_cases hcode : code = [] <;> simp [hcode] at he
    subst he
    exact ⟨hcode, trivial⟩
  · intro l l' h hl
    unfold gnonEmptyNow at h
    by_cases h0 : l = [] <;> simp [h0] at h
    subst h
    exact ⟨h0, hl⟩
  · intro name must not tests t m hm hl hnot h
    have hm' : must = m ∧ m ≠ [] := by
      unfold gnonEmptyNow at hm
      by_cases h0 : m = [] <;> simp [h0] at hm
      exact ⟨hm.symm, h0⟩
    obtain ⟨rfl, h0⟩ := hm'
    unfold gtokenNow at h
    by_cases hn : name = [] <;> simp [hn] at h
    subst h
    refine ⟨hn, h0, hl, ?_⟩
    intro ls hls
    obtain ⟨n', h1, h2⟩ := hnot ls hls
    unfold gnonEmptyNow at h1
    by_cases h3 : n' = [] <;> simp [h3] at h1
    subst h1
    exact ⟨h3, h2⟩

example : ∃ t, gtokenNow (lit "t") (some [[.element ⟨.token (lit "u") [], lit "u", none⟩]]) none none = .ok t ∧ GTokenBuilt t := by
  refine ⟨_, rfl, by decide, by simp, ?_, by simp⟩
  intro l hl
  simp at hl; subst hl
  refine ⟨by simp, ?_⟩
  intro e he
  simp at he; subst he
  exact ⟨by decide, by decide, by simp⟩

/-- C65: the builders of the parts of a grammar succeed exactly with these parts; the result has exactly the given parts. -/
theorem C65_grammar_builders_iff :
    (∀ n r s, gspecContentNow n r = .ok s ↔ (∃ x, r = some x ∧ s = .rule x) ∨ (r = none ∧ n ≠ [] ∧ s = .token n)) ∧
    (∀ c k s, gspecNow c k = .ok s ↔ c = some s.content ∧ k = some s.card) ∧
    (∀ n sp c, gtokenRefNow n sp = .ok c ↔ n ≠ [] ∧ ((sp = none ∧ c = .token n []) ∨ ∃ l, sp = some l ∧ l ≠ [] ∧ c = .token n l)) ∧
    (∀ c code card e, gelementNow c code card = .ok e ↔ c = some e.content ∧ code ≠ [] ∧ e.code = code ∧ e.card = card) ∧
    (∀ b e i, ginstrNow b e = .ok i ↔ (∃ x, e = some x ∧ i = .element x) ∨ (e = none ∧ b = true ∧ i = .channelSwitch)) ∧
    (∀ (l l' : List GInstr), gnonEmptyNow l = .ok l' ↔ l ≠ [] ∧ l' = l) ∧
    (∀ (l l' : List GLine), gnonEmptyNow l = .ok l' ↔ l ≠ [] ∧ l' = l) ∧
    (∀ (l l' : List Str), gnonEmptyNow l = .ok l' ↔ l ≠ [] ∧ l' = l) ∧
    (∀ name must not tests t, gtokenNow name must not tests = .ok t ↔
      name ≠ [] ∧ must = some t.must ∧ t.name = name ∧ t.not = not ∧ t.tests = tests) := by
  have ne : ∀ {α : Type} (l l' : List α), gnonEmptyNow l = .ok l' ↔ l ≠ [] ∧ l' = l := by
    intro α l l'
    unfold gnonEmptyNow
    by_cases h : l = [] <;> simp [h, eq_comm]
  refine ⟨?_, ?_, ?_, ?_, ?_, ne, ne, ne, ?_⟩
  · intro n r s
    unfold gspecContentNow
    cases r with
    | some r => simp [eq_comm]
    | none => by_cases h : n = [] <;> simp [h, eq_comm]
  · intro c k s
    unfold gspecNow
    cases c <;> cases k <;> simp
    · constructor
      · rintro rfl; simp
      · rintro ⟨rfl, rfl⟩; rfl
  · intro n sp c
    unfold gtokenRefNow
    by_cases h : n = []
    · simp [h]
    · rcases sp with _ | (_ | ⟨a, l⟩) <;> simp [h, eq_comm]
  · intro c code card e
    unfold gelementNow
    cases c with
    | none => simp
    | some c =>
      by_cases h : code = []
      · simp [h]
      · simp [h]
        constructor
        · rintro rfl; simp
        · rintro ⟨rfl, rfl, rfl⟩; rfl
  · intro b e i
    unfold ginstrNow
    cases e with
    | some e => simp [eq_comm]
    | none => cases b <;> simp [eq_comm]
  · intro name must not tests t
    unfold gtokenNow
    cases must with
    | none => simp
    | some m =>
      by_cases h : name = []
      · simp [h]
      · simp [h]
        constructor
        · rintro rfl; simp
        · rintro ⟨rfl, rfl, rfl, rfl⟩; rfl

end Verif.Lexer
