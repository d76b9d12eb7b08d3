import Verif.Spec.LexerAnswers
import Verif.Lemmas.LexerSafe
import Verif.Lemmas.LexerTotal4

/-! The matcher, the mistakes and the trees: no error and no panic for grammars which are made as they should be. -/

namespace Verif.Lexer
open Verif.Patterns Verif.Cardinality

theorem RuleMade.wf {r : Rule} (h : RuleMade r) : RuleWF r := by
  unfold RuleWF
  have := h.content
  split at this <;> simp_all

/-- Neither an error nor a panic, and the result has the property. -/
def M.Total {α} (x : M α) (Q : α → Prop) : Prop := ∀ s r s', x s = some (r, s') → ∃ a, r = .ok a ∧ Q a

namespace M.Total

theorem bind {α β} {x : M α} {f : α → M β} {P : α → Prop} {Q : β → Prop} (hx : M.Total x P) (hf : ∀ a, P a → M.Total (f a) Q) : M.Total (x >>= f) Q := by
  intro s r s' h
  rw [M.bind_def] at h
  split at h
  · simp at h
  · rename_i a s1 h1
    obtain ⟨b, h2, h3⟩ := hx _ _ _ h1
    cases h2
    exact hf a h3 _ _ _ h
  · rename_i s1 h1
    obtain ⟨b, h2, h3⟩ := hx _ _ _ h1
    cases h2
  · rename_i s1 h1
    obtain ⟨b, h2, h3⟩ := hx _ _ _ h1
    cases h2

theorem pure {α} {a : α} {Q : α → Prop} (h : Q a) : M.Total (pure a : M α) Q := by
  intro s r s' hr
  simp at hr
  exact ⟨a, hr.1.symm, h⟩

theorem lift {α} {o : Out α} {Q : α → Prop} (h : ∃ a, o = .ok a ∧ Q a) : M.Total (M.lift o) Q := by
  intro s r s' hr
  simp at hr
  rw [← hr.1]
  exact h

theorem outOfFuel {α} {Q : α → Prop} : M.Total (M.outOfFuel : M α) Q := by
  intro s r s' h
  simp at h

theorem get : M.Total M.get (fun _ => True) := by
  intro s r s' hr
  simp at hr
  exact ⟨s, hr.1.symm, trivial⟩

theorem set {s0 : St} : M.Total (M.set s0) (fun _ => True) := by
  intro s r s' hr
  simp at hr
  exact ⟨(), hr.1.symm, trivial⟩

theorem mono {α} {x : M α} {P Q : α → Prop} (hx : M.Total x P) (h : ∀ a, P a → Q a) : M.Total x Q := by
  intro s r s' hr
  obtain ⟨a, h1, h2⟩ := hx _ _ _ hr
  exact ⟨a, h1, h _ h2⟩

end M.Total

/-! ## Rules -/

/-- What the mistakes need of a result of a rule. -/
def ResFine (x : RuleResult) : Prop :=
  ∃ m ms i, x.results = some (m :: ms) ∧ m.index = .ok i ∧ i ≤ m.input.length ∧ ∀ y ∈ ms, y.index = .ok 0

/-- A result at the front. -/
def ResZero (x : RuleResult) : Prop := ∃ m ms, x.results = some (m :: ms) ∧ m.index = .ok 0

theorem toResult_zero {r : Rule} (hr : RuleMade r) {s : Str} {res : RuleResult} (h : toResult r s = .ok res) {m : Result} {ms : List Result}
    (hl : res.results = some (m :: ms)) (hp : res.content <+: s) : m.index = .ok 0 := by
  cases hc : r.content with
  | constant c =>
    have h0 : c ≠ [] := by have := hr.content; rw [hc] at this; exact this
    rcases C37_constant_rule r c hc h0 s with ⟨_, h'⟩ | ⟨a, b, x, hs, ho, h', hx, hi, _⟩
    · rw [h] at h'; cases h'; cases hl
    · rw [h] at h'; cases h'; cases hl
      rw [hi]
      by_cases ha : a = []
      · subst ha; rfl
      · exfalso
        apply ho
        have : c <+: s := by simpa [RuleResult.content, hx] using hp
        obtain ⟨t, ht⟩ := this
        have h1 : c <+: a ++ c.dropLast := by
          have e : c <+: (a ++ c.dropLast) ++ (c.drop (c.length - 1) ++ b) := by
            refine ⟨t, ?_⟩
            rw [ht, hs]
            have := List.dropLast_append_getLast h0
            have e2 : c.drop (c.length - 1) = [c.getLast h0] := by
              rw [List.drop_length_sub_one h0]
            rw [e2]
            conv_lhs => rw [← this]
            simp
          refine List.prefix_of_prefix_length_le e (List.prefix_append ..) ?_
          have := List.length_pos_iff.mpr h0
          have := List.length_pos_iff.mpr ha
          simp; omega
        exact h1.isInfix
  | pattern ps card =>
    have hw := hr.wf
    unfold RuleWF at hw
    rw [hc] at hw
    unfold toResult at h
    rw [hc] at h
    obtain ⟨new, rest, h1, h2, h3, _⟩ := resultLoop_spec ps hw card.delimiter.2 s.length [] s (le_refl _)
    simp only [h1, List.nil_append, Out.bind_ok] at h
    split at h
    · simp at h; subst h; cases hl
    · simp at h
      subst h
      simp at hl
      subst hl
      exact (h3 m (by simp)).1

theorem ruleLoop_total {rule : Rule} (hr : RuleMade rule) (card : Card) (cp : Bool) (len : Nat) (n : Nat) : ∀ rem acc,
    M.Total (ruleLoop rule card cp len n rem acc) (fun out => ∃ new, out = acc ++ new ∧ (∀ x ∈ new, ResFine x) ∧
      ((new.map RuleResult.content).flatten <+: rem → ∀ x ∈ new, ResZero x)) := by
  induction n with
  | zero => intro rem acc; exact .outOfFuel
  | succ n ih =>
    intro rem acc
    unfold ruleLoop
    cases hres : toResult rule rem with
    | panic => exact absurd hres (toResult_safe hr.wf rem).1
    | err => exact .pure ⟨[], by simp⟩
    | ok res =>
      dsimp only
      cases hrr : res.results with
      | none => exact .pure ⟨[], by simp⟩
      | some l =>
        obtain ⟨m, ms, i, rfl, h1, h2, h3⟩ := toResult_index hres hrr
        have one : ∃ new, acc ++ [res] = acc ++ new ∧ (∀ x ∈ new, ResFine x) ∧
            ((new.map RuleResult.content).flatten <+: rem → ∀ x ∈ new, ResZero x) := by
          refine ⟨[res], rfl, ?_, ?_⟩
          · intro x hx
            simp at hx
            subst hx
            exact ⟨m, ms, i, hrr, h1, h2, h3⟩
          · intro hp x hx
            simp at hx
            subst hx
            exact ⟨m, ms, hrr, toResult_zero hr hres hrr (by simpa using hp)⟩
        dsimp only
        refine M.Total.bind (.lift (Q := fun _ => True) ⟨i, h1, trivial⟩) ?_
        intro j _
        refine M.Total.bind (P := fun _ => True) ?_ ?_
        · intro s r s' hr
          unfold notePrefix at hr
          simp at hr
          exact ⟨(), hr.1.symm, trivial⟩
        · intro _ _
          split
          · exact .pure one
          · split
            · exact .pure one
            · split
              · rename_i hlen
                have := (toResult_safe hr.wf rem).2 _ hres
                omega
              · split
                · exact .pure one
                · refine (ih _ _).mono ?_
                  rintro out ⟨new, rfl, k1, k2⟩
                  refine ⟨res :: new, by simp, ?_, ?_⟩
                  · intro x hx
                    rcases List.mem_cons.mp hx with rfl | hx
                    · exact ⟨m, ms, i, hrr, h1, h2, h3⟩
                    · exact k1 x hx
                  · intro hp x hx
                    simp only [List.map_cons, List.flatten_cons] at hp
                    obtain ⟨t, ht⟩ := hp
                    rcases List.mem_cons.mp hx with rfl | hx
                    · exact ⟨m, ms, hrr, toResult_zero hr hres hrr ⟨(new.map RuleResult.content).flatten ++ t, by rw [← ht]; simp⟩⟩
                    · refine k2 ⟨t, ?_⟩ x hx
                      rw [← ht]; simp

/-- The mistakes answer. -/
def MistakeOk (x : List Str → Str → Str → Out (Option Mistake × Str)) : Prop := ∀ ps nm cur, nm ≠ [] → ∃ y, x ps nm cur = .ok y

theorem failWith_token {nm : Str} (h : nm ≠ []) (ps : List Str) (cur : Str) (x : MistakeContent) : ∃ y, failWith (.token nm) ps cur x = .ok y := by
  cases nm with
  | nil => exact absurd rfl h
  | cons a as => exact ⟨_, rfl⟩

theorem failWith_rule {nm : Str} (h : nm ≠ []) (ps : List Str) (cur : Str) (x : MistakeContent) : ∃ y, failWith (.rule nm) ps cur x = .ok y := by
  cases nm with
  | nil => exact absurd rfl h
  | cons a as => exact ⟨_, rfl⟩

theorem patternMistake_ok {r : Result} {i : Nat} (h : r.index = .ok i) (hi : i ≤ r.input.length) {nm : Str} (hn : nm ≠ []) (ps : List Str) (cur : Str) :
    ∃ y, patternMistake ps nm false r cur = .ok y := by
  unfold patternMistake
  simp only [h, Out.bind_ok]
  split
  · rename_i h0
    simp at h0
    split
    · omega
    · split
      · rename_i ht
        have := congrArg List.length ht
        rw [List.length_take] at this
        simp only [List.length_nil] at this
        omega
      · exact failWith_rule hn _ _ _
  · exact ⟨_, rfl⟩

theorem patternsMistake_ok {nm : Str} (hn : nm ≠ []) (ps : List Str) (l : List Result) (h : ∀ r ∈ l, ∃ i, r.index = .ok i ∧ i ≤ r.input.length) : ∀ cur,
    ∃ y, patternsMistake ps nm false l cur = .ok y := by
  induction l with
  | nil => intro cur; exact ⟨_, rfl⟩
  | cons r rs ih =>
    intro cur
    obtain ⟨i, h1, h2⟩ := h r (by simp)
    obtain ⟨⟨o, c'⟩, hy⟩ := patternMistake_ok h1 h2 hn ps cur
    simp only [patternsMistake, hy, Out.bind_ok]
    cases o with
    | some m => exact ⟨_, rfl⟩
    | none => exact ih (fun r hr => h r (by simp [hr])) _

theorem ruleMistake_ok {r : RuleMatch} (hn : r.rule.name ≠ []) (h : ∀ x ∈ r.results, ResFine x) (ps : List Str) (cur : Str) :
    ∃ y, ruleMistake ps false r cur = .ok y := by
  unfold ruleMistake
  split
  · exact failWith_rule hn _ _ _
  · cases hr : r.results with
    | nil => exact ⟨_, rfl⟩
    | cons x xs =>
      obtain ⟨m, ms, i, h1, h2, h3, h4⟩ := h x (by simp [hr])
      simp only [h1]
      refine patternsMistake_ok hn ps _ ?_ cur
      intro y hy
      rcases List.mem_cons.mp hy with rfl | hy
      · exact ⟨i, h2, h3⟩
      · exact ⟨0, h4 y hy, by omega⟩

theorem resultsLoop_zero (rs : List RuleResult) (h : ∀ x ∈ rs, ResZero x) : ∀ acc, ∃ ds, resultsLoop rs acc 0 = .ok (ds, 0) := by
  induction rs with
  | nil => intro acc; exact ⟨_, rfl⟩
  | cons x xs ih =>
    intro acc
    obtain ⟨m, ms, h1, h2⟩ := h x (by simp)
    simp only [resultsLoop, h1, h2, Out.bind_ok]
    exact ih (fun y hy => h y (by simp [hy])) _

theorem aRuleMatch_ok {r : RuleMatch} (hr : RuleMade r.rule) (h : ∀ x ∈ r.results, ResZero x) : ∃ y, aRuleMatch r = .ok y := by
  have : ∃ y, aRuleResult r = .ok y := by
    unfold aRuleResult
    cases hrs : r.results with
    | nil => exact ⟨_, rfl⟩
    | cons x xs =>
      obtain ⟨ds, hd⟩ := resultsLoop_zero (x :: xs) (by rw [← hrs]; exact h) []
      simp only [hd, Out.bind_ok]
      split
      · exact ⟨_, rfl⟩
      · simp only [gt_iff_lt, Nat.not_lt_zero, if_false, hr.code]
        exact ⟨_, rfl⟩
  obtain ⟨y, hy⟩ := this
  unfold aRuleMatch
  rw [hy]
  simp only [Out.bind_ok]
  cases y with
  | none => exact ⟨_, rfl⟩
  | some y => simp only [hr.name, if_false]; exact ⟨_, rfl⟩

/-! ## Elements -/

/-! All the names which are mentioned have the property `N`, and everything is made as it should be. -/
mutual
inductive Fine (N : Str → Prop) : Element → Prop
  | mk {name : Str} {must : List Line} : name ≠ [] → (∃ l ls c, must = l :: ls ∧ Instruction.container c ∈ l) →
      (∀ line ∈ must, ∀ c, Instruction.container c ∈ line → FineC N c) → Fine N (.mk name must [])
inductive FineC (N : Str → Prop) : PContainer → Prop
  | token {e : Element} {sp : List Spec} {card : Card} : Fine N e → N e.name → (∀ s ∈ sp, s.containerName ≠ []) → FineC N (.token e sp card)
  | rule {r : Rule} {card : Card} : RuleMade r → FineC N (.rule r card)
  | recursive {name : Str} {sp : List Spec} {card : Card} : N name → (∀ s ∈ sp, s.containerName ≠ []) → FineC N (.recursive name sp card)
end

theorem Fine.name {N : Str → Prop} {e : Element} (h : Fine N e) : e.name ≠ [] := by
  cases h with
  | mk h _ _ => exact h

theorem Fine.lines {N : Str → Prop} {e : Element} (h : Fine N e) : ∀ line ∈ e.must, ∀ c, Instruction.container c ∈ line → FineC N c := by
  cases h with
  | mk _ _ h => exact h

theorem Fine.noNot {N : Str → Prop} {e : Element} (h : Fine N e) : e.not = [] := by
  cases h with
  | mk _ _ h => rfl

/-- The names can be found. -/
def FineDeps (N : Str → Prop) (deps : List Element) : Prop := ∀ name, N name → ∃ e, fetch deps name = .ok e ∧ Fine N e

theorem nextFromRule_ok {r : Rule} (h : RuleMade r) : ∃ x, nextFromRule r = .ok x := by
  unfold nextFromRule
  have := h.content
  cases hc : r.content with
  | constant s => rw [hc] at this; simp only [this, if_false]; exact ⟨_, rfl⟩
  | pattern ps k =>
    rw [hc] at this
    cases ps with
    | nil => exact absurd rfl this.1
    | cons p ps => exact ⟨_, rfl⟩

theorem fetchFirstRule_total {N : Str → Prop} {deps : List Element} (hd : FineDeps N deps) (n : Nat) : ∀ name, N name →
    M.Total (fetchFirstRule deps n name) RuleMade := by
  induction n with
  | zero => intro name _; exact .outOfFuel
  | succ n ih =>
    intro name hN
    simp only [fetchFirstRule]
    refine M.Total.bind (.lift (Q := Fine N) (hd name hN)) ?_
    intro e he
    cases he with
    | @mk nm must h0 h1 h2 =>
      obtain ⟨l, ls, c, rfl, hc⟩ := h1
      obtain ⟨c', hc'⟩ := firstContainer_some hc
      have := h2 l (by simp) c' (firstContainer_mem hc')
      simp only [Element.must, hc']
      cases this with
      | token _ h _ => exact ih _ h
      | rule h => exact .pure h
      | recursive h => exact ih _ h

theorem buildNext_total {N : Str → Prop} {deps : List Element} (hd : FineDeps N deps) (n : Nat) {c : PContainer} (hc : FineC N c) :
    M.Total (buildNextElement deps n c) (fun _ => True) := by
  have next : ∀ r, RuleMade r → M.Total (M.lift (nextFromRule r)) (fun _ => True) := by
    intro r hr
    obtain ⟨x, hx⟩ := nextFromRule_ok hr
    exact .lift ⟨x, hx, trivial⟩
  cases hc with
  | rule h => exact next _ h
  | token _ h => exact M.Total.bind (fetchFirstRule_total hd n _ h) next
  | recursive h => exact M.Total.bind (fetchFirstRule_total hd n _ h) next

/-! ## What the matcher gives -/

/-- The mistakes answer on a block. -/
def BlockMatch.Mi (b : BlockMatch) : Prop := ∀ ps nm cur, nm ≠ [] → ∃ y, b.mistake false ps nm cur = .ok y
def Match.Mi (m : Match) : Prop := ∀ ps nm cur, nm ≠ [] → ∃ y, m.mistake false ps nm cur = .ok y
/-- There is a tree of the block. -/
def BlockMatch.Tr (b : BlockMatch) : Prop := ∃ a, b.toA = .ok a
def Match.Tr (m : Match) : Prop := ∃ a, m.toA = .ok a

structure LineFine (l : LineMatch) : Prop where
  mi : ∀ b ∈ l.list, b.Mi
  tr : blocksValid l.list = true → ∀ b ∈ l.list, b.Tr

structure TokFine (t : Token) : Prop where
  name : t.name ≠ []
  line : ∀ c, t.content = some c → c.not = none ∧ LineFine c.must

theorem LineFine.mistake {l : List BlockMatch} (h : ∀ b ∈ l, b.Mi) (ps : List Str) {nm : Str} (hn : nm ≠ []) : ∀ cur,
    ∃ y, blocksMistake false ps nm l cur = .ok y := by
  induction l with
  | nil => intro cur; exact ⟨_, rfl⟩
  | cons b bs ih =>
    intro cur
    obtain ⟨⟨o, c'⟩, hy⟩ := h b (by simp) ps nm cur hn
    simp only [blocksMistake, hy, Out.bind_ok]
    cases o with
    | some m => exact ⟨_, rfl⟩
    | none => exact ih (fun b hb => h b (by simp [hb])) _

theorem LineFine.tree {l : List BlockMatch} (h : ∀ b ∈ l, b.Tr) : ∃ a, blocksToA l = .ok a := by
  induction l with
  | nil => exact ⟨_, rfl⟩
  | cons b bs ih =>
    obtain ⟨x, hx⟩ := h b (by simp)
    obtain ⟨y, hy⟩ := ih (fun b hb => h b (by simp [hb]))
    simp only [blocksToA, hx, hy, Out.bind_ok]
    exact ⟨_, rfl⟩

theorem TokFine.mistake {t : Token} (h : TokFine t) (ps : List Str) (cur : Str) : ∃ y, t.mistake false ps cur = .ok y := by
  match t, h with
  | .mk name none, h =>
    have := h.name
    cases name with
    | nil => exact absurd rfl this
    | cons a as => exact ⟨_, rfl⟩
  | .mk name (some (.mk (.mk i l) n)), h =>
    obtain ⟨h1, h2⟩ := h.line _ rfl
    simp only [TokenContent.not] at h1
    subst h1
    simp only [Token.mistake, TokenContent.mistake, LineMatch.mistake]
    exact LineFine.mistake h2.mi ps h.name []

theorem TokFine.tree {t : Token} (h : TokFine t) (hv : t.isValid = true) : ∃ a, t.toA = .ok a := by
  match t, h with
  | .mk name none, h => simp [Token.isValid] at hv
  | .mk name (some (.mk (.mk i l) n)), h =>
    obtain ⟨h1, h2⟩ := h.line _ rfl
    simp only [TokenContent.not] at h1
    subst h1
    simp only [Token.isValid, TokenContent.isValid, LineMatch.isValid] at hv
    obtain ⟨a, ha⟩ := LineFine.tree (h2.tr hv)
    simp only [TokenContent.must, LineMatch.list] at ha
    have := h.name
    simp only [Token.name] at this
    simp only [Token.toA, ha, Out.bind_ok, this, if_false]
    exact ⟨_, rfl⟩

theorem tokensMistake_ok {l : List Token} (h : ∀ t ∈ l, TokFine t) (ps : List Str) : ∀ cur, ∃ y, tokensMistake false ps l cur = .ok y := by
  induction l with
  | nil => intro cur; exact ⟨_, rfl⟩
  | cons t ts ih =>
    intro cur
    obtain ⟨⟨o, c'⟩, hy⟩ := (h t (by simp)).mistake ps cur
    simp only [tokensMistake, hy, Out.bind_ok]
    cases o with
    | some m => exact ⟨_, rfl⟩
    | none => exact ih (fun b hb => h b (by simp [hb])) _

theorem tokensToA_ok {l : List Token} (h : ∀ t ∈ l, TokFine t ∧ t.isValid = true) : ∃ y, tokensToA l = .ok y := by
  induction l with
  | nil => exact ⟨_, rfl⟩
  | cons t ts ih =>
    obtain ⟨x, hx⟩ := (h t (by simp)).1.tree (h t (by simp)).2
    obtain ⟨y, hy⟩ := ih (fun b hb => h b (by simp [hb]))
    simp only [tokensToA, hx, hy, Out.bind_ok]
    exact ⟨_, rfl⟩

theorem specifiersMistake_ok {nm : Str} (hn : nm ≠ []) (ps : List Str) (list : List Token) (specs : List Spec) (h : ∀ s ∈ specs, s.containerName ≠ []) : ∀ cur,
    ∃ y, specifiersMistake ps nm list specs cur = .ok y := by
  induction specs with
  | nil => intro cur; exact ⟨_, rfl⟩
  | cons s ss ih =>
    intro cur
    simp only [specifiersMistake]
    split
    · exact ih (fun s hs => h s (by simp [hs])) _
    · rw [if_neg (h s (by simp))]
      exact failWith_token hn _ _ _

theorem tokenMatch_fine {name script : Str} {card : Card} {list : List Token} {specs : List Spec} (hname : name ≠ [])
    (h : ∀ t ∈ list, TokFine t ∧ t.isValid = true) (hs : ∀ s ∈ specs, s.containerName ≠ []) :
    (wrapToken (.mk name (.mk script card list) specs)).Mi ∧ (wrapToken (.mk name (.mk script card list) specs)).Tr := by
  unfold wrapToken
  split
  · exact ⟨fun ps nm cur _ => ⟨_, rfl⟩, ⟨_, rfl⟩⟩
  · refine ⟨?_, ?_⟩
    · intro ps nm cur hn
      have : ∃ y, (TokenResult.mk script card list).mistake false ps nm cur = .ok y := by
        cases list with
        | nil =>
          simp only [TokenResult.mistake]
          split
          · exact ⟨_, rfl⟩
          · exact failWith_token hn _ _ _
        | cons t ts =>
          simp only [TokenResult.mistake]
          split
          · exact failWith_token hn _ _ _
          · exact tokensMistake_ok (fun t ht => (h t ht).1) _ _
      obtain ⟨⟨o, c'⟩, hy⟩ := this
      simp only [Match.mistake, TokenMatch.mistake, hy, Out.bind_ok]
      cases o with
      | some m => exact ⟨_, rfl⟩
      | none => exact specifiersMistake_ok hn _ _ _ hs _
    · cases list with
      | nil => exact ⟨_, rfl⟩
      | cons t ts =>
        obtain ⟨x, hx⟩ := (h t (by simp)).1.tree (h t (by simp)).2
        obtain ⟨y, hy⟩ := tokensToA_ok (l := ts) (fun t ht => h t (by simp [ht]))
        simp only [Match.Tr, Match.toA, TokenMatch.toA, hx, hy, Out.bind_ok, hname, if_false]
        exact ⟨_, rfl⟩

/-! ## The matcher -/

theorem channelLoop_total {f : Path → M Token} {l : List Path} (h : ∀ p ∈ l, M.Total (f p) TokFine) :
    M.Total (channelLoop f l) (fun o => ∀ m, o = some m → LineFine m ∧ blocksValid m.list = true) := by
  induction l with
  | nil => exact .pure (by simp)
  | cons p ps ih =>
    simp only [channelLoop]
    refine M.Total.bind (h p (by simp)) ?_
    intro t ht
    split
    · exact ih (fun p hp => h p (by simp [hp]))
    · rename_i hv
      simp only [Bool.not_eq_true, Bool.not_eq_false'] at hv
      match t, ht with
      | .mk name none, ht => simp [Token.isValid] at hv
      | .mk name (some c), ht =>
        refine .pure ?_
        rintro m hm
        cases hm
        obtain ⟨h1, h2⟩ := ht.line c rfl
        refine ⟨h2, ?_⟩
        match c with
        | .mk (.mk i l) n =>
          simp only [TokenContent.not] at h1
          subst h1
          simpa [Token.isValid, TokenContent.isValid, LineMatch.isValid, TokenContent.must, LineMatch.list] using hv

/-- What is known about a block which was found in the text. -/
def BlockFine (script : Str) (b : BlockMatch) : Prop := b.Mi ∧ (b.isValid = true → b.discoveries <+: script → b.Tr)

theorem lineLoop_total {f : PContainer → Str → Bool → Bool → M (Option BlockMatch)} {line : List Instruction}
    (h : ∀ c, Instruction.container c ∈ line → ∀ rem ch nx, M.Total (f c rem ch nx) (fun o => ∀ b, o = some b → BlockFine rem b)) :
    ∀ ch nx rem acc, (∀ b ∈ acc, b.Mi ∧ b.Tr) →
    M.Total (lineLoop f line ch nx rem acc) (fun o => ∀ l, o = some l → LineFine (.mk 0 l)) := by
  have whole : ∀ acc : List BlockMatch, (∀ b ∈ acc, b.Mi ∧ b.Tr) → ∀ l, (if acc.isEmpty then none else some acc) = some l → LineFine (.mk 0 l) := by
    intro acc hacc l hl
    split at hl
    · cases hl
    · cases hl
      exact ⟨fun b hb => (hacc b hb).1, fun _ b hb => (hacc b hb).2⟩
  induction line with
  | nil =>
    intro ch nx rem acc hacc
    exact .pure (whole acc hacc)
  | cons i is ih =>
    intro ch nx rem acc hacc
    have ih' := ih (fun c hc => h c (by simp [hc]))
    cases i with
    | channelSwitch => exact ih' _ _ _ _ hacc
    | container c =>
      simp only [lineLoop]
      refine M.Total.bind (h c (by simp) rem ch nx) ?_
      intro o ho
      cases o with
      | none => exact .pure (whole acc hacc)
      | some b =>
        obtain ⟨h1, h2⟩ := ho b rfl
        dsimp only
        split
        · rename_i hv
          simp only [Bool.not_eq_true'] at hv
          refine .pure ?_
          intro l hl
          cases hl
          refine ⟨by intro b' hb; simp only [LineMatch.list, List.mem_singleton] at hb; subst hb; exact h1, ?_⟩
          simp [LineMatch.list, blocksValid, hv]
        · rename_i hv
          simp only [Bool.not_eq_true', Bool.not_eq_false] at hv
          split
          · exact .pure (by simp)
          · rename_i hp
            simp only [Bool.not_eq_true', Bool.not_eq_false, List.isPrefixOf_iff_prefix] at hp
            refine ih' _ _ _ _ ?_
            intro b' hb
            rcases List.mem_append.mp hb with hb | hb
            · exact hacc b' hb
            · simp at hb
              subst hb
              exact ⟨h1, h2 hv hp⟩

theorem bestLoop_total {f : Line → M (Option (List BlockMatch))} {lines : List Line}
    (h : ∀ l ∈ lines, M.Total (f l) (fun o => ∀ l, o = some l → LineFine (.mk 0 l))) :
    ∀ i (b : Best), (∀ m, b.valid = some m ∨ b.invalid = some m → LineFine m) →
    M.Total (bestLoop f lines i b) (fun b => ∀ m, b.result = some m → LineFine m) := by
  induction lines with
  | nil =>
    intro i b hb
    refine .pure ?_
    intro m hm
    unfold Best.result at hm
    split at hm
    · rename_i l hl
      cases hm
      exact hb _ (.inl hl)
    · exact hb _ (.inr hm)
  | cons l ls ih =>
    intro i b hb
    have ih' := ih (fun l hl => h l (by simp [hl]))
    simp only [bestLoop]
    refine M.Total.bind (h l (by simp)) ?_
    intro o ho
    cases o with
    | none => exact ih' _ _ hb
    | some m =>
      have hm := ho m rfl
      have hm' : LineFine (.mk i m) := ⟨hm.mi, hm.tr⟩
      refine ih' _ _ ?_
      unfold Best.step
      intro x hx
      split at hx
      · split at hx
        · rcases hx with hx | hx
          · exact hb _ (.inl hx)
          · cases hx; exact hm'
        · exact hb _ hx
      · dsimp only at hx
        split at hx
        · rcases hx with hx | hx
          · cases hx; exact hm'
          · exact hb _ (.inr hx)
        · exact hb _ hx

theorem tokenLoop_total {f : Str → M Token} (h : ∀ rem, M.Total (f rem) TokFine) (card : Card) (n : Nat) : ∀ rem acc,
    (∀ t ∈ acc, TokFine t ∧ t.isValid = true) → M.Total (tokenLoop f card n rem acc) (fun l => ∀ t ∈ l, TokFine t ∧ t.isValid = true) := by
  induction n with
  | zero => intro rem acc _; exact .outOfFuel
  | succ n ih =>
    intro rem acc hacc
    simp only [tokenLoop]
    refine M.Total.bind (h rem) ?_
    intro t ht
    split
    · exact .pure hacc
    · rename_i hv
      simp only [Bool.not_eq_true', Bool.not_eq_false] at hv
      have hacc' : ∀ u ∈ acc ++ [t], TokFine u ∧ u.isValid = true := by
        intro u hu
        rcases List.mem_append.mp hu with hu | hu
        · exact hacc u hu
        · simp at hu; subst hu; exact ⟨ht, hv⟩
      match t, ht with
      | .mk name none, ht => simp [Token.isValid] at hv
      | .mk name (some c), ht =>
        simp only [Token.content]
        split
        · exact .pure hacc'
        · split
          · exact .pure hacc'
          · exact ih _ _ hacc'

theorem block_container {script : Str} {m : Match} (h1 : m.Mi) (h2 : m.isValid = true → m.discoveries <+: script → m.Tr) :
    BlockFine script (.mk none (.container m)) := by
  refine ⟨fun ps nm cur hn => h1 ps nm cur hn, ?_⟩
  intro hv hp
  simp only [BlockMatch.isValid, BlockContent.isValid, BlockMatch.discoveries, BlockContent.discoveries] at hv hp
  obtain ⟨a, ha⟩ := h2 hv hp
  simp only [BlockMatch.Tr, BlockMatch.toA, BlockContent.toA, ha, Out.bind_ok]
  exact ⟨_, rfl⟩

theorem block_channel {script : Str} {l : LineMatch} {b : BlockMatch} (hl : LineFine l) (hv : blocksValid l.list = true) (hp : l.discoveries <+: script)
    (hb : BlockFine (replaceFirst script l.discoveries) b) : BlockFine script (.mk (some l) (.block b)) := by
  refine ⟨fun ps nm cur hn => hb.1 ps nm _ hn, ?_⟩
  intro hv' hp'
  simp only [BlockMatch.isValid, BlockContent.isValid, BlockMatch.discoveries, BlockContent.discoveries] at hv' hp'
  rw [replaceFirst_prefix hp] at hb
  obtain ⟨t, ht⟩ := hp'
  obtain ⟨a, ha⟩ := hb.2 hv' ⟨t, by rw [← ht]; simp⟩
  match l with
  | .mk i bs =>
    obtain ⟨x, hx⟩ := LineFine.tree (hl.tr hv)
    simp only [LineMatch.list] at hx
    simp only [BlockMatch.Tr, BlockMatch.toA, BlockContent.toA, ha, hx, Out.bind_ok]
    exact ⟨_, rfl⟩

section
variable {env : Env} {N : Str → Prop} (hch : ∀ k, ∀ p ∈ env.channels k, Fine N p.element ∧ FineDeps N p.deps)
include hch

mutual
theorem elementToToken_total : ∀ (n : Nat) (e : Element) (deps : List Element) (script : Str) (ch : Bool), Fine N e → FineDeps N deps →
    M.Total (elementToToken env n e deps script ch) TokFine
  | 0, _, _, _, _, _, _ => .outOfFuel
  | n + 1, e, deps, script, ch, he, hd => by
    simp only [elementToToken]
    refine M.Total.bind (elementToTokenContent_total n e deps script ch he hd) ?_
    intro o ho
    simp only [he.name, if_false]
    exact .pure ⟨he.name, ho⟩
theorem elementToTokenContent_total : ∀ (n : Nat) (e : Element) (deps : List Element) (script : Str) (ch : Bool), Fine N e → FineDeps N deps →
    M.Total (elementToTokenContent env n e deps script ch) (fun o => ∀ c, o = some c → c.not = none ∧ LineFine c.must)
  | 0, _, _, _, _, _, _ => .outOfFuel
  | n + 1, e, deps, script, ch, he, hd => by
    simp only [elementToTokenContent]
    refine M.Total.bind (bestLineToMatches_total n e.must deps script ch he.lines hd) ?_
    intro o ho
    cases o with
    | none => exact .pure (by simp)
    | some m =>
      simp only [he.noNot, List.isEmpty_nil, if_true]
      refine .pure ?_
      intro c hc
      cases hc
      exact ⟨rfl, ho m rfl⟩
theorem bestLineToMatches_total : ∀ (n : Nat) (lines : List Line) (deps : List Element) (script : Str) (ch : Bool),
    (∀ line ∈ lines, ∀ c, Instruction.container c ∈ line → FineC N c) → FineDeps N deps →
    M.Total (bestLineToMatches env n lines deps script ch) (fun o => ∀ m, o = some m → LineFine m)
  | 0, _, _, _, _, _, _ => .outOfFuel
  | n + 1, lines, deps, script, ch, hl, hd => by
    simp only [bestLineToMatches]
    refine M.Total.bind (bestLoop_total (fun l h => lineToMatches_total n l deps script ch (hl l h) hd) 0 ⟨0, none, none⟩ (by simp)) ?_
    intro b hb
    exact .pure hb
theorem lineToMatches_total : ∀ (n : Nat) (line : Line) (deps : List Element) (script : Str) (ch : Bool),
    (∀ c, Instruction.container c ∈ line → FineC N c) → FineDeps N deps →
    M.Total (lineToMatches env n line deps script ch) (fun o => ∀ l, o = some l → LineFine (.mk 0 l))
  | 0, _, _, _, _, _, _ => .outOfFuel
  | n + 1, line, deps, script, ch, hl, hd => by
    simp only [lineToMatches]
    exact lineLoop_total (fun c hc rem ch nx => containerToBlockMatch_total n c deps rem ch nx (hl c hc) hd) _ _ _ _ (by simp)
theorem containerToBlockMatch_total : ∀ (n : Nat) (c : PContainer) (deps : List Element) (script : Str) (ch nx : Bool), FineC N c → FineDeps N deps →
    M.Total (containerToBlockMatch env n c deps script ch nx) (fun o => ∀ b, o = some b → BlockFine script b)
  | 0, _, _, _, _, _, _, _ => .outOfFuel
  | n + 1, c, deps, script, ch, nx, hc, hd => by
    simp only [containerToBlockMatch]
    split
    · have : ∃ k, c.cardinality = .ok k := by cases hc <;> exact ⟨_, rfl⟩
      obtain ⟨k, hk⟩ := this
      refine M.Total.bind (.lift (Q := fun _ => True) ⟨k, hk, trivial⟩) ?_
      intro k' _
      split
      · exact .pure (by simp)
      · refine M.Total.bind (buildNext_total hd n hc) ?_
        intro x _
        refine .pure ?_
        intro b hb
        cases hb
        refine ⟨fun ps nm cur hn => failWith_token hn _ _ _, by simp [BlockMatch.isValid, BlockContent.isValid]⟩
    · rename_i hs
      refine M.Total.bind (P := fun o => ∀ b, o = some b → BlockFine script b) ?_ ?_
      · split
        · exact findChannelBlockMatch_total n c deps script nx hc hd
        · exact .pure (by simp)
      · intro o ho
        cases o with
        | some b => exact .pure ho
        | none =>
          refine M.Total.bind (containerToMatch_total n c deps script nx hc hd hs) ?_
          intro m hm
          cases m with
          | none => exact .pure (by simp)
          | some m =>
            refine .pure ?_
            intro b hb
            cases hb
            exact block_container (hm m rfl).1 (hm m rfl).2
theorem findChannelBlockMatch_total : ∀ (n : Nat) (c : PContainer) (deps : List Element) (script : Str) (nx : Bool), FineC N c → FineDeps N deps →
    M.Total (findChannelBlockMatch env n c deps script nx) (fun o => ∀ b, o = some b → BlockFine script b)
  | 0, _, _, _, _, _, _ => .outOfFuel
  | n + 1, c, deps, script, nx, hc, hd => by
    simp only [findChannelBlockMatch]
    refine M.Total.bind .get ?_
    intro s _
    refine M.Total.bind .set ?_
    intro _ _
    refine M.Total.bind (channelLoop_total (fun p hp => elementToToken_total n p.element p.deps script false (hch _ p hp).1 (hch _ p hp).2)) ?_
    intro o ho
    cases o with
    | none => exact .pure (by simp)
    | some l =>
      obtain ⟨h1, h2⟩ := ho l rfl
      dsimp only
      split
      · exact .pure (by simp)
      · rename_i hp
        simp only [Bool.not_eq_true', Bool.not_eq_false, List.isPrefixOf_iff_prefix] at hp
        refine M.Total.bind (containerToBlockMatch_total n c deps _ nx nx hc hd) ?_
        intro o ho
        cases o with
        | none => exact .pure (by simp)
        | some b =>
          refine .pure ?_
          intro b' hb
          cases hb
          exact block_channel h1 h2 hp (ho b rfl)
theorem containerToMatch_total : ∀ (n : Nat) (c : PContainer) (deps : List Element) (script : Str) (ch : Bool), FineC N c → FineDeps N deps → script ≠ [] →
    M.Total (containerToMatch env n c deps script ch) (fun o => ∀ m, o = some m → m.Mi ∧ (m.isValid = true → m.discoveries <+: script → m.Tr))
  | 0, _, _, _, _, _, _, _ => by simp only [containerToMatch]; exact .outOfFuel
  | n + 1, .lines ls, deps, script, ch, hc, hd, hs => by cases hc
  | n + 1, .token e specs card, deps, script, ch, hc, hd, hs => by
    simp only [containerToMatch]
    have he : Fine N e ∧ ∀ s ∈ specs, s.containerName ≠ [] := by cases hc with | token h1 _ h2 => exact ⟨h1, h2⟩
    refine M.Total.bind (tokenToTokenMatch_total n e specs card deps script ch he.1 he.2 hd hs) ?_
    intro t ht
    refine .pure ?_
    intro m hm
    cases hm
    exact ⟨ht.1, fun _ _ => ht.2⟩
  | n + 1, .rule r card, deps, script, ch, hc, hd, hs => by
    simp only [containerToMatch, ruleToRuleMatch]
    have hr : RuleMade r := by cases hc with | rule h => exact h
    refine M.Total.bind (P := fun x => x.rule = r ∧ (∀ y ∈ x.results, ResFine y) ∧ (x.discoveries <+: script → ∀ y ∈ x.results, ResZero y)) ?_ ?_
    · refine M.Total.bind .get ?_
      intro s _
      refine M.Total.bind (ruleLoop_total hr card _ _ n script []) ?_
      rintro l ⟨new, rfl, h1, h2⟩
      refine M.Total.bind .get ?_
      intro s' _
      exact .pure ⟨rfl, by simpa using h1, by simpa [RuleMatch.discoveries] using h2⟩
    · rintro x ⟨h1, h2, h3⟩
      refine .pure ?_
      intro m hm
      cases hm
      unfold wrapRule
      split
      · exact ⟨fun ps nm cur _ => ⟨_, rfl⟩, fun _ _ => ⟨_, rfl⟩⟩
      · refine ⟨fun ps nm cur _ => ruleMistake_ok (by rw [h1]; exact hr.name) h2 ps cur, ?_⟩
        intro _ hp
        exact aRuleMatch_ok (by rw [h1]; exact hr) (h3 hp)
  | n + 1, .recursive name specs card, deps, script, ch, hc, hd, hs => by
    simp only [containerToMatch]
    have he : N name ∧ ∀ s ∈ specs, s.containerName ≠ [] := by cases hc with | recursive h1 h2 => exact ⟨h1, h2⟩
    refine M.Total.bind .get ?_
    intro s _
    split
    · refine M.Total.bind .set ?_
      intro _ _
      exact .pure (by simp)
    · refine M.Total.bind .set ?_
      intro _ _
      refine M.Total.bind (.lift (Q := Fine N) (hd name he.1)) ?_
      intro e hfe
      refine M.Total.bind (tokenToTokenMatch_total n e specs card deps script ch hfe he.2 hd hs) ?_
      intro t ht
      refine .pure ?_
      intro m hm
      cases hm
      exact ⟨ht.1, fun _ _ => ht.2⟩
theorem tokenToTokenMatch_total : ∀ (n : Nat) (e : Element) (specs : List Spec) (card : Card) (deps : List Element) (script : Str) (ch : Bool), Fine N e →
    (∀ s ∈ specs, s.containerName ≠ []) → FineDeps N deps → script ≠ [] →
    M.Total (tokenToTokenMatch env n e specs card deps script ch) (fun t => (wrapToken t).Mi ∧ (wrapToken t).Tr)
  | 0, _, _, _, _, _, _, _, _, _, _ => .outOfFuel
  | n + 1, e, specs, card, deps, script, ch, he, hsp, hd, hs => by
    simp only [tokenToTokenMatch]
    refine M.Total.bind (tokenLoop_total (fun rem => elementToToken_total n e deps rem ch he hd) card n script [] (by simp)) ?_
    intro l hl
    refine .lift ⟨.mk e.name (.mk script card l) specs, ?_, tokenMatch_fine he.name hl hsp⟩
    unfold tokenMatchNow
    rw [if_neg hs, if_neg]
    simp only [List.any_eq_true, List.isEmpty_iff, not_exists, not_and]
    exact hsp
end

/-- The matcher gives a token on which the mistakes answer; and there is a tree if it is valid. -/
theorem toToken_total (he : Fine N env.root.element) (hd : FineDeps N env.root.deps) (n : Nat) (script : Str) : M.Total (toToken env n script) TokFine := by
  unfold toToken
  refine M.Total.bind .get ?_
  intro s _
  refine M.Total.bind .set ?_
  intro _ _
  exact elementToToken_total hch n _ _ script true he hd

/-- A tree or a mistake. -/
theorem toAST_total (he : Fine N env.root.element) (hd : FineDeps N env.root.deps) (hg : GrammarShape False True (fun _ => True) env) (n : Nat) (script : Str)
    (st : St) (hst : st.canPrefix = false) (r : Out AST) (st' : St) (h : toAST env false n script st = some (r, st')) : ∃ a, r = .ok a := by
  unfold toAST at h
  rw [M.bind_def] at h
  cases ht : toToken env n script st with
  | none => rw [ht] at h; simp at h
  | some x =>
    obtain ⟨t, s1⟩ := x
    obtain ⟨t, rfl, hf⟩ := toToken_total hch he hd n script _ _ _ ht
    rw [ht] at h
    dsimp only at h
    have hV := ((tameInv env False True (fun _ => True) hg (by simp) (by simp)).toToken hg.root hg.deps n script _ _ _ hst ht).2 t rfl
    obtain ⟨⟨o, cur⟩, hm⟩ := hf.mistake [] []
    have hiff := t.mistake_iff hV.2.1 _ _ _ _ hm
    have : toMistake false t = .ok o := by unfold toMistake; rw [hm]; rfl
    rw [M.bind_def, this, M.lift_run] at h
    dsimp only at h
    cases o with
    | some m => simp at h; exact ⟨_, h.1.symm⟩
    | none =>
      obtain ⟨a, ha⟩ := hf.tree (hiff.mp rfl)
      simp only [ha] at h
      rw [M.bind_def, M.lift_run] at h
      simp at h
      exact ⟨_, h.1.symm⟩
end

/-! ## Compiled grammars -/

theorem unfLine_elem {g : PathEnv} {stack : List Str} {parent : Str} {n : Nat} {l : GLine} : ∀ {x : Line}, UnfLine g stack parent n l x →
    ∀ {e : GElement}, .element e ∈ l → ∃ c, Instruction.container c ∈ x := by
  induction l with
  | nil => intro x _ e he; simp at he
  | cons i is ih =>
    intro x h e he
    cases h with
    | switch h =>
      obtain ⟨c, hc⟩ := ih h (e := e) (by simpa using he)
      exact ⟨c, by simp [hc]⟩
    | elem h1 h2 => exact ⟨_, List.mem_cons_self ..⟩

theorem unfLines_first {g : PathEnv} {stack : List Str} {parent : Str} {ls : List GLine} {xs : List Line} (h : UnfLines g stack parent ls xs) (h2 : xs ≠ [])
    (hf : ∀ l ls', ls = l :: ls' → ∃ e, .element e ∈ l) : ∃ l ls c, xs = l :: ls ∧ Instruction.container c ∈ l := by
  cases h with
  | nil => exact absurd rfl h2
  | @cons _ _ l ls x xs _ hx _ =>
    obtain ⟨e, he⟩ := hf l ls rfl
    obtain ⟨c, hc⟩ := unfLine_elem hx he
    exact ⟨x, xs, c, rfl, hc⟩

theorem buildSpecifiers_names {l : List GSpec} : ∀ {sp : List Spec}, buildSpecifiers l = .ok sp → ∀ s ∈ sp, s.containerName ≠ [] := by
  unfold buildSpecifiers
  induction l with
  | nil => intro sp h; simp [mapOut] at h; subst h; simp
  | cons x xs ih =>
    intro sp h
    simp only [mapOut, Out.bind_eq_ok] at h
    obtain ⟨y, hy, ys, hys, h⟩ := h
    simp at h
    subst h
    intro s hs
    rcases List.mem_cons.mp hs with rfl | hs
    · unfold specifierNow at hy
      split at hy
      · cases hy
      · cases hy; assumption
    · exact ih hys s hs

section
variable {g : PathEnv} (hg : TokensOk g) (hclosed : GClosed g) (hmade : ∀ t ∈ g.tokens.list, TokenMade t)
include hg hclosed hmade

/-- The name of a token of the grammar. -/
def IsToken (g : PathEnv) (n : Str) : Prop := ∃ u ∈ g.tokens.list, u.name = n

mutual
theorem unf_fine : ∀ {stack : List Str} {t : GToken} {e : Element}, Unf g stack t e → TokenMade t → StackOk g stack → Fine (IsToken g) e
  | stack, t, _, .mk (must := must) (not := not) h1 h2 h3 h4 h5, ht, hs => by
    have key := fun rs => unfLines_fine h3 rs hs
    have hnot := h4 ht.noNot
    subst hnot
    refine .mk h1 ?_ (key ht.rules)
    exact unfLines_first h3 h2 ht.first
theorem unfLines_fine : ∀ {stack : List Str} {parent : Str} {ls : List GLine} {xs : List Line}, UnfLines g stack parent ls xs →
    (∀ l ∈ ls, ∀ e, .element e ∈ l → ∀ r, e.content = .rule r → RuleMade r) → StackOk g stack →
    ∀ x ∈ xs, ∀ c, Instruction.container c ∈ x → FineC (IsToken g) c
  | _, _, _, _, .nil, _, _ => by simp
  | stack, parent, _, _, .cons (l := l) (ls := ls) (x := y) (xs := ys) _ h2 h3, hr, hs => by
    have k1 := unfLine_fine h2 (hr l (by simp)) hs
    have k2 := unfLines_fine h3 (fun l hl => hr l (by simp [hl])) hs
    intro x hx
    rcases List.mem_cons.mp hx with rfl | hx
    · exact k1
    · exact k2 x hx
theorem unfLine_fine : ∀ {stack : List Str} {parent : Str} {n : Nat} {l : GLine} {x : Line}, UnfLine g stack parent n l x →
    (∀ e, .element e ∈ l → ∀ r, e.content = .rule r → RuleMade r) → StackOk g stack → ∀ c, Instruction.container c ∈ x → FineC (IsToken g) c
  | _, _, _, _, _, .nil, _, _ => by simp
  | _, _, _, _, _, .switch h, hr, hs => by
    have := unfLine_fine h (fun e he => hr e (by simp [he])) hs
    intro c hc
    exact this c (by simpa using hc)
  | _, _, _, _, _, .elem (e := e) (c := c') h1 h2, hr, hs => by
    have k1 := unfC_fine h1 (hr e (by simp)) hs
    have k2 := unfLine_fine h2 (fun e he => hr e (by simp [he])) hs
    intro c hc
    rcases List.mem_cons.mp hc with hc | hc
    · cases hc; exact k1
    · exact k2 c hc
theorem unfC_fine : ∀ {stack : List Str} {parent : Str} {n : Nat} {e : GElement} {c : PContainer}, UnfC g stack parent n e c →
    (∀ r, e.content = .rule r → RuleMade r) → StackOk g stack → FineC (IsToken g) c
  | _, _, _, _, _, .recur _ h2 _ h4 _, _, hs => .recursive (hs _ h2) (buildSpecifiers_names h4)
  | _, _, _, _, _, .replaced _ _ _ h4, _, _ => by rw [hclosed.1] at h4; cases h4
  | stack, _, _, _, _, .declared (u := u) (el := el) _ _ h3 _ h5 h6, _, hs => by
    obtain ⟨hu, hn⟩ := (hg.find _ _).mp h5
    have hs' : StackOk g (u.name :: stack) := by
      intro n hn
      rcases List.mem_cons.mp hn with rfl | hn
      · exact ⟨u, hu, rfl⟩
      · exact hs n hn
    have k := unf_fine h6 (hmade u hu) hs'
    exact .token k ⟨u, hu, (unf_name h6).symm⟩ (buildSpecifiers_names h3)
  | _, _, _, _, _, .missing _ _ _ _ _ h6, _, _ => by rw [hclosed.2] at h6; cases h6
  | _, _, _, _, _, .rule h1, hr, _ => .rule (hr _ h1)
end

theorem resolves_fine {deps : List Element} (h : Resolves g deps) : FineDeps (IsToken g) deps := by
  rintro _ ⟨u, hu, rfl⟩
  obtain ⟨e, h1, h2⟩ := h u hu
  exact ⟨e, h1, unf_fine hg hclosed hmade h2 (hmade u hu) (by simp [StackOk])⟩
end

end Verif.Lexer
