import Verif.Spec.LexerOrder
import Verif.Lemmas.LexerHist
import Verif.Lemmas.LexerSafe
import Verif.Lemmas.LexerSound

/-!
# Lemmas: the order of the channels
-/

namespace Verif.Lexer
open Verif.Patterns Verif.Cardinality

/-- The element of a channel with one rule. -/
def ruleElement (name : Str) (r : Rule) : Element := .mk name [[.container (.rule r .mandatory)]] []

theorem ruleMatch_once {r : Rule} (hw : RuleWF r) (script : Str) :
    ∃ l, (∀ x ∈ l, RuleText r x.content) ∧ l.length ≤ 1 ∧ ∀ n s, s.canPrefix = false →
      ruleToRuleMatch (n + 1) r .mandatory script false s = some (.ok ⟨r, .mandatory, l, false⟩, s) := by
  obtain ⟨h1, h2⟩ := toResult_safe hw script
  have hmax : reachedMax Card.mandatory (0 + 1) = true := by decide
  cases hres : toResult r script with
  | panic => exact absurd hres h1
  | err =>
    refine ⟨[], by simp, by simp, ?_⟩
    intro n s hs
    have hrun : ruleLoop r .mandatory (s.canPrefix && false) script.length (n + 1) script [] s = some (.ok [], s) := by
      unfold ruleLoop
      simp only [hres]
      rfl
    unfold ruleToRuleMatch
    rw [M.bind_some_ok (M.get_run _), M.bind_some_ok hrun, M.bind_some_ok (M.get_run _), hs]
    rfl
  | ok res =>
    cases hrr : res.results with
    | none =>
      refine ⟨[], by simp, by simp, ?_⟩
      intro n s hs
      have hrun : ruleLoop r .mandatory (s.canPrefix && false) script.length (n + 1) script [] s = some (.ok [], s) := by
        unfold ruleLoop
        simp only [hres, hrr]
        rfl
      unfold ruleToRuleMatch
      rw [M.bind_some_ok (M.get_run _), M.bind_some_ok hrun, M.bind_some_ok (M.get_run _), hs]
      rfl
    | some l =>
      obtain ⟨m, ms, i, rfl, h3, h4, h5⟩ := toResult_index hres hrr
      refine ⟨[res], ?_, by simp, ?_⟩
      · intro x hx
        simp at hx
        subst hx
        exact toResult_text hw hres hrr
      intro n s hs
      have hlen := h2 res hres
      have hn : notePrefix i s = some (.ok (), s) := by
        unfold notePrefix
        have : (if i > 0 then { s with canPrefix := false } else s) = s := by
          split
          · cases s; simp at hs; simp [hs]
          · rfl
        rw [this]
      have hnl : ¬ script.length < res.content.length := by omega
      have hrun : ruleLoop r .mandatory false script.length (n + 1) script [] s = some (.ok [res], s) := by
        unfold ruleLoop
        simp only [hres, hrr, h3, M.bind_def, M.lift, hn]
        by_cases hi : i > 0
        · simp [hi, pure]
        · by_cases hle : script.length ≤ res.content.length
          · simp [hi, hle, pure]
          · simp [hi, hle, hnl, pure, show reachedMax Card.mandatory 1 = true from hmax]
      unfold ruleToRuleMatch
      simp only [M.bind_def, M.get, hs, Bool.and_false, hrun]
      rfl

/-- What a channel finds. -/
theorem channel_token {name : Str} (hname : name ≠ []) {r : Rule} (hw : RuleWF r) {script : Str} (hscript : script ≠ []) :
    ∃ t : Token, (t.isValid = true → ∃ w, RuleText r w ∧ w <+: script) ∧
      (∀ env deps n s, s.canPrefix = false → elementToToken env (n + 7) (ruleElement name r) deps script false s = some (.ok t, s)) ∧
      ∀ env deps n s, n < 7 → elementToToken env n (ruleElement name r) deps script false s = none := by
  obtain ⟨l, h1, h2, h3⟩ := ruleMatch_once hw script
  have hm0 : Card.mandatory.isValid 0 = false := by decide
  let x : RuleMatch := ⟨r, .mandatory, l, false⟩
  let b : BlockMatch := .mk none (.container (.rule x))
  let t : Token := if !b.isValid then .mk name (some (.mk (.mk 0 [b]) none)) else if !(b.discoveries.isPrefixOf script) then .mk name none
    else if b.discoveries.length > 0 then .mk name (some (.mk (.mk 0 [b]) none)) else .mk name none
  have hwrap : wrapRule x = .rule x := by simp [wrapRule, x, hm0]
  refine ⟨t, ?_, ?_, ?_⟩
  · intro ht
    have hv : b.isValid = true ∧ b.discoveries.isPrefixOf script = true := by
      simp only [t] at ht
      by_cases hb : b.isValid = true
      · by_cases hp : b.discoveries.isPrefixOf script = true
        · exact ⟨hb, hp⟩
        · simp [hb, hp, Token.isValid] at ht
      · simp [hb, Token.isValid, TokenContent.isValid, LineMatch.isValid, blocksValid] at ht
    obtain ⟨hv, hp⟩ := hv
    simp only [b, BlockMatch.isValid, BlockContent.isValid, Match.isValid, RuleMatch.isValid, x, Bool.and_eq_true, RuleMatch.amount] at hv
    cases l with
    | nil => rw [show UInt64.ofNat ([] : List RuleResult).length = 0 from rfl, hm0] at hv; simp at hv
    | cons y ys =>
      cases ys with
      | cons _ _ => simp at h2
      | nil =>
        refine ⟨y.content, h1 y (by simp), ?_⟩
        simpa [b, BlockMatch.discoveries, BlockContent.discoveries, Match.discoveries, x, RuleMatch.discoveries, hv] using hp
  · intro env deps n s hs
    have hr := h3 n s hs
    have hblock : containerToBlockMatch env (n + 3) (.rule r .mandatory) deps script false false s = some (.ok (some b), s) := by
      have hm : containerToMatch env (n + 2) (.rule r .mandatory) deps script false s = some (.ok (some (.rule x)), s) := by
        simp only [containerToMatch]
        rw [M.bind_some_ok hr, hwrap]
        rfl
      simp only [containerToBlockMatch, hscript, if_false]
      rw [M.bind_some_ok (a := none) (s1 := s) (by rfl)]
      dsimp only
      rw [M.bind_some_ok hm]
      rfl
    have hline : lineToMatches env (n + 4) [.container (.rule r .mandatory)] deps script false s =
        some (.ok (if !b.isValid then some [b] else if !(b.discoveries.isPrefixOf script) then none else some [b]), s) := by
      simp only [lineToMatches, lineLoop, M.bind_def, hblock, Bool.false_eq_true, if_false]
      by_cases hb : b.isValid = true
      · by_cases hp : b.discoveries.isPrefixOf script = true
        · simp [hb, hp, pure]
        · simp [hb, hp, pure]
      · simp [hb, pure]
    simp only [elementToToken, elementToTokenContent, bestLineToMatches, bestLoop, ruleElement, Element.must, Element.not, Element.name, M.bind_def, hline, hname,
      if_false]
    have hbv : blocksValid [b] = b.isValid := by simp [blocksValid]
    by_cases hb : b.isValid = true
    · have hbd : (LineMatch.mk 0 [b]).discoveries = b.discoveries := by simp [LineMatch.discoveries, blocksDiscoveries, hbv, hb]
      by_cases hp : b.discoveries.isPrefixOf script = true
      · by_cases hd : b.discoveries.length > 0
        · simp [t, hb, hp, hd, pure, Best.step, Best.result, hbv, hbd]
        · simp [t, hb, hp, hd, pure, Best.step, Best.result, hbv, hbd]
      · simp [t, hb, hp, pure, Best.step, Best.result, hbv, hbd]
    · simp [t, hb, pure, Best.step, Best.result, hbv]
  · intro env deps n s hn
    have hn' : n = 0 ∨ n = 1 ∨ n = 2 ∨ n = 3 ∨ n = 4 ∨ n = 5 ∨ n = 6 := by omega
    have hl : ∀ k, k < 4 → lineToMatches env k [.container (.rule r .mandatory)] deps script false s = none := by
      intro k hk
      have hb : ∀ k, k < 3 → containerToBlockMatch env k (.rule r .mandatory) deps script false false s = none := by
        intro k hk
        have hm : ∀ k, k < 2 → containerToMatch env k (.rule r .mandatory) deps script false s = none := by
          intro k hk
          have : k = 0 ∨ k = 1 := by omega
          rcases this with rfl | rfl
          · rfl
          · simp only [containerToMatch, ruleToRuleMatch]
            rw [M.bind_none]
            left
            rw [M.bind_some_ok (M.get_run _), M.bind_none]
            left
            rfl
        cases k with
        | zero => rfl
        | succ k =>
          simp only [containerToBlockMatch, hscript, if_false]
          rw [M.bind_some_ok (a := none) (s1 := s) (by rfl)]
          dsimp only
          rw [M.bind_none]
          exact .inl (hm k (by omega))
      cases k with
      | zero => rfl
      | succ k =>
        simp only [lineToMatches, lineLoop]
        rw [M.bind_none]
        exact .inl (hb k (by omega))
    cases n with
    | zero => rfl
    | succ n =>
      simp only [elementToToken]
      rw [M.bind_none]; left
      cases n with
      | zero => rfl
      | succ n =>
        simp only [elementToTokenContent]
        rw [M.bind_none]; left
        cases n with
        | zero => rfl
        | succ n =>
          simp only [bestLineToMatches, ruleElement, Element.must]
          rw [M.bind_none]; left
          simp only [bestLoop]
          rw [M.bind_none]; left
          exact hl n (by omega)

/-- The loop over channels none of which changes the state. -/
theorem channelLoop_pure {f : Path → M Token} {T : Path → Token} {s : St} : ∀ {l : List Path}, (∀ p ∈ l, f p s = some (.ok (T p), s)) →
    channelLoop f l s = some (.ok ((l.find? fun p => (T p).isValid).bind fun p => (T p).content.map TokenContent.must), s)
  | [], _ => rfl
  | p :: l, h => by
    simp only [channelLoop]
    rw [M.bind_some_ok (h p List.mem_cons_self)]
    have ih := channelLoop_pure (l := l) fun q hq => h q (List.mem_cons_of_mem _ hq)
    by_cases hv : (T p).isValid = true
    · obtain ⟨c, hc, _⟩ := valid_discoveries hv
      simp [hv, hc]
    · simp [hv, ih]

theorem find_perm {α : Type} {v : α → Bool} {l l' : List α} (hp : l.Perm l') (h1 : ∀ a ∈ l, ∀ b ∈ l, v a = true → v b = true → a = b) :
    l.find? v = l'.find? v := by
  cases h : l.find? v with
  | none =>
    rw [List.find?_eq_none] at h
    symm
    rw [List.find?_eq_none]
    exact fun a ha => h a (hp.mem_iff.mpr ha)
  | some a =>
    have ha := List.mem_of_find?_eq_some h
    have hv := List.find?_some h
    cases h' : l'.find? v with
    | none =>
      rw [List.find?_eq_none] at h'
      exact absurd hv (h' a (hp.mem_iff.mp ha))
    | some b =>
      have hb := List.mem_of_find?_eq_some h'
      rw [h1 a ha b (hp.mem_iff.mpr hb) hv (List.find?_some h')]

theorem channels_same {ps : List Path} (hps : ∀ p ∈ ps, ∃ name r, name ≠ [] ∧ RuleWF r ∧ p.element = ruleElement name r)
    (hap : ∀ p ∈ ps, ∀ q ∈ ps, p ≠ q → ∀ n n' r r', p.element = ruleElement n r → q.element = ruleElement n' r' → Apart r r')
    {env env' : Env} (h : ∀ k, (env.channels k).Perm ps) (h' : ∀ k, (env'.channels k).Perm ps) (n k k' : Nat) (s : Str) (hs : s ≠ []) :
    M.Same (channelLoop (fun p => elementToToken env n p.element p.deps s false) (env.channels k))
        (channelLoop (fun p => elementToToken env' n p.element p.deps s false) (env'.channels k')) := by
  have key : ∀ p : Path, ∃ t : Token, p ∈ ps → (t.isValid = true → ∃ n r w, p.element = ruleElement n r ∧ RuleText r w ∧ w <+: s) ∧
      (∀ env deps n s', s'.canPrefix = false → elementToToken env (n + 7) p.element deps s false s' = some (.ok t, s')) ∧
      ∀ env deps n s', n < 7 → elementToToken env n p.element deps s false s' = none := by
    intro p
    by_cases hp : p ∈ ps
    · obtain ⟨name, r, h1, h2, h3⟩ := hps p hp
      obtain ⟨t, t1, t2, t3⟩ := channel_token h1 h2 hs
      refine ⟨t, fun _ => ⟨?_, ?_, ?_⟩⟩
      · intro hv
        obtain ⟨w, w1, w2⟩ := t1 hv
        exact ⟨name, r, w, h3, w1, w2⟩
      · rw [h3]; exact t2
      · rw [h3]; exact t3
    · exact ⟨.mk [] none, fun hp' => absurd hp' hp⟩
  choose T hT using key
  have huniq : ∀ p ∈ ps, ∀ q ∈ ps, (T p).isValid = true → (T q).isValid = true → p = q := by
    intro p hp q hq hvp hvq
    by_contra hne
    obtain ⟨n1, r1, w1, a1, a2, a3⟩ := (hT p hp).1 hvp
    obtain ⟨n2, r2, w2, b1, b2, b3⟩ := (hT q hq).1 hvq
    exact hap p hp q hq hne _ _ _ _ a1 b1 s w1 w2 a2 b2 a3 b3
  intro s1 s2 hst
  by_cases hn : n < 7
  · cases hl : env.channels k with
    | nil =>
      have : env'.channels k' = [] := by
        have h2 := (h k).symm
        rw [hl] at h2
        have := (h' k').trans h2
        exact List.perm_nil.mp this
      rw [this]
      exact .inr ⟨_, _, _, rfl, rfl, hst⟩
    | cons p l =>
      have hp : p ∈ ps := (h k).mem_iff.mp (by rw [hl]; exact List.mem_cons_self)
      cases hl' : env'.channels k' with
      | nil =>
        have h2 := (h' k').symm
        rw [hl'] at h2
        rw [List.perm_nil.mp h2] at hp
        cases hp
      | cons q l' =>
        have hq : q ∈ ps := (h' k').mem_iff.mp (by rw [hl']; exact List.mem_cons_self)
        left
        constructor
        · simp only [channelLoop]
          rw [M.bind_none]
          exact .inl ((hT p hp).2.2 env _ n s1 hn)
        · simp only [channelLoop]
          rw [M.bind_none]
          exact .inl ((hT q hq).2.2 env' _ n s2 hn)
  · obtain ⟨m, rfl⟩ : ∃ m, n = m + 7 := ⟨n - 7, by omega⟩
    right
    have e1 := channelLoop_pure (f := fun p => elementToToken env (m + 7) p.element p.deps s false) (T := T) (s := s1) (l := env.channels k)
      (fun p hp => (hT p ((h k).mem_iff.mp hp)).2.1 env _ m s1 hst.1)
    have e2 := channelLoop_pure (f := fun p => elementToToken env' (m + 7) p.element p.deps s false) (T := T) (s := s2) (l := env'.channels k')
      (fun p hp => (hT p ((h' k').mem_iff.mp hp)).2.1 env' _ m s2 hst.2.1)
    have : (env.channels k).find? (fun p => (T p).isValid) = (env'.channels k').find? (fun p => (T p).isValid) :=
      find_perm ((h k).trans (h' k').symm) fun a ha b hb va vb => huniq a ((h k).mem_iff.mp ha) b ((h k).mem_iff.mp hb) va vb
    rw [this] at e1
    exact ⟨_, _, _, e1, e2, hst⟩

theorem toAST_same {env env' : Env} (hr : env.root = env'.root) {n : Nat} (h : SameAt env env' n) (script : Str) {s1 s2 : St}
    (h1 : s1.canPrefix = false) (h2 : s2.canPrefix = false) :
    (toAST env false n script s1).map Prod.fst = (toAST env' false n script s2).map Prod.fst := by
  unfold toAST
  rcases toToken_same2 hr h script h1 h2 with ⟨e1, e2⟩ | ⟨r, s1', s2', e1, e2, _⟩
  · simp [M.bind_def, e1, e2]
  · cases r with
    | err => simp [M.bind_def, e1, e2]
    | panic => simp [M.bind_def, e1, e2]
    | ok t =>
      rw [M.bind_some_ok e1, M.bind_some_ok e2]
      cases hm : toMistake false t with
      | err => simp [M.bind_def]
      | panic => simp [M.bind_def]
      | ok m =>
        rw [M.bind_some_ok (s1 := s1') (a := m) (by rfl), M.bind_some_ok (s1 := s2') (a := m) (by rfl)]
        cases m with
        | some m => rfl
        | none =>
          dsimp only
          cases ha : t.toA with
          | err => simp [M.bind_def]
          | panic => simp [M.bind_def]
          | ok a => rfl

end Verif.Lexer
