import Verif.Lemmas.LexerTotal

/-!
# Termination of guarded grammars: one text, one class
-/

namespace Verif.Lexer
open Verif.Patterns Verif.Cardinality

/-! ## A part which reads nothing is optional -/

/-- What is needed of a container: no `not` lines, well-formed rules. -/
def ContOk (deps : List Element) : PContainer → Prop
  | .token e _ _ => e.not = []
  | .rule r _ => RuleWF r
  | .recursive n _ _ => ∀ e, fetch deps n = .ok e → e.not = []
  | .lines _ => False

theorem tokens_empty {chans : List Path} {deps : List Element} {e : Element} {s : Str} (hn : e.not = []) {l : List Token} (h : TokensConform chans deps e s l)
    (hd : tokensDiscoveries l = []) : l = [] := by
  cases l with
  | nil => rfl
  | cons t ts =>
    have := tokens_nonempty hn _ h t (by simp)
    simp [tokensDiscoveries] at hd
    exact absurd hd.1 this

mutual
theorem block_optional {chans : List Path} (hch : ∀ p ∈ chans, p.element.not = []) {deps : List Element} {c : PContainer} (hc : ContOk deps c) {s : Str} :
    (b : BlockMatch) → b.Conforms chans deps c s → b.isValid = true → b.discoveries = [] → ∃ k, c.cardinality = .ok k ∧ k.isValid 0 = true
  | .mk none x, h, hv, hd => content_optional hch hc x h hv hd
  | .mk (some p) x, h, hv, hd => by
    exfalso
    obtain ⟨⟨ch, h1, h2, h3⟩, _⟩ := h
    have hpv := h2 (hch ch h1)
    obtain ⟨i, l⟩ := p
    obtain ⟨line, _, _, h4⟩ := h3
    have := (h4 hpv).1
    simp only [BlockMatch.discoveries, List.append_eq_nil_iff, LineMatch.discoveries] at hd
    rw [if_pos (show blocksValid l = true from hpv)] at hd
    exact this hd.1
theorem content_optional {chans : List Path} (hch : ∀ p ∈ chans, p.element.not = []) {deps : List Element} {c : PContainer} (hc : ContOk deps c) {s : Str} :
    (b : BlockContent) → b.Conforms chans deps c s → b.isValid = true → b.discoveries = [] → ∃ k, c.cardinality = .ok k ∧ k.isValid 0 = true
  | .next _, _, hv, _ => by simp [BlockContent.isValid] at hv
  | .block b, h, hv, hd => block_optional hch hc b h hv hd
  | .container (.token (.mk name (.mk input card' l) specs)), h, hv, hd => by
    obtain ⟨_, e, card, hcc, rfl, rfl, rfl, _, ht⟩ := h
    simp only [BlockContent.isValid, Match.isValid, TokenMatch.isValid, TokenResult.isValid, Bool.and_eq_true] at hv
    simp only [BlockContent.discoveries, Match.discoveries, TokenMatch.discoveries, TokenResult.discoveries] at hd
    have hnil : l = [] := by
      rcases hcc with rfl | ⟨rfl, hf⟩
      · exact tokens_empty hc ht hd
      · exact tokens_empty (hc _ hf) ht hd
    subst hnil
    refine ⟨card', ?_, hv.2.1⟩
    rcases hcc with rfl | ⟨rfl, hf⟩ <;> rfl
  | .container (.rule r), h, hv, hd => by
    obtain ⟨_, rfl, _, ht⟩ := h
    simp only [BlockContent.isValid, Match.isValid, RuleMatch.isValid, Bool.and_eq_true] at hv
    simp only [BlockContent.discoveries, Match.discoveries, RuleMatch.discoveries] at hd
    refine ⟨r.card, rfl, ?_⟩
    have hnil : r.results = [] := by
      cases hr : r.results with
      | nil => rfl
      | cons x xs =>
        rw [hr] at hd
        simp at hd
        exact absurd hd.1 (RuleText_nonempty ((ht hc).results x (by simp [hr])))
    have := hv.1
    rw [RuleMatch.amount, hnil] at this
    exact this
  | .container (.skipToken t), h, _, _ => h.2.2
  | .container (.skipRule r), h, _, _ => by
    obtain ⟨_, rfl, hk⟩ := h
    exact ⟨_, rfl, hk⟩
  | .container (.line l), h, _, _ => by
    obtain ⟨_, ls, rfl, _⟩ := h
    exact absurd hc id
end

/-! ## The setting -/

/-- A token of the class `k` cannot be reached from `n`. -/
def Away (ts : List GToken) (rank : Str → Nat) (k : Nat) (n : Str) : Prop := ∀ w, ReachesName ts n w → rank w ≠ k

theorem ruleCont_ends {env : Env} {r : Rule} (hw : RuleWF r) (k : Card) (deps : List Element) (s : Str) (ch : Bool) (st : St) :
    EndsAt (fun n => containerToMatch env n (.rule r k) deps s ch) st := by
  refine EndsAt.of_succ ?_
  simp only [containerToMatch]
  refine EndsAt.bind (F := fun n => ruleToRuleMatch n r _ s ch) (fun n m h => ruleToRuleMatch_mono n m h _ _ _ _)
    (fun _ => Mon.const _) ?_ (fun _ _ _ _ => .pure)
  unfold ruleToRuleMatch
  refine EndsAt.bind (F := fun _ => M.get) (Mon.const _) ?_ (.const rfl) ?_
  · intro s0
    refine Mon.bind ?_ (fun _ => Mon.const _)
    intro n m hnm
    exact ruleLoop_mono _ _ _ _ _ _ hnm _ _
  · intro _ s0 s1 _
    refine EndsAt.bind (F := fun n => ruleLoop r _ (s0.canPrefix && ch) s.length n s []) ?_ (fun _ => Mon.const _) ?_ ?_
    · intro n m hnm
      exact ruleLoop_mono _ _ _ _ _ _ hnm _ _
    · obtain ⟨r, hr⟩ := ruleLoop_ends hw _ (s0.canPrefix && ch) s.length s.length s [] s1 le_rfl
      exact ⟨_, r, hr⟩
    · intro n l s2 _
      exact .const rfl

theorem unf_notNil {g : PathEnv} {stack : List Str} {t : GToken} {e : Element} (h : Unf g stack t e) (hn : t.not = none) : e.not = [] := by
  cases h with
  | mk _ _ _ h4 _ => exact h4 hn

/-- A recursive token: it is given up, or it is tried with the text remembered. -/
theorem recursive_ends {env : Env} {deps : List Element} {name : Str} {sp : List Spec} {card : Card} {s : Str} {ch : Bool} {st : St}
    (h : st.recursive name ≠ some s → ∀ e, fetch deps name = .ok e →
      EndsAt (fun n => tokenToTokenMatch env n e sp card deps s ch) { st with recursive := Function.update st.recursive name (some s) }) :
    EndsAt (fun n => containerToMatch env n (.recursive name sp card) deps s ch) st := by
  by_cases hr : st.recursive name = some s
  · refine ⟨1, (.ok none, { st with recursive := Function.update st.recursive name none }), ?_⟩
    simp only [containerToMatch]
    rw [M.bind_some_ok (M.get_run _), if_pos hr, M.bind_some_ok (M.set_run _ _)]
    rfl
  · cases hf : fetch deps name with
    | panic => exact absurd hf fetch_ne_panic
    | err =>
      refine ⟨1, (.err, { st with recursive := Function.update st.recursive name (some s) }), ?_⟩
      simp only [containerToMatch]
      rw [M.bind_some_ok (M.get_run _), if_neg hr, M.bind_some_ok (M.set_run _ _), hf]
      rfl
    | ok e =>
      obtain ⟨n, r, hn⟩ := h hr e hf
      dsimp only at hn
      refine ⟨n + 1, ?_⟩
      simp only [containerToMatch]
      rw [M.bind_some_ok (M.get_run _), if_neg hr, M.bind_some_ok (M.set_run _ _), M.bind_some_ok (by rw [M.lift_run, hf]), M.bind_def, hn]
      obtain ⟨o, s1⟩ := r
      cases o <;> exact ⟨_, rfl⟩

theorem unfC_times {g : PathEnv} {stack : List Str} {parent : Str} {n : Nat} {e : GElement} {c : PContainer} (h : UnfC g stack parent n e c) :
    c.cardinality = .ok e.times := by
  cases h <;> rfl

/-- The setting: a compiled grammar with guarded left recursion, in an environment whose channels answer. -/
structure Guarded (g : PathEnv) (env : Env) (v : Str → Option LineMatch) (deps : List Element) (rank first : Str → Nat) : Prop where
  tokens : TokensOk g
  closed : GClosed g
  chans : ChannelsAnswer env v
  deps : ∀ e ∈ deps, ∃ u ∈ g.tokens.list, Unf g [] u e
  guard : WellGuarded g.tokens.list rank first

section
variable {g : PathEnv} {env : Env} {v : Str → Option LineMatch} {deps : List Element} {rank first : Str → Nat}
  (H : Guarded g env v deps rank first)
include H

theorem Guarded.fetched {n : Str} {e : Element} (h : fetch deps n = .ok e) : ∃ u ∈ g.tokens.list, u.name = n ∧ Unf g [] u e := by
  obtain ⟨h1, h2⟩ := fetch_mem h
  obtain ⟨u, hu, hx⟩ := H.deps e h1
  exact ⟨u, hu, by rw [← unf_name hx, h2], hx⟩

theorem Guarded.unique {t u : GToken} (ht : t ∈ g.tokens.list) (hu : u ∈ g.tokens.list) (h : t.name = u.name) : t = u := by
  have h1 := (H.tokens.find t.name t).mpr ⟨ht, rfl⟩
  have h2 := (H.tokens.find t.name u).mpr ⟨hu, h.symm⟩
  rw [h1] at h2
  cases h2; rfl

omit H in
theorem Guarded.within {A : Str → Prop} (hA : ∀ a b, MentionsName g.tokens.list a b → A a → A b) :
    ∀ t ∈ g.tokens.list, A t.name → ∀ l ∈ t.must, ∀ e, .element e ∈ l → ∀ u specs, e.content = .token u specs → A u :=
  fun t ht ha l hl e he _ specs hu => hA _ _ ⟨t, ht, rfl, l, hl, e, he, specs, hu⟩ ha

theorem Guarded.fetchWithin {A : Str → Prop} (hA : ∀ a b, MentionsName g.tokens.list a b → A a → A b) (n : Str) (e : Element) (ha : A n)
    (hf : fetch deps n = .ok e) : Within A e := by
  obtain ⟨u, hu, rfl, hx⟩ := H.fetched hf
  exact unf_within H.tokens H.closed (Guarded.within hA) (fun t ht => (H.guard.ordinary t ht).1) hx hu ha

theorem Guarded.keeps {A : Str → Prop} (hA : ∀ a b, MentionsName g.tokens.list a b → A a → A b) (n : Nat) : KeepsAt env deps A n :=
  keeps_all H.chans.keep (H.fetchWithin hA) n

omit H in
theorem away_closed (k : Nat) : ∀ a b, MentionsName g.tokens.list a b → Away g.tokens.list rank k a → Away g.tokens.list rank k b :=
  fun _ _ h ha w hw => ha w (.head h hw)

theorem Guarded.contWithin {A : Str → Prop} (hA : ∀ a b, MentionsName g.tokens.list a b → A a → A b) {stack : List Str} {parent : Str} {n : Nat} {e : GElement}
    {c : PContainer} (h : UnfC g stack parent n e c) (ha : ∀ u specs, e.content = .token u specs → A u) : WithinC A c :=
  unfC_within H.tokens H.closed (Guarded.within hA) (fun t ht => (H.guard.ordinary t ht).1) h ha

theorem Guarded.contWithinTrue {stack : List Str} {parent : Str} {n : Nat} {e : GElement} {c : PContainer} (h : UnfC g stack parent n e c) :
    WithinC (fun _ => True) c := H.contWithin (fun _ _ _ _ => trivial) h (fun _ _ _ => trivial)

theorem Guarded.contOk {stack : List Str} {parent : Str} {n : Nat} {e : GElement} {c : PContainer} (h : UnfC g stack parent n e c)
    (hr : ∀ r, e.content = .rule r → RuleWF r) : ContOk deps c := by
  cases h with
  | recur _ _ _ _ _ =>
    intro e he
    obtain ⟨u, hu, _, hx⟩ := H.fetched he
    exact unf_notNil hx (H.guard.ordinary u hu).1
  | replaced _ _ _ h4 => rw [H.closed.1] at h4; cases h4
  | missing _ _ _ _ _ h6 => rw [H.closed.2] at h6; cases h6
  | declared _ _ _ _ h5 h6 => exact unf_notNil h6 (H.guard.ordinary _ ((H.tokens.find _ _).mp h5).1).1
  | rule h1 => exact hr _ h1

/-! The first rules. -/

omit H in
theorem firstContainer_elem {stack : List Str} {parent : Str} {n : Nat} {l : GLine} : ∀ {x : Line} {c : PContainer}, UnfLine g stack parent n l x → firstContainer x = some c →
    ∃ pre e post, l = pre ++ .element e :: post ∧ (∀ y, .element y ∉ pre) ∧ UnfC g stack parent n e c := by
  induction l with
  | nil => intro x c h hf; cases h; simp [firstContainer] at hf
  | cons i is ih =>
    intro x c h hf
    cases h with
    | switch h1 =>
      obtain ⟨pre, e, post, rfl, h2, h3⟩ := ih h1 hf
      exact ⟨.channelSwitch :: pre, e, post, rfl, by simpa using h2, h3⟩
    | @elem _ _ _ e _ _ _ h1 h2 =>
      simp [firstContainer] at hf
      subst hf
      exact ⟨[], e, is, rfl, by simp, h1⟩

theorem Guarded.firstEnds : ∀ k name, first name ≤ k → FirstEnds deps name := by
  intro k
  induction k using Nat.strong_induction_on with
  | _ k ih =>
    intro name hk
    have key : ∀ e l ls c, fetch deps name = .ok e → e.must = l :: ls → firstContainer l = some c → (∃ stack parent n x, UnfC g stack parent n x c ∧
        ∀ u specs, x.content = .token u specs → first u < first name) := by
      intro e l ls c he hm hf
      obtain ⟨u, hu, rfl, hx⟩ := H.fetched he
      cases hx with
      | @mk _ _ must _ h1 h2 h3 _ _ =>
        simp only [Element.must] at hm
        subst hm
        cases hmm : u.must with
        | nil => rw [hmm] at h3; cases h3
        | cons gl gls =>
          rw [hmm] at h3
          cases h3 with
          | cons _ h5 _ =>
            obtain ⟨pre, x, post, hl, hp, hc⟩ := firstContainer_elem h5 hf
            exact ⟨_, _, _, x, hc, fun w specs hw => H.guard.first u hu pre x post gls (by rw [hmm, hl]) hp w specs hw⟩
    refine .mk ?_ ?_
    · intro e l ls e' sp kk he hm hf
      obtain ⟨stack, parent, n, x, hc, hx⟩ := key e l ls _ he hm hf
      cases hc with
      | replaced _ _ _ h4 => rw [H.closed.1] at h4; cases h4
      | missing _ _ _ _ _ h6 => rw [H.closed.2] at h6; cases h6
      | declared h1 _ _ _ h5 h6 =>
        have := hx _ _ h1
        obtain ⟨_, k2⟩ := (H.tokens.find _ _).mp h5
        rw [unf_name h6, k2]
        exact ih _ (by omega) _ le_rfl
    · intro e l ls nm sp kk he hm hf
      obtain ⟨stack, parent, n, x, hc, hx⟩ := key e l ls _ he hm hf
      cases hc with
      | recur h1 _ _ _ _ =>
        have := hx _ _ h1
        exact ih _ (by omega) _ le_rfl

theorem Guarded.firsts (name : Str) : FirstEnds deps name := H.firstEnds _ name le_rfl

/-! ## One token -/

omit H in
/-- All the elements of a token end at a text. -/
def EndsTok (g : PathEnv) (env : Env) (deps : List Element) (s : Str) (t : GToken) : Prop :=
  ∀ stack e, StackOk g stack → Unf g stack t e → ∀ ch st, st.canPrefix = false → EndsAt (fun n => elementToToken env n e deps s ch) st

omit H in
theorem tok_ends' {e : Element} (hn : e.not = []) {A : Str → Prop} (hk : ∀ n, KeepsAt env deps A n) (hA : Within A e) {s : Str} {ch : Bool} {st : St} (hst : st.canPrefix = false)
    (h1 : EndsAt (fun n => elementToToken env n e deps s ch) st)
    (h2 : ∀ r, r.length < s.length → ∀ st, st.canPrefix = false → EndsAt (fun n => elementToToken env n e deps r ch) st) (sp : List Spec) (card : Card) :
    EndsAt (fun n => tokenToTokenMatch env n e sp card deps s ch) st := by
  refine EndsAt.of_succ ?_
  simp only [tokenToTokenMatch]
  refine EndsAt.bind (F := fun n => tokenLoop (fun rem => elementToToken env n e deps rem ch) card n s []) ?_
    (fun _ => Mon.const _) ?_ (fun _ _ _ _ => .lift)
  · intro n m hnm
    exact tokenLoop_mono (fun r => mon_elem _ _ _ _ n m hnm) _ _ _ hnm _ _
  · refine tokenLoop_follow (fun r => mon_elem _ _ _ _) card ?_ ?_ _ _ _ _ le_rfl hst h1 h2
    · intro n r st t st' hst h
      exact ((hk n).elem e r ch hA _ _ _ hst h).1
    · intro n r st t st' c h hv hc
      have := elem_nonempty env _ h hv hn
      obtain ⟨c', h1, h2⟩ := valid_discoveries hv
      rw [hc] at h1; simp at h1; subst h1
      rwa [← h2]

theorem Guarded.tok_ends {stack : List Str} {t : GToken} (ht : t ∈ g.tokens.list) {e : Element} (hu : Unf g stack t e) {s : Str} {ch : Bool} {st : St}
    (hst : st.canPrefix = false) (h1 : EndsAt (fun n => elementToToken env n e deps s ch) st) (hs : StackOk g stack)
    (h2 : ∀ r, r.length < s.length → EndsTok g env deps r t) (sp : List Spec) (card : Card) :
    EndsAt (fun n => tokenToTokenMatch env n e sp card deps s ch) st :=
  tok_ends' (unf_notNil hu (H.guard.ordinary t ht).1) (H.keeps (A := fun _ => True) (fun _ _ _ _ => trivial))
    (unf_within H.tokens H.closed (Guarded.within (A := fun _ => True) (fun _ _ _ _ => trivial)) (fun t ht => (H.guard.ordinary t ht).1) hu ht trivial) hst h1
    (fun r hr st hst => h2 r hr stack e hs hu ch st hst) sp card

/-- A container ends at a text if what it names ends there and at all the shorter ones. -/
theorem Guarded.cont_ends {stack : List Str} (hs : StackOk g stack) {parent : Str} {n : Nat} {e : GElement} {c : PContainer} (h : UnfC g stack parent n e c)
    (hr : ∀ r, e.content = .rule r → RuleWF r) {s : Str}
    (hE : ∀ u ∈ g.tokens.list, (∃ specs, e.content = .token u.name specs) → ∀ r, (r = s ∨ r.length < s.length) → EndsTok g env deps r u)
    (ch : Bool) (st : St) (hst : st.canPrefix = false) : EndsAt (fun n => containerToMatch env n c deps s ch) st := by
  cases h with
  | @recur _ _ _ _ name specs sp h1 h2 _ _ _ =>
    obtain ⟨u, hu, hun⟩ := hs _ h2
    refine recursive_ends ?_
    intro _ e he
    obtain ⟨u', hu', hn', hx⟩ := H.fetched he
    have hE' := hE u' hu' ⟨specs, by rw [hn']; exact h1⟩
    have hnil : StackOk g [] := by simp [StackOk]
    have hst' : ({ st with recursive := Function.update st.recursive name (some s) } : St).canPrefix = false := hst
    exact H.tok_ends hu' hx hst' (hE' s (.inl rfl) _ _ hnil hx _ _ hst') hnil (fun r hr => hE' r (.inr hr)) _ _
  | replaced _ _ _ h4 => rw [H.closed.1] at h4; cases h4
  | missing _ _ _ _ _ h6 => rw [H.closed.2] at h6; cases h6
  | @declared _ _ _ _ name specs sp el u h1 _ _ _ h5 h6 =>
    obtain ⟨k1, k2⟩ := (H.tokens.find _ _).mp h5
    have hs' : StackOk g (u.name :: stack) := by
      intro x hx
      rcases List.mem_cons.mp hx with rfl | hx
      · exact ⟨u, k1, rfl⟩
      · exact hs x hx
    have hE' := hE u k1 ⟨specs, by rw [k2]; exact h1⟩
    refine EndsAt.of_succ ?_
    simp only [containerToMatch]
    refine EndsAt.bind (F := fun n => tokenToTokenMatch env n el sp _ deps s ch)
      (fun n m hnm => (mono env n m hnm).tok _ _ _ _ _ _) (fun _ => Mon.const _) ?_ (fun _ _ _ _ => .pure)
    exact H.tok_ends k1 h6 hst (hE' s (.inl rfl) _ _ hs' h6 _ _ hst) hs' (fun r hr => hE' r (.inr hr)) _ _
  | rule h1 => exact ruleCont_ends (hr _ h1) _ _ _ _ _

end

end Verif.Lexer
