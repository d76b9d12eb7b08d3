import Verif.Lemmas.LexerTotal3
import Verif.Props.LexerOrder

/-!
# Termination of guarded grammars: the channels
-/

namespace Verif.Lexer
open Verif.Patterns Verif.Cardinality

/-- Channels which cannot be confused answer by the text alone. -/
theorem channels_answer {ps : List Path} (hps : ∀ p ∈ ps, ∃ name r, name ≠ [] ∧ RuleWF r ∧ p.element = ruleElement name r)
    (hap : ∀ p ∈ ps, ∀ q ∈ ps, p ≠ q → ∀ n n' r r', p.element = ruleElement n r → q.element = ruleElement n' r' → Apart r r')
    {env : Env} (h : ∀ k, (env.channels k).Perm ps) : ∃ v, ChannelsAnswer env v := by
  have key : ∀ (s : Str) (p : Path), ∃ t : Token, s ≠ [] → p ∈ ps → (t.isValid = true → ∃ n r w, p.element = ruleElement n r ∧ RuleText r w ∧ w <+: s) ∧
      (∀ env deps n s', s'.canPrefix = false → elementToToken env (n + 7) p.element deps s false s' = some (.ok t, s')) ∧
      ∀ env deps n s', n < 7 → elementToToken env n p.element deps s false s' = none := by
    intro s p
    by_cases hp : s ≠ [] ∧ p ∈ ps
    · obtain ⟨name, r, h1, h2, h3⟩ := hps p hp.2
      obtain ⟨t, t1, t2, t3⟩ := channel_token h1 h2 hp.1
      refine ⟨t, fun _ _ => ⟨?_, ?_, ?_⟩⟩
      · intro hv
        obtain ⟨w, w1, w2⟩ := t1 hv
        exact ⟨name, r, w, h3, w1, w2⟩
      · rw [h3]; exact t2
      · rw [h3]; exact t3
    · exact ⟨.mk [] none, fun h1 h2 => absurd ⟨h1, h2⟩ hp⟩
  choose T hT using key
  have hnot : ∀ p ∈ ps, p.element.not = [] := by
    intro p hp
    obtain ⟨name, r, _, _, h3⟩ := hps p hp
    rw [h3]; rfl
  have huniq : ∀ s, s ≠ [] → ∀ p ∈ ps, ∀ q ∈ ps, (T s p).isValid = true → (T s q).isValid = true → p = q := by
    intro s hs p hp q hq hvp hvq
    by_contra hne
    obtain ⟨n1, r1, w1, a1, a2, a3⟩ := (hT s p hs hp).1 hvp
    obtain ⟨n2, r2, w2, b1, b2, b3⟩ := (hT s q hs hq).1 hvq
    exact hap p hp q hq hne _ _ _ _ a1 b1 s w1 w2 a2 b2 a3 b3
  let v : Str → Option LineMatch := fun s => if s = [] then none else (ps.find? fun p => (T s p).isValid).bind fun p => (T s p).content.map TokenContent.must
  have hrun : ∀ m k s st, s ≠ [] → st.canPrefix = false →
      channelLoop (fun p => elementToToken env (m + 7) p.element p.deps s false) (env.channels k) st = some (.ok (v s), st) := by
    intro m k s st hs hst
    have e1 := channelLoop_pure (f := fun p => elementToToken env (m + 7) p.element p.deps s false) (T := T s) (s := st) (l := env.channels k)
      (fun p hp => (hT s p hs ((h k).mem_iff.mp hp)).2.1 env _ m st hst)
    have : (env.channels k).find? (fun p => (T s p).isValid) = ps.find? (fun p => (T s p).isValid) :=
      find_perm (h k) fun a ha b hb va vb => huniq s hs a ((h k).mem_iff.mp ha) b ((h k).mem_iff.mp hb) va vb
    rw [this] at e1
    simp only [v, if_neg hs]
    exact e1
  refine ⟨v, ⟨?_, ?_, ?_, ⟨ps, fun k p hp => (h k).mem_iff.mp hp, hnot⟩⟩⟩
  · intro n k s st r st' hs hst hr
    by_cases hn : n < 7
    · cases hl : env.channels k with
      | nil =>
        rw [hl] at hr
        simp [channelLoop] at hr
        obtain ⟨rfl, rfl⟩ := hr
        have hnil : ps = [] := by
          have h2 := (h k).symm
          rw [hl] at h2
          exact List.perm_nil.mp h2
        simp only [v, if_neg hs, hnil]
        simp
      | cons p l =>
        have hp : p ∈ ps := (h k).mem_iff.mp (by rw [hl]; exact List.mem_cons_self)
        rw [hl] at hr
        simp only [channelLoop] at hr
        rw [M.bind_def, (hT s p hs hp).2.2 env _ n st hn] at hr
        cases hr
    · obtain ⟨m, rfl⟩ : ∃ m, n = m + 7 := ⟨n - 7, by omega⟩
      rw [hrun m k s st hs hst] at hr
      cases hr
      exact ⟨rfl, rfl⟩
  · intro k s st hs hst
    exact ⟨7, _, hrun 0 k s st hs hst⟩
  · intro s l hl
    by_cases hs : s = []
    · simp [v, hs] at hl
    · simp only [v, if_neg hs, Option.bind_eq_some_iff] at hl
      obtain ⟨p, hp, hl⟩ := hl
      have hm := List.mem_of_find?_eq_some hp
      have hv := List.find?_some hp
      have hr := (hT s p hs hm).2.1 env [] 0 ⟨false, fun _ => none, 0⟩ rfl
      have := elem_nonempty env _ hr hv (hnot p hm)
      obtain ⟨c, h1, h2⟩ := valid_discoveries hv
      rw [h1] at hl
      simp at hl
      rwa [← hl, ← h2]

/-- The setting of a compiled matcher. -/
theorem guarded_of {g : PathEnv} {ts : List GToken} (hts : tokensNow ts = .ok g.tokens) (hclosed : GClosed g) {rank first : Str → Nat}
    (hW : WellGuarded ts rank first) {root : GToken} (hroot : root ∈ ts) {cs : TokenSet} (hcs : ApartChannels cs.list) {d : Nat} {p : Path} {ps : List Path}
    (hm : matcherNow g d root (some cs) = .ok (p, ps)) {order : Nat → List Path} (ho : ∀ k, (order k).Perm ps) :
    Unf g [] root p.element ∧ ∃ v, Guarded g ⟨p, order⟩ v p.deps rank first := by
  obtain ⟨hg, rfl⟩ := TokensOk.of hts
  simp only [matcherNow, Out.bind_eq_ok] at hm
  obtain ⟨p', hp, ps', hps, hx⟩ := hm
  simp at hx
  obtain ⟨rfl, rfl⟩ := hx
  have hpath := forall2_mem (channelPaths_each hps)
  have huniq : ∀ u ∈ g.tokens.list, u.name = root.name → u = root := by
    intro u hu hn
    have h1 := (hg.find u.name u).mpr ⟨hu, rfl⟩
    have h2 := (hg.find u.name root).mpr ⟨hroot, hn.symm⟩
    rw [h1] at h2
    cases h2; rfl
  obtain ⟨h1, h2, h3⟩ := toPath_unf hg hclosed hp huniq
  obtain ⟨v, hv⟩ := channels_answer (ps := ps') (env := ⟨p', order⟩) (fun q hq => by
    obtain ⟨c, hc, hqc⟩ := hpath.2 q hq
    obtain ⟨r, hw, hr⟩ := hcs.1 c hc
    obtain ⟨h1, h2⟩ := ruleChannel_path hr hqc
    exact ⟨_, r, h1, hw, h2⟩) (fun q hq q' hq' hne n1 n2 r1 r2 e1 e2 => by
    obtain ⟨c, hc, hqc⟩ := hpath.2 q hq
    obtain ⟨c', hc', hqc'⟩ := hpath.2 q' hq'
    obtain ⟨r, hw, hr⟩ := hcs.1 c hc
    obtain ⟨r', hw', hr'⟩ := hcs.1 c' hc'
    obtain ⟨_, a2⟩ := ruleChannel_path hr hqc
    obtain ⟨_, b2⟩ := ruleChannel_path hr' hqc'
    rw [a2] at e1
    rw [b2] at e2
    simp [ruleElement] at e1 e2
    rw [← e1.2, ← e2.2]
    refine hcs.2 c hc c' hc' ?_ r r' hr hr'
    rintro rfl
    rw [hqc] at hqc'
    cases hqc'
    exact hne rfl) ho
  refine ⟨h1, v, ⟨hg, hclosed, hv, ?_, hW⟩⟩
  intro e he
  obtain ⟨u, hu, hx⟩ := h3 e he
  rcases hu with hu | rfl
  · exact ⟨u, hu, hx⟩
  · exact ⟨_, hroot, hx⟩

theorem toAST_ends {env : Env} {b : Bool} {s : Str} {st : St} (h : EndsAt (fun n => toToken env n s) st) : EndsAt (fun n => toAST env b n s) st := by
  unfold toAST
  refine EndsAt.bind (F := fun n => toToken env n s) (fun n m hnm => toToken_mono env n m hnm s) (fun _ => Mon.const _) h ?_
  intro n t s1 _
  cases hm : toMistake b t with
  | err => exact ⟨0, _, rfl⟩
  | panic => exact ⟨0, _, rfl⟩
  | ok m =>
    cases m with
    | some m => exact ⟨0, _, rfl⟩
    | none =>
      cases ha : t.toA with
      | err => exact ⟨0, (.err, s1), by simp [M.bind_def, ha]⟩
      | panic => exact ⟨0, (.panic, s1), by simp [M.bind_def, ha]⟩
      | ok a => exact ⟨0, (.ok (.success a), s1), by simp [M.bind_def, ha]⟩

end Verif.Lexer
