import Verif.Lemmas.Derivation
import Verif.Lemmas.Suites

namespace Verif.Lexer
open Verif.Patterns Verif.Cardinality

theorem Leads.stack {g : PathEnv} {stack : List Str} {t : GToken} (h : Leads g stack t) : StackOk g stack := by
  intro n hn
  obtain ⟨u, h1, h2, _⟩ := h n hn
  exact ⟨u, h1, h2⟩

theorem prefix_drop {d s : Str} (h : d <+: s) : s = d ++ s.drop d.length := by
  obtain ⟨r, rfl⟩ := h
  simp

theorem drop_small {s : Str} (n : Nat) (h : s.length < 2 ^ 64) : (s.drop n).length < 2 ^ 64 := by
  simp only [List.length_drop]; omega

section
variable {g : PathEnv} (hg : TokensOk g) (hclosed : GClosed g) {chans : List Path} {cs : List GToken}
  (hchans : ∀ ch ∈ chans, ∃ t ∈ cs, Unf g [] t ch.element ∧ Resolves g ch.deps ∧ RulesOk t)
  (hrules : ∀ t ∈ g.tokens.list, RulesOk t)
include hg hclosed hchans hrules

local notation "TT" => Tree g.tokens.list cs (GivesUp g.tokens.list)
local notation "TTs" => Trees g.tokens.list cs (GivesUp g.tokens.list)
local notation "TL" => TreeLine g.tokens.list cs (GivesUp g.tokens.list)
local notation "TG" => TreeGap g.tokens.list cs (GivesUp g.tokens.list)
local notation "CO" => Core g.tokens.list cs (GivesUp g.tokens.list)

mutual
theorem token_tree : (tok : Token) → ∀ {deps e s stack t a}, tok.Conforms chans deps e s → tok.Tame → tok.isValid = true → tok.toA = .ok a →
    s.length < 2 ^ 64 → Resolves g deps → Leads g stack t → Unf g stack t e → RulesOk t → TT t s a (fun n => tok.mustCount n)
  | .mk _ none, _, _, _, _, _, _, _, _, hv, _, _, _, _, _, _ => by simp [Token.isValid] at hv
  | .mk _ (some (.mk (.mk _ _) (some _))), _, _, _, _, _, _, _, ht, _, _, _, _, _, _, _ => by
    simp [Token.Tame] at ht
  | .mk name (some (.mk (.mk i l) none)), deps, e, s, stack, t, a, hc, ht, hv, ha, hs, hr, hl, hu, hk => by
    obtain ⟨_, htl, _⟩ := ht
    simp only [Token.isValid, TokenContent.isValid, LineMatch.isValid] at hv
    obtain ⟨h0, line, h1, h2, h3⟩ := hc
    obtain ⟨h4, h5⟩ := h3 hv
    simp only [Token.toA, Out.bind_eq_ok] at ha
    obtain ⟨ms, ha1, ha⟩ := ha
    split at ha
    · cases ha
    · simp at ha
      subst ha
      have htx := blocksToA_text l htl _ ha1
      cases hu with
      | mk k1 k2 k3 k4 k5 =>
        obtain ⟨gl, q1, q2⟩ := unfLines_index k3 h1
        rw [h0]
        refine .mk q1 (by rw [htx]; exact h4) ?_
        simp only [Token.mustCount]
        exact blocks_tree l h5 htl hv ha1 hs hr hl q2 (List.mem_of_getElem? q1) (fun _ h => h) hk
theorem blocks_tree : (l : List BlockMatch) → ∀ {deps x s stack t ms parent n gl l0}, BlocksConform chans deps x s l → BlocksTame l → blocksValid l = true →
    blocksToA l = .ok ms → s.length < 2 ^ 64 → Resolves g deps → Leads g stack t → UnfLine g stack parent n gl x → l0 ∈ t.must →
    (∀ i ∈ gl, i ∈ l0) → RulesOk t → TL t gl s ms (fun n => blocksCount n l)
  | [], deps, x, s, stack, t, ms, parent, n, gl, l0, hc, ht, hv, ha, hs, hr, hl, hu, hl0, hsub, hk => by
    simp [blocksToA] at ha
    subst ha
    simp only [blocksCount]
    rcases nextContainer_unf hu with ⟨_, h⟩ | ⟨c, rest, e, is, h1, h2, h3, h4, h5, h6⟩
    · exact h ..
    · apply h6
      apply TreeLine.cut
      have := hc c rest h1
      cases h2 with
      | recur a m _ _ _ =>
        obtain ⟨u, u1, u2, u3⟩ := hl _ m
        exact .inr ⟨u, u1, ⟨_, u2 ▸ a⟩, u3⟩
      | replaced => exact .inl ⟨this.1, allows_zero this.2⟩
      | declared => exact .inl ⟨this.1, allows_zero this.2⟩
      | missing => exact .inl ⟨this.1, allows_zero this.2⟩
      | rule => exact .inl ⟨this.1, allows_zero this.2⟩
  | b :: bs, deps, x, s, stack, t, ms, parent, n, gl, l0, hc, ht, hv, ha, hs, hr, hl, hu, hl0, hsub, hk => by
    obtain ⟨c, rest, h1, h2, h3, h4⟩ := hc
    simp only [blocksValid, Bool.and_eq_true] at hv
    simp only [blocksToA, Out.bind_eq_ok] at ha
    obtain ⟨ms1, ha1, ms2, ha2, ha⟩ := ha
    simp at ha
    subst ha
    rcases nextContainer_unf hu with ⟨h, _⟩ | ⟨c', rest', e, is, k1, k2, k3, k4, k5, k6⟩
    · rw [h1] at h; cases h
    · rw [h1] at k1
      simp at k1
      obtain ⟨rfl, rfl⟩ := k1
      apply k6
      obtain ⟨gp, core, s', rfl, q1, q2, q3⟩ := block_tree b h2 ht.1 hv.1 h3 ha1 hs hr hl k2 hl0 (hsub _ k4) hk
      have htx := b.toA_text ht.1 _ ha1
      have hpre := prefix_drop h3
      have hrest := blocks_tree bs h4 ht.2 hv.2 ha2 (drop_small _ hs) hr hl k3 hl0 (fun i hi => hsub _ (k5 i hi)) hk
      have := Core.line (t := t) q2 q1 q3 (rest := s.drop b.discoveries.length) (by
        rw [matchesDiscovery_append] at htx
        rw [q1, ← htx, List.append_assoc] at hpre
        have := List.append_cancel_left hpre
        rw [this]
        congr 1
        rw [← htx, q1]) hrest
      simpa only [blocksCount, hv.1, if_true] using this
theorem block_tree : (b : BlockMatch) → ∀ {deps c s stack t a parent n e l0}, b.Conforms chans deps c s → b.Tame → b.isValid = true → b.discoveries <+: s →
    b.toA = .ok a → s.length < 2 ^ 64 → Resolves g deps → Leads g stack t → UnfC g stack parent n e c → l0 ∈ t.must → .element e ∈ l0 → RulesOk t →
    ∃ gp core s', a = gp ++ core ∧ s = matchesDiscovery gp ++ s' ∧ TG s gp ∧ CO e s' core (fun n => b.countIn n)
  | .mk none x, deps, c, s, stack, t, a, parent, n, e, l0, hc, ht, hv, hd, ha, hs, hr, hl, hu, hl0, he, hk => by
    simpa only [BlockMatch.countIn] using content_tree x hc ht hv hd ha hs hr hl hu hl0 he hk
  | .mk (some (.mk i p)) x, deps, c, s, stack, t, a, parent, n, e, l0, hc, ht, hv, hd, ha, hs, hr, hl, hu, hl0, he, hk => by
    obtain ⟨⟨ch, h1, h2, h3⟩, h4, h5⟩ := hc
    simp only [BlockMatch.toA, Out.bind_eq_ok] at ha
    obtain ⟨y, hy, z, hz, ha⟩ := ha
    simp at ha
    subst ha
    obtain ⟨t1, t2, t3⟩ := ht
    obtain ⟨gp, core, s', q0, q1, q2, q3⟩ := content_tree x h5 t3 hv (by
      obtain ⟨r, rfl⟩ := hd
      simp [BlockMatch.discoveries]) hz (drop_small _ hs) hr hl hu hl0 he hk
    subst q0
    have hpd : (LineMatch.mk i p).discoveries = blocksDiscoveries p := by simp [LineMatch.discoveries, t2]
    rw [hpd] at h4 q1 q2
    obtain ⟨line, m1, m2, m3⟩ := h3
    obtain ⟨m4, m5⟩ := m3 t2
    have htx := blocksToA_text p t1 _ hy
    obtain ⟨ct, c1, c2, c3, c4⟩ := hchans ch h1
    have hpre := prefix_drop h4
    cases hch : ch.element with
    | mk nm must nt =>
      rw [hch] at c2 m1
      cases c2 with
      | mk k1 k2 k3 k4 k5 =>
        obtain ⟨gl, w1, w2⟩ := unfLines_index k3 m1
        have := blocks_tree p m5 t1 t2 hy hs c3 (stack := []) (t := ct) (by simp [Leads]) w2 (List.mem_of_getElem? w1) (fun _ h => h) c4
        refine ⟨y ++ gp, core, s', by simp, ?_, .cons c1 (List.mem_of_getElem? w1) (by rw [htx]; exact m4) this ?_ q2, ?_⟩
        · rw [matchesDiscovery_append, htx, List.append_assoc, ← q1]; exact hpre
        · rw [htx]; exact hpre
        · simpa only [BlockMatch.countIn] using q3
theorem content_tree : (b : BlockContent) → ∀ {deps c s stack t a parent n e l0}, b.Conforms chans deps c s → b.Tame → b.isValid = true → b.discoveries <+: s →
    b.toA = .ok a → s.length < 2 ^ 64 → Resolves g deps → Leads g stack t → UnfC g stack parent n e c → l0 ∈ t.must → .element e ∈ l0 → RulesOk t →
    ∃ gp core s', a = gp ++ core ∧ s = matchesDiscovery gp ++ s' ∧ TG s gp ∧ CO e s' core (fun n => b.countIn n)
  | .next _, _, _, _, _, _, _, _, _, _, _, _, _, hv, _, _, _, _, _, _, _, _, _ => by simp [BlockContent.isValid] at hv
  | .block b, deps, c, s, stack, t, a, parent, n, e, l0, hc, ht, hv, hd, ha, hs, hr, hl, hu, hl0, he, hk => by
    simpa only [BlockContent.countIn] using block_tree b hc ht hv hd ha hs hr hl hu hl0 he hk
  | .container m, deps, c, s, stack, t, a, parent, n, e, l0, hc, ht, hv, hd, ha, hs, hr, hl, hu, hl0, he, hk => by
    simp only [BlockContent.toA, Out.bind_eq_ok] at ha
    obtain ⟨y, hy, ha⟩ := ha
    simp at ha
    subst ha
    exact ⟨[], y.toList, s, rfl, rfl, .nil, match_tree m hc.2 ht hv hd hy hs hr hl hu hl0 he hk⟩
theorem match_tree : (m : Match) → ∀ {deps c s stack t o parent n e l0}, m.Conforms chans deps c s → m.Tame → m.isValid = true → m.discoveries <+: s →
    m.toA = .ok o → s.length < 2 ^ 64 → Resolves g deps → Leads g stack t → UnfC g stack parent n e c → l0 ∈ t.must → .element e ∈ l0 → RulesOk t →
    CO e s o.toList (fun n => (BlockContent.container m).countIn n)
  | .line _, _, _, _, _, _, _, _, _, _, _, _, ht, _, _, _, _, _, _, _, _, _, _ => ht.elim
  | .skipRule r, deps, c, s, stack, t, o, parent, n, e, l0, hc, ht, hv, hd, ha, hs, hr, hl, hu, hl0, he, hk => by
    simp [Match.toA] at ha
    subst ha
    obtain ⟨rfl, h⟩ := hc
    have := unfC_card hu
    simp [PContainer.cardinality] at this
    simp only [BlockContent.countIn]
    exact .absent (by rw [GElement.times, ← this]; exact allows_zero h)
  | .skipToken r, deps, c, s, stack, t, o, parent, n, e, l0, hc, ht, hv, hd, ha, hs, hr, hl, hu, hl0, he, hk => by
    simp [Match.toA] at ha
    subst ha
    obtain ⟨_, card, h1, h⟩ := hc
    have := unfC_card hu
    rw [h1] at this
    simp at this
    simp only [BlockContent.countIn]
    exact .absent (by rw [GElement.times, ← this]; exact allows_zero h)
  | .rule r, deps, c, s, stack, t, o, parent, n, e, l0, hc, ht, hv, hd, ha, hs, hr, hl, hu, hl0, he, hk => by
    obtain ⟨rfl, _, h2⟩ := hc
    simp only [Match.isValid, RuleMatch.isValid, Bool.and_eq_true] at hv
    have hcard := unfC_card hu
    simp [PContainer.cardinality] at hcard
    have hcon : e.content = .rule r.rule := by
      generalize r.card = k at hu
      cases hu; assumption
    have hfinds := h2 (hk l0 hl0 e he r.rule hcon)
    have htexts := hfinds.results
    have htx := RuleTame.text ht ha
    have hlen : r.results.length ≤ r.discoveries.length := by
      have := length_le_flatten (r.results.map RuleResult.content) (by
        intro w hw
        obtain ⟨y, hy, rfl⟩ := List.mem_map.1 hw
        exact RuleText_nonempty (htexts y hy))
      simpa [RuleMatch.discoveries] using this
    have hle : r.discoveries.length ≤ s.length := hd.length_le
    have hall : SpecAllows e.times r.results.length := by
      rw [GElement.times, ← hcard]
      exact allows_of_valid hv.1 (by omega)
    simp only [BlockContent.countIn]
    cases hres : r.results with
    | nil =>
      have hx : o = none := by
        have : aRuleResult r = .ok none := by unfold aRuleResult; simp [hres]
        simp [Match.toA, aRuleMatch, this] at ha
        exact ha.symm
      subst hx
      have h0 : (fun n => if r.rule.name = n then r.amount else 0) = fun _ => 0 := by
        funext n; simp [RuleMatch.amount, hres]
      rw [h0]
      rw [hres] at hall
      exact .absent hall
    | cons y ys =>
      have hne : r.discoveries ≠ [] := by
        intro h
        rw [h, hres] at hlen
        simp at hlen
      cases o with
      | none => rw [Option.toList] at htx; simp [matchesDiscovery] at htx; exact absurd htx hne
      | some m =>
        obtain ⟨x, rfl⟩ : ∃ x, m = .rule r.rule.name x := by
          simp only [Match.toA, aRuleMatch, Out.bind_eq_ok] at ha
          obtain ⟨z, _, ha⟩ := ha
          cases z with
          | none => simp at ha
          | some z =>
            dsimp only at ha
            split at ha
            · cases ha
            · simp at ha; exact ⟨z, ha.symm⟩
        simp only [Option.toList, matchesDiscovery, AMatch.discovery, List.append_nil] at htx
        have h0 : (fun n => if r.rule.name = n then r.amount else 0) = fun n => if r.rule.name = n then (r.results.map RuleResult.content).length else 0 := by
          funext n; simp [RuleMatch.amount]
        rw [h0]
        refine .rule (rest := s.drop r.discoveries.length) hcon (by simp [hres]) ?_ (by simpa using hall) htx ?_
        · exact hfinds
        · exact prefix_drop hd
  | .token (.mk name (.mk input card l) specs), deps, c, s, stack, t, o, parent, n, e, l0, hc, ht, hv, hd, ha, hs, hr, hl, hu, hl0, he, hk => by
    obtain ⟨el, card', hcc, rfl, rfl, rfl, _, htok⟩ := hc
    simp only [Match.isValid, TokenMatch.isValid, TokenResult.isValid, Bool.and_eq_true, specsValid] at hv
    obtain ⟨hsv, hv1, hv2⟩ := hv
    have hd : tokensDiscoveries l <+: input := hd
    have htame : TokensTame l := ht
    have hcard : card = e.times := by
      have := unfC_card hu
      rcases hcc with rfl | ⟨rfl, _⟩ <;> simpa [PContainer.cardinality, GElement.times] using this
    -- the token of the grammar
    obtain ⟨u, gs, stack', u1, u2, u3, u4, u5, u6⟩ : ∃ u gs stack', u ∈ g.tokens.list ∧ e.content = .token u.name gs ∧ u.name = el.name ∧
        buildSpecifiers gs = .ok specs ∧ Leads g stack' u ∧ Unf g stack' u el := by
      rcases hcc with rfl | ⟨rfl, hf⟩
      · cases hu with
        | replaced _ _ _ h => rw [hclosed.1] at h; simp at h
        | missing _ _ _ _ _ h => rw [hclosed.2] at h; simp at h
        | declared a m b r f u =>
          obtain ⟨q1, q2⟩ := (hg.find _ _).mp f
          refine ⟨_, _, _, q1, q2 ▸ a, (unf_name u).symm, b, ?_, u⟩
          intro n hn
          rcases List.mem_cons.mp hn with rfl | hn
          · exact ⟨_, q1, rfl, .refl⟩
          · obtain ⟨v, v1, v2, v3⟩ := hl n hn
            exact ⟨v, v1, v2, .head ⟨q1, l0, hl0, e, he, _, q2 ▸ a⟩ v3⟩
      · cases hu with
        | recur a m _ b _ =>
          obtain ⟨u, k1, k2, _⟩ := hl _ m
          obtain ⟨e', k3, k4⟩ := hr u k1
          rw [k2, hf] at k3
          simp at k3
          subst k3
          exact ⟨u, _, [], k1, k2 ▸ a, k2, b, by simp [Leads], k4⟩
    have hlen : input.length < 2 ^ 64 := hs
    simp only [BlockContent.countIn]
    cases l with
    | nil =>
      simp [Match.toA, TokenMatch.toA] at ha
      subst ha
      have h0 : (fun n => if el.name = n then ([] : List Token).length else 0) = fun _ => 0 := by funext n; simp
      rw [h0]
      exact .absent (by rw [← hcard]; exact allows_zero (by simpa using hv1))
    | cons tok l =>
      obtain ⟨x, hx, xs, hxs, ha⟩ : ∃ x, tok.toA = .ok x ∧ ∃ xs, tokensToA l = .ok xs ∧ o = some (.token el.name (x :: xs)) := by
        simp only [Match.toA, TokenMatch.toA, Out.bind_eq_ok] at ha
        obtain ⟨x, hx, xs, hxs, ha⟩ := ha
        split at ha
        · cases ha
        · simp at ha; exact ⟨x, hx, xs, hxs, ha.symm⟩
      subst ha
      have hto : tokensToA (tok :: l) = .ok (x :: xs) := by simp [tokensToA, hx, hxs]
      have htx := tokensToA_text (tok :: l) htame _ hto
      have hlen2 : (x :: xs).length = (tok :: l).length := by
        have : ∀ (l : List Token) (as : List AToken), tokensToA l = .ok as → as.length = l.length := by
          intro l
          induction l with
          | nil => intro as h; simp [tokensToA] at h; subst h; rfl
          | cons t ts ih =>
            intro as h
            simp only [tokensToA, Out.bind_eq_ok] at h
            obtain ⟨y, _, ys, hys, h⟩ := h
            simp at h
            subst h
            simp [ih _ hys]
        exact this _ _ hto
      have htrees := tokens_tree (tok :: l) htok htame hto hs hr u5 u6 (hrules u u1)
      obtain ⟨b1, b2⟩ := trees_count htrees
      have hle : (aTokensDiscovery (x :: xs)).length ≤ input.length := by rw [htx]; exact hd.length_le
      rw [← hlen2, ← u3]
      refine .token (rest := input.drop (tokensDiscoveries (tok :: l)).length) u2 u1 (by simp) ?_ htrees ?_ ?_
      · rw [← hcard]
        refine allows_of_valid (by rw [hlen2]; exact hv1) (by omega)
      · intro sp hsp
        have := List.all_eq_true.1 hsv _ (buildSpecifiers_mem u4 hsp)
        have hb := b1 sp.content.name
        exact allows_of_valid (k := .specific sp.card) this (by omega)
      · rw [htx]; exact prefix_drop hd
theorem tokens_tree : (l : List Token) → ∀ {deps e s stack t as}, TokensConform chans deps e s l → TokensTame l → tokensToA l = .ok as →
    s.length < 2 ^ 64 → Resolves g deps → Leads g stack t → Unf g stack t e → RulesOk t → TTs t s as (fun n => tokensCount n l)
  | [], deps, e, s, stack, t, as, hc, ht, ha, hs, hr, hl, hu, hk => by
    simp [tokensToA] at ha
    subst ha
    simp only [tokensCount]
    exact .nil
  | tok :: l, deps, e, s, stack, t, as, hc, ht, ha, hs, hr, hl, hu, hk => by
    obtain ⟨h1, h2, h3, h4⟩ := hc
    obtain ⟨t1, t2, t3⟩ := ht
    simp only [tokensToA, Out.bind_eq_ok] at ha
    obtain ⟨x, hx, xs, hxs, ha⟩ := ha
    simp at ha
    subst ha
    have htx := (tok.toA_text t1 t2 _ hx).1
    have hpre := prefix_drop h3
    have a1 := token_tree tok h1 t1 t2 hx hs hr hl hu hk
    have a2 := tokens_tree l h4 t3 hxs (drop_small _ hs) hr hl hu hk
    have := Trees.cons (by rw [htx]; exact hpre) a1 a2
    simpa only [tokensCount, t2, if_true] using this
end
end

end Verif.Lexer
