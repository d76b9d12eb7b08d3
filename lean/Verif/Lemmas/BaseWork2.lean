import Verif.Lemmas.BaseWork

/-!
# The work of the shipped lexer: the count of the visits
-/

namespace Verif.Base
open Verif.Patterns Verif.Lexer Verif.Cardinality

theorem rule_names : (baseRules.map Prod.fst).Nodup := by decide +kernel

theorem ruleConst_spec {s : String} {c : Str} (h : ruleConst s = some c) : (∀ x ∈ baseRules, x.1 = lit s → x.2 = .constant c) ∧ c ≠ [] := by
  unfold ruleConst at h
  split at h
  · rename_i n c' hf
    cases h
    have hm := List.mem_of_find?_eq_some hf
    have hn := List.find?_some hf
    simp at hn
    refine ⟨?_, baseRules_made _ hm⟩
    intro x hx hxn
    have := List.inj_on_of_nodup_map rule_names hx hm (by rw [hxn]; exact hn.symm)
    rw [this]
  · cases h

theorem unfLines_forall2 {g : PathEnv} {stack : List Str} {parent : Str} : ∀ {ls : List GLine} {xs : List Line}, UnfLines g stack parent ls xs →
    List.Forall₂ (fun l x => UnfLine g stack parent (elementsIn l) l x) ls xs
  | [], _, h => by cases h; exact .nil
  | _ :: _, _, h => by
    cases h with
    | cons _ h2 h3 => exact .cons h2 (unfLines_forall2 h3)

theorem bestLoop_pays2 {W : Nat} {X tgt : Str} {f : Line → M (Option (List BlockMatch))} {vs : List Nat} {ls : List Line}
    (h : List.Forall₂ (fun v l => M.Pays W X tgt v (f l)) vs ls) : ∀ i b, M.Pays W X tgt vs.sum (bestLoop f ls i b) := by
  induction h with
  | nil => intro i b; exact .pure _
  | cons h1 _ ih =>
    intro i b
    rw [List.sum_cons]
    refine .bind h1 fun r => ?_
    cases r <;> exact ih _ _

theorem forall2_comp {α β γ : Type} {R : α → β → Prop} {S : β → γ → Prop} {as : List α} {bs : List β} {cs : List γ} (h : List.Forall₂ R as bs)
    (h' : List.Forall₂ S bs cs) : List.Forall₂ (fun a c => ∃ b, R a b ∧ S b c) as cs := by
  induction h generalizing cs with
  | nil => cases h'; exact .nil
  | cons h1 _ ih =>
    cases h' with
    | cons g1 g2 => exact .cons ⟨_, h1, g1⟩ (ih g2)

theorem unf_lines {rs : RuleSet} {g : PathEnv} {stack : List Str} {t : GToken} {e : Element} (hu : Unf g stack t e) {k : Kind} (hk : TokenIs rs k t) :
    List.Forall₂ (fun sl x => ∃ gl, List.Forall₂ (PieceIs rs) sl gl ∧ UnfLine g stack t.name (elementsIn gl) gl x) (source k) e.must := by
  cases hu with
  | mk h1 h2 h3 h4 h5 => exact forall2_comp hk.2.2 (unfLines_forall2 h3)

section
variable {rs : RuleSet} {ts cs : TokenSet} (h : BaseRead rs ts cs) {env : Env} {v : Str → Option LineMatch} {deps : List Element}
  (H : Guarded { tokens := ts } env v deps brank bfirst)
include h

/-- The token behind a piece. -/
theorem BaseRead.unf_tok {k : Kind} {rep : Rep} {spec : Option (Kind × Nat)} {i : GInstr} (hp : PieceIs rs (.part (.tok k) rep spec) i) {stack : List Str} {parent : Str}
    {n : Nat} {is : GLine} {x : Line} (hx : UnfLine { tokens := ts } stack parent n (i :: is) x) (H : TokensOk { tokens := ts }) :
    ∃ c x', x = .container c :: x' ∧ UnfLine { tokens := ts } stack parent n is x' ∧
      ((k.name ∈ stack ∧ ∃ sp, c = .recursive k.name sp (rep.card.getD .mandatory)) ∨
        (k.name ∉ stack ∧ ∃ el u sp, c = .token el sp (rep.card.getD .mandatory) ∧ (spec = none → sp = []) ∧ u ∈ ts.list ∧ TokenIs rs k u ∧
          Unf { tokens := ts } (k.name :: stack) u el)) := by
  obtain ⟨e, rfl, h1, h2⟩ := hp
  cases hx with
  | elem hc hx =>
    refine ⟨_, _, rfl, hx, ?_⟩
    rw [← h1]
    cases hc with
    | recur g1 g2 g3 g4 g5 => rw [h2] at g1; cases g1; exact .inl ⟨g2, _, rfl⟩
    | replaced _ _ _ g4 => cases g4
    | missing _ _ _ _ _ g6 => cases g6
    | rule g1 => rw [h2] at g1; cases g1
    | declared g1 g2 g3 g4 g5 g6 =>
      rw [h2] at g1
      cases g1
      obtain ⟨hm, hn⟩ := (H.find _ _).mp g5
      obtain ⟨k', hk'⟩ := h.token hm
      have : k' = k := name_inj (hk'.1.symm.trans hn)
      subst this
      refine .inr ⟨g2, _, _, _, rfl, ?_, hm, hk', hn ▸ g6⟩
      rintro rfl
      simp [specsOf, buildSpecifiers, mapOut] at g3
      exact g3

/-- The constant behind a piece. -/
theorem BaseRead.unf_const {s : String} {spec : Option (Kind × Nat)} {i : GInstr} (hp : PieceIs rs (.part (.rule s) .one spec) i) {c : Str} (hs : ruleConst s = some c)
    {stack : List Str} {parent : Str} {n : Nat} {is : GLine} {x : Line} (hx : UnfLine { tokens := ts } stack parent n (i :: is) x) :
    ∃ r x', x = .container (.rule r .mandatory) :: x' ∧ UnfLine { tokens := ts } stack parent n is x' ∧ r.content = .constant c ∧ c ≠ [] := by
  obtain ⟨e, r, rfl, h1, h2, h3⟩ := hp
  obtain ⟨k1, k2⟩ := ruleConst_spec hs
  have hc : r.content = .constant c := by
    obtain ⟨g1, g2⟩ := h.find_rule h3
    have : (r.name, r.content) ∈ baseRules := by rw [← h.rules]; exact List.mem_map_of_mem g1
    exact k1 _ this g2
  cases hx with
  | elem hcc hx =>
    cases hcc with
    | rule g1 =>
      rw [h2] at g1
      cases g1
      exact ⟨_, _, by rw [h1]; rfl, hx, hc, k2⟩
    | recur g1 => rw [h2] at g1; cases g1
    | replaced g1 => rw [h2] at g1; cases g1
    | declared g1 => rw [h2] at g1; cases g1
    | missing g1 => rw [h2] at g1; cases g1

include H

theorem BaseRead.pays {W : Nat} {X tgt : Str} (hc : W = 0 ∨ Costs env deps W X tgt) (n : Nat) : PaysAt env deps W X tgt n :=
  pays_all H.chans.keep hc (h.fetch_loud H) n

theorem BaseRead.dead (d : Nat) : ∀ {k : Kind} {pre tgt : Str}, deadK d k pre = true → pre ++ tgt ≠ [] → Quiet env (pre ++ tgt) → ∀ {stack : List Str} {t : GToken}
    {e : Element}, Unf { tokens := ts } stack t e → t ∈ ts.list → TokenIs rs k t → Dead env deps (pre ++ tgt) e := by
  induction d with
  | zero => intro k pre tgt hd; simp [deadK] at hd
  | succ d ih =>
    intro k pre tgt hd hne hq stack t e hu ht hk
    have hl := h.loud H hu ht
    simp only [deadK, List.all_eq_true] at hd
    refine dead_elem (unf_notNil hu hk.2.1) ?_ ?_
    · intro n l st r st' hm hst hr
      exact ((h.pays H (W := 0) (X := []) (tgt := []) (.inl rfl) n).line l _ (hl.lines l (by simp [hm])) _ _ _ hst hr).1
    · intro x hx
      obtain ⟨sl, hsl, gl, hp, hxl⟩ := (forall2_mem (unf_lines hu hk)).2 x hx
      have hd := hd sl hsl
      have tok : ∀ k' rep spec l', sl = .part (.tok k') rep spec :: l' → (rep.card.getD .mandatory).isValid 0 = false → deadK d k' pre = true →
          ∃ c is, x = .container c :: is ∧ ∀ n st y st', st.canPrefix = false →
            containerToBlockMatch env n c deps (pre ++ tgt) true true st = some (.ok y, st') → ∀ b, y = some b → b.isValid = false := by
        intro k' rep spec l' hsl' hcard hd'
        subst hsl'
        cases hp with
        | cons hp1 hp2 =>
          obtain ⟨c, x', rfl, _, hc⟩ := h.unf_tok hp1 hxl H.tokens
          refine ⟨c, x', rfl, ?_⟩
          intro n st y st' hst hr b hb
          rcases hc with ⟨_, sp, rfl⟩ | ⟨_, el, u, sp, rfl, _, hum, huk, hue⟩
          · obtain ⟨m, a, rfl, g1, rfl⟩ := block_quiet hne hq hst hr
            cases m with
            | zero => simp [containerToMatch] at g1
            | succ m =>
              unfold containerToMatch at g1
              rw [M.bind_some_ok (M.get_run _)] at g1
              split at g1
              · rw [M.bind_some_ok (M.set_run _ _)] at g1
                simp at g1
                rw [← g1.1] at hb
                simp at hb
              · rw [M.bind_some_ok (M.set_run _ _)] at g1
                obtain ⟨el, s1, g2, g3⟩ := M.bind_ok.mp g1
                simp at g2
                obtain ⟨g2, rfl⟩ := g2
                obtain ⟨y, s2, g4, g5⟩ := M.bind_ok.mp g3
                obtain ⟨u, hum, hun, hue⟩ := H.fetched g2
                obtain ⟨k2, hk2⟩ := h.token hum
                have : k2 = k' := name_inj (hk2.1.symm.trans hun)
                subst this
                have := dead_token (ih hd' hne hq hue hum hk2) (by exact hst) g4
                subst this
                simp at g5
                rw [← g5.1] at hb
                simp at hb
                rw [← hb]
                simp [BlockMatch.isValid, BlockContent.isValid, wrapToken, TokenMatch.result, TokenResult.card, hcard, Match.isValid, TokenMatch.isValid,
                  TokenResult.isValid]
          · obtain ⟨b', rfl, hv⟩ := dead_block (ih hd' hne hq hue hum huk) hcard hne hq hst hr
            cases hb
            exact hv
      split at hd
      · rename_i s spec l'
        split at hd
        · rename_i c hc
          cases hp with
          | cons hp1 hp2 =>
            obtain ⟨r, x', rfl, _, hrc, hc0⟩ := h.unf_const hp1 hc hxl
            refine ⟨_, x', rfl, ?_⟩
            intro n st y st' hst hr b hb
            have hnp : ¬ c <+: pre ++ tgt := by
              intro hcp
              simp only [Bool.and_eq_true, Bool.not_eq_true'] at hd
              rcases List.prefix_or_prefix_of_prefix hcp (List.prefix_append pre tgt) with hx | hx
              · exact absurd (isPrefixOf_iff.mpr hx) (by simp [hd.1])
              · exact absurd (isPrefixOf_iff.mpr hx) (by simp [hd.2])
            obtain ⟨b', rfl, hv⟩ := (block_constant hrc hc0 hne hq hst hr).2 hnp
            cases hb
            exact hv
        · cases hd
      · exact tok _ _ _ _ rfl (by decide) hd
      · exact tok _ _ _ _ rfl (by decide) hd
      · cases hd
end

end Verif.Base
