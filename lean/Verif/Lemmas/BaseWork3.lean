import Verif.Lemmas.BaseWork2

/-!
# The work of the shipped lexer: the count of the visits is paid
-/

namespace Verif.Base
open Verif.Patterns Verif.Lexer Verif.Cardinality

section
variable {rs : RuleSet} {ts cs : TokenSet} (h : BaseRead rs ts cs) {env : Env} {v : Str → Option LineMatch} {deps : List Element}
  (H : Guarded { tokens := ts } env v deps brank bfirst) {X : Kind} {W : Nat} {tgt : Str} (hcost : W = 0 ∨ Costs env deps W X.name tgt)
include h H hcost

theorem BaseRead.loud_pays {n : Nat} {x : Line} (hx : LoudLine x) (rem : Str) (acc : List BlockMatch) :
    M.Pays W X.name tgt 0 (lineLoop (fun c rem ch next => containerToBlockMatch env n c deps rem ch next) x true true rem acc) := by
  by_cases hsw : Instruction.channelSwitch ∈ x
  · refine lineLoop_rules_pays _ (fun c hc r a b => ?_) _ _ _ _
    obtain ⟨r', k, rfl⟩ := hx.2 hsw c hc
    exact (h.pays H hcost n).rblock _ _ _ _ _
  · exact lineLoop_loud_pays _ hsw (fun c hc r => (h.pays H hcost n).block _ _ (hx.1 c hc)) _ _

theorem BaseRead.line_pays (htgt : tgt ≠ []) {stack : List Kind} {parent : Str} {N : Nat} {ref : Kind → Str → Nat} {n : Nat}
    (href : ∀ k pre c, (∀ p, p <:+ pre → Quiet env (p ++ tgt)) → (k ∈ stack ∧ (∃ sp card, c = .recursive k.name sp card) ∨
        k ∉ stack ∧ ∃ el u sp card, c = .token el sp card ∧ u ∈ ts.list ∧ TokenIs rs k u ∧ Unf { tokens := ts } (k.name :: stack.map Kind.name) u el) →
      M.Pays W X.name tgt (ref k pre) (containerToBlockMatch env n c deps (pre ++ tgt) true true)) (sl : List Piece) :
    ∀ (gl : GLine) (x : Line), List.Forall₂ (PieceIs rs) sl gl → UnfLine { tokens := ts } (stack.map Kind.name) parent N gl x → LoudLine x →
      ∀ pre acc, (∀ p, p <:+ pre → Quiet env (p ++ tgt)) →
      M.Pays W X.name tgt (lineCnt stack ref sl pre)
        (lineLoop (fun c rem ch next => containerToBlockMatch env n c deps rem ch next) x true true (pre ++ tgt) acc) := by
  have hin : ∀ k : Kind, k.name ∈ stack.map Kind.name ↔ k ∈ stack := by
    intro k
    constructor
    · intro hk
      obtain ⟨k', h1, h2⟩ := List.mem_map.mp hk
      rwa [← name_inj h2]
    · exact List.mem_map_of_mem
  induction sl with
  | nil => intro gl x hp hx hl pre acc hq; exact h.loud_pays H hcost hl _ _
  | cons q sl ih =>
    intro gl x hp hx hl pre acc hq
    cases hp with
    | cons hp1 hp2 =>
    cases q with
    | switch => exact h.loud_pays H hcost hl _ _
    | part s rep spec =>
      have tail : ∀ c x', x = .container c :: x' → LoudLine x' := by
        rintro c x' rfl
        exact ⟨fun c hc => hl.1 c (by simp [hc]), fun h1 c hc => hl.2 (by simp [h1]) c (by simp [hc])⟩
      cases s with
      | rule s =>
        cases rep with
        | one =>
          simp only [lineCnt]
          cases hc : ruleConst s with
          | none => exact h.loud_pays H hcost hl _ _
          | some c =>
            dsimp only
            split
            · rename_i hpre
              have hpre := isPrefixOf_iff.mp hpre
              obtain ⟨r, x', rfl, hx', hrc, hc0⟩ := h.unf_const hp1 hc hx
              have hne : pre ++ tgt ≠ [] := by simp [htgt]
              simp only [lineLoop]
              refine (M.Pays.bind_post (v := 0) (w := lineCnt stack ref sl (pre.drop c.length)) ((h.pays H hcost n).rblock _ _ _ _ _)
                fun st a st' hst e => ?_).le (by omega)
              obtain ⟨b, rfl, hv, hd⟩ := (block_constant hrc hc0 hne (hq pre (List.suffix_refl _)) hst e).1 (hpre.trans (List.prefix_append _ _))
              simp only [hv, hd, Bool.not_true, Bool.false_eq_true, if_false]
              have hp' : c.isPrefixOf (pre ++ tgt) = true := isPrefixOf_iff.mpr (hpre.trans (List.prefix_append _ _))
              simp only [hp', Bool.not_true, Bool.false_eq_true, if_false, if_true]
              rw [replaceFirst_prefix (isPrefixOf_iff.mp hp'), List.drop_append_of_le_length hpre.length_le]
              exact ih _ _ hp2 hx' (tail _ _ rfl) _ _ (fun p hp => hq p (hp.trans (List.drop_suffix _ _)))
            · exact h.loud_pays H hcost hl _ _
        | opt => exact h.loud_pays H hcost hl _ _
        | plus => exact h.loud_pays H hcost hl _ _
        | star => exact h.loud_pays H hcost hl _ _
        | times m => exact h.loud_pays H hcost hl _ _
      | tok k =>
        obtain ⟨c, x', rfl, hx', hc⟩ := h.unf_tok hp1 hx H.tokens
        rw [hin] at hc
        simp only [lineCnt, lineLoop]
        have hne : pre ++ tgt ≠ [] := by simp [htgt]
        have hqp := hq pre (List.suffix_refl _)
        refine M.Pays.bind_post (href k pre c hq ?_) fun st a st' hst e => ?_
        · rcases hc with ⟨h1, sp, rfl⟩ | ⟨h1, el, u, sp, rfl, _, h2, h3, h4⟩
          · exact .inl ⟨h1, _, _, rfl⟩
          · exact .inr ⟨h1, _, _, _, _, rfl, h2, h3, h4⟩
        · split
          · rename_i hd
            obtain ⟨rfl, rfl, hk, hd⟩ := hd
            rcases hc with ⟨h1, _⟩ | ⟨h1, el, u, sp, rfl, hsp, h2, h3, h4⟩
            · exact absurd h1 hk
            · rw [hsp rfl] at e
              obtain ⟨b, rfl, hv, hdis⟩ := dead_block_opt (h.dead H 8 hd hne hqp h4 h2 h3) (by decide) hne hqp hst e
              simp only [hv, hdis, Bool.not_true, Bool.false_eq_true, if_false]
              have hp' : ([] : Str).isPrefixOf (pre ++ tgt) = true := by simp
              simp only [hp', Bool.not_true, Bool.false_eq_true, if_false, if_true]
              rw [replaceFirst_prefix (isPrefixOf_iff.mp hp')]
              exact ih _ _ hp2 hx' (tail _ _ rfl) _ _ hq
          · cases a with
            | none => exact .pure _
            | some b =>
              dsimp only
              split
              · exact .pure _
              · split
                · exact .pure _
                · exact h.loud_pays H hcost (tail _ _ rfl) _ _

/-- The reading of a token pays for the visits which are counted. -/
theorem BaseRead.cnt_pays (htgt : tgt ≠ []) (d : Nat) : ∀ {stack : List Kind} {k : Kind} {pre : Str}, (∀ p, p <:+ pre → Quiet env (p ++ tgt)) → ∀ {t : GToken}
    {e : Element}, Unf { tokens := ts } (stack.map Kind.name) t e → t ∈ ts.list → TokenIs rs k t → ∀ n,
      M.Pays W X.name tgt (cnt X d stack k pre) (elementToToken env n e deps (pre ++ tgt) true) := by
  induction d with
  | zero => intro stack k pre hq t e hu ht hk n; exact (h.pays H hcost n).elem _ _ (h.loud H hu ht)
  | succ d ih =>
    intro stack k pre hq t e hu ht hk n
    have hl := h.loud H hu ht
    have hnot := unf_notNil hu hk.2.1
    cases n with
    | zero => exact .outOfFuel
    | succ n =>
      simp only [elementToToken]
      refine .bind0 ?_ fun c => ?_
      · cases n with
        | zero => exact .outOfFuel
        | succ n =>
          simp only [elementToTokenContent, hnot, List.isEmpty_nil, if_true]
          refine .bind0 ?_ fun m => ?_
          · cases n with
            | zero => exact .outOfFuel
            | succ n =>
              simp only [bestLineToMatches]
              refine .bind0 ?_ fun b => .pure _
              simp only [cnt]
              refine bestLoop_pays2 ?_ _ _
              rw [List.forall₂_map_left_iff]
              have key := unf_lines hu hk
              have key' : List.Forall₂ (fun sl x => x ∈ e.must ∧ ∃ gl, List.Forall₂ (PieceIs rs) sl gl ∧
                  UnfLine { tokens := ts } (stack.map Kind.name) t.name (elementsIn gl) gl x) (source k) e.must := by
                generalize source k = ss at key
                have gen : ∀ {ss : List (List Piece)} {xs : List Lexer.Line}, List.Forall₂ (fun sl x => ∃ gl, List.Forall₂ (PieceIs rs) sl gl ∧
                    UnfLine { tokens := ts } (stack.map Kind.name) t.name (elementsIn gl) gl x) ss xs → (∀ x ∈ xs, x ∈ e.must) →
                    List.Forall₂ (fun sl x => x ∈ e.must ∧ ∃ gl, List.Forall₂ (PieceIs rs) sl gl ∧
                    UnfLine { tokens := ts } (stack.map Kind.name) t.name (elementsIn gl) gl x) ss xs := by
                  intro ss xs hf
                  induction hf with
                  | nil => intro _; exact .nil
                  | cons h1 _ ih => intro hm; exact .cons ⟨hm _ (by simp), h1⟩ (ih fun x hx => hm x (by simp [hx]))
                exact gen key fun _ hx => hx
              refine key'.imp ?_
              rintro sl x ⟨hxm, gl, hp, hx⟩
              cases n with
              | zero => exact .outOfFuel
              | succ n =>
                simp only [lineToMatches]
                refine h.line_pays H hcost htgt ?_ sl gl x hp hx (hl.lines x (by simp [hxm])) pre [] hq
                intro k' pre' c hq' hc
                have hne : pre' ++ tgt ≠ [] := by simp [htgt]
                refine block_quiet_pays hne (hq' pre' (List.suffix_refl _)) fun m => ?_
                cases m with
                | zero => exact .outOfFuel
                | succ m =>
                rcases hc with ⟨hk', sp, card, rfl⟩ | ⟨hk', el, u, sp, card, rfl, hum, huk, hue⟩
                · simp only [hk', if_true]
                  refine (visit_pays hcost (fun e he => (h.pays H hcost m).tok _ _ _ _ (h.fetch_loud H _ _ he))).le ?_
                  by_cases hx : k' = X ∧ pre' = []
                  · obtain ⟨rfl, rfl⟩ := hx
                    simp
                  · simp [hx]
                · simp only [hk', if_false, containerToMatch]
                  refine .bind0 ?_ fun _ => .pure _
                  cases m with
                  | zero => exact .outOfFuel
                  | succ m =>
                    simp only [tokenToTokenMatch]
                    refine .bind0 (tokenLoop_pays (fun r => (h.pays H hcost m).elem _ _ (h.loud H hue hum)) _ _ _ _ _ ?_) fun _ => .lift _
                    exact ih (stack := k' :: stack) hq' hue hum huk m
          · cases m <;> exact .pure _
      · split
        · exact .lift _
        · exact .pure _
end

end Verif.Base
