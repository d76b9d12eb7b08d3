import Verif.Lemmas.BaseWork3
import Verif.Spec.Work

/-!
# The work of the shipped lexer doubles with two brackets
-/

namespace Verif.Base
open Verif.Patterns Verif.Lexer Verif.Cardinality

theorem fetch_empty {deps : List Element} (h : ∀ e ∈ deps, e.name ≠ []) (e : Element) : fetch deps [] ≠ .ok e := by
  intro hf
  unfold fetch at hf
  split at hf
  · rename_i e' he
    cases hf
    have hm := List.mem_of_find?_eq_some he
    have hn := List.find?_some he
    simp at hm hn
    exact h _ hm hn
  · cases hf

/-- The kinds whose first line begins with a part. -/
def startsB (k : Kind) : Bool := match source k with
  | (.part _ _ _ :: _) :: _ => true
  | _ => false

def quietHead (s : Str) : Bool := match s with
  | c :: _ => c != 32 && c != 9 && c != 10 && c != 47
  | [] => false

section
variable {rs : RuleSet} {ts cs : TokenSet} (h : BaseRead rs ts cs) {env : Env} {v : Str → Option LineMatch} {deps : List Element}
  (H : Guarded { tokens := ts } env v deps brank bfirst)
include h H

/-- Every reading goes through the channels. -/
theorem BaseRead.costs_one {k : Kind} (hk : startsB k = true) {s : Str} (hs : s ≠ []) (hq : Quiet env s) : Costs env deps 1 k.name s := by
  intro n e sp card st r st' hf hst hr
  obtain ⟨u, hu, hun, hue⟩ := H.fetched hf
  obtain ⟨k', hk'⟩ := h.token hu
  have : k' = k := name_inj (hk'.1.symm.trans hun)
  subst this
  have hne : ∀ e ∈ deps, e.name ≠ [] := by
    intro e he
    obtain ⟨u, _, hx⟩ := H.deps e he
    cases hx with
    | mk h1 => exact h1
  have hl := h.loud H hue hu
  have hnot := unf_notNil hue hk'.2.1
  let tgt : Str := 0 :: (st.recursive []).getD []
  have hc : (2 : Nat) = 0 ∨ Costs env deps 2 [] tgt := .inr fun n e sp k st r st' hf => absurd hf (fetch_empty hne e)
  have P : ∀ n, PaysAt env deps 2 [] tgt n := fun n => h.pays H hc n
  have block : ∀ n c, LoudC c → M.Pays 2 [] tgt 1 (containerToBlockMatch env n c deps s true true) := by
    intro n c hc st a st' hst e
    obtain ⟨m, x, _, h1, _⟩ := block_quiet hs hq hst e
    obtain ⟨k1, k2, k3⟩ := (P m).mtch c s hc _ _ _ (by exact hst) h1
    have hm : marked [] tgt { st with ranges := st.ranges + 1 } = marked [] tgt st := rfl
    rw [hm] at k3
    dsimp only at k2 k3
    exact ⟨k1, by omega, by omega⟩
  have hmust : ∃ c is ls, e.must = (.container c :: is) :: ls := by
    have := unf_lines hue hk'
    unfold startsB at hk
    split at hk
    · rename_i s rep spec l ls heq
      rw [heq] at this
      generalize e.must = es at this
      cases this with
      | cons h1 h2 =>
        obtain ⟨gl, h3, h4⟩ := h1
        cases h3 with
        | cons h5 h6 =>
          cases s with
          | tok k => obtain ⟨e', rfl, _⟩ := h5; cases h4; exact ⟨_, _, _, rfl⟩
          | rule s => obtain ⟨e', r, rfl, _⟩ := h5; cases h4; exact ⟨_, _, _, rfl⟩
    · cases hk
  obtain ⟨c, is, ls, hmust⟩ := hmust
  have hlines := hl.lines
  rw [hnot, List.append_nil] at hlines
  have hc0 : LoudC c := (hlines (.container c :: is) (by rw [hmust]; simp)).1 c (by simp)
  have elem : ∀ n, M.Pays 2 [] tgt 1 (elementToToken env n e deps s true) := by
    intro n
    cases n with
    | zero => exact .outOfFuel
    | succ n =>
      simp only [elementToToken]
      refine .bind0 ?_ fun c => ?_
      · cases n with
        | zero => exact .outOfFuel
        | succ n =>
          simp only [elementToTokenContent, hnot, List.isEmpty_nil, if_true]
          refine .bind0 ?_ fun m => ?_
          · cases n with
            | zero => exact .outOfFuel
            | succ n =>
              simp only [bestLineToMatches, hmust, bestLoop]
              refine .bind0 (.bind0 ?_ fun b => ?_) fun b => .pure _
              · cases n with
                | zero => exact .outOfFuel
                | succ n =>
                  simp only [lineToMatches, lineLoop]
                  refine .bind0 (block _ _ hc0) fun m => ?_
                  have hloud : LoudLine is := by
                    obtain ⟨g1, g2⟩ := hlines (.container c :: is) (by rw [hmust]; simp)
                    exact ⟨fun c hc => g1 c (by simp [hc]), fun h1 c hc => g2 (by simp [h1]) c (by simp [hc])⟩
                  have rest : ∀ rem acc, M.Pays 2 [] tgt 0 (lineLoop (fun c rem ch next => containerToBlockMatch env n c deps rem ch next) is true true rem acc) := by
                    intro rem acc
                    by_cases hsw : Instruction.channelSwitch ∈ is
                    · refine lineLoop_rules_pays _ (fun c hc r a b => ?_) _ _ _ _
                      obtain ⟨r', k, rfl⟩ := hloud.2 hsw c hc
                      exact (P n).rblock _ _ _ _ _
                    · exact lineLoop_loud_pays _ hsw (fun c hc r => (P n).block _ _ (hloud.1 c hc)) _ _
                  cases m with
                  | none => exact .pure _
                  | some b =>
                    dsimp only
                    split
                    · exact .pure _
                    · split
                      · exact .pure _
                      · exact rest _ _
              · have rest : ∀ i b, M.Pays 2 [] tgt 0 (bestLoop (fun l => lineToMatches env n l deps s true) ls i b) := by
                  intro i b
                  exact (bestLoop_pays (c := fun _ => 0) ls (fun l hl => (P n).line _ _ (hlines l (by rw [hmust]; simp [hl]))) i b).le (Nat.zero_le _)
                cases b <;> exact rest _ _
          · cases m <;> exact .pure _
      · split
        · exact .lift _
        · exact .pure _
  have tok : M.Pays 2 [] tgt 1 (tokenToTokenMatch env n e sp card deps s true) := by
    cases n with
    | zero => exact .outOfFuel
    | succ n =>
      simp only [tokenToTokenMatch]
      exact .bind0 (tokenLoop_pays (fun r => (P n).elem _ _ hl) _ _ _ _ _ (elem n)) fun _ => .lift _
  obtain ⟨_, _, h3⟩ := tok _ _ _ hst hr
  have hm : marked [] tgt st = 0 := by
    unfold marked
    rw [if_neg]
    intro hx
    have : ((st.recursive []).getD []).length = tgt.length := by rw [hx]; rfl
    simp [tgt] at this
  rw [hm] at h3
  omega

omit h H in
theorem around_ok : ∀ N N', around N = some N' → startsB N = true ∧ (∃ N'', around N' = some N'') ∧ ∃ d, 1 ≤ d ∧ d ≤ 2 ∧ 6 ≤ cnt N' 12 [] N (List.replicate d 91) := by
  intro N N' hN
  unfold around at hN
  split at hN
  all_goals first | cases hN | skip
  · exact ⟨by decide, ⟨_, rfl⟩, 1, by omega, by omega, by decide +kernel⟩
  · exact ⟨by decide, ⟨_, rfl⟩, 1, by omega, by omega, by decide +kernel⟩
  · exact ⟨by decide, ⟨_, rfl⟩, 1, by omega, by omega, by decide +kernel⟩
  · exact ⟨by decide, ⟨_, rfl⟩, 1, by omega, by omega, by decide +kernel⟩
  · exact ⟨by decide, ⟨_, rfl⟩, 2, by omega, by omega, by decide +kernel⟩

theorem BaseRead.costs {rest : Str} (hq : ∀ j, Quiet env (brackets (j + 1) ++ rest)) (m : Nat) : ∀ N N', around N = some N' → ∀ j, 2 * m + 1 ≤ j →
    Costs env deps (2 ^ m) N.name (brackets j ++ rest) := by
  induction m with
  | zero =>
    intro N N' hN j hj
    obtain ⟨i, rfl⟩ : ∃ i, j = i + 1 := ⟨j - 1, by omega⟩
    exact h.costs_one H (around_ok N N' hN).1 (by simp [brackets]) (hq i)
  | succ m ih =>
    intro N N' hN j hj
    obtain ⟨_, ⟨N'', hN'⟩, d, hd1, hd2, hcnt⟩ := around_ok N N' hN
    obtain ⟨i, rfl⟩ : ∃ i, j = d + (i + 1) := ⟨j - d - 1, by omega⟩
    have hcost := ih N' N'' hN' (i + 1) (by omega)
    have htgt : brackets (i + 1) ++ rest ≠ [] := by simp [brackets]
    intro n e sp card st r st' hf hst hr
    obtain ⟨u, hu, hun, hue⟩ := H.fetched hf
    obtain ⟨k', hk'⟩ := h.token hu
    have : k' = N := name_inj (hk'.1.symm.trans hun)
    subst this
    have hs : brackets (d + (i + 1)) ++ rest = List.replicate d 91 ++ (brackets (i + 1) ++ rest) := by
      simp only [brackets, List.replicate_add d (i + 1), List.append_assoc]
    rw [hs] at hr
    have hpre : ∀ p, p <:+ List.replicate d (91 : UInt8) → Quiet env (p ++ (brackets (i + 1) ++ rest)) := by
      intro p hp
      obtain ⟨_, hl⟩ := List.suffix_replicate_iff.mp hp
      rw [hl]
      have := hq (p.length + i)
      have he : brackets (p.length + i + 1) ++ rest = List.replicate p.length 91 ++ (brackets (i + 1) ++ rest) := by
        rw [Nat.add_assoc]
        simp only [brackets, List.replicate_add p.length (i + 1), List.append_assoc]
      rwa [he] at this
    have hl := h.loud H hue hu
    have elem := fun n => h.cnt_pays H (.inr hcost) htgt 12 (stack := []) hpre hue hu hk' n
    have tok : M.Pays (2 ^ m) N'.name (brackets (i + 1) ++ rest) 6 (tokenToTokenMatch env n e sp card deps (List.replicate d 91 ++ (brackets (i + 1) ++ rest)) true) := by
      cases n with
      | zero => exact .outOfFuel
      | succ n =>
        simp only [tokenToTokenMatch]
        exact .bind0 (tokenLoop_pays (fun r => (h.pays H (.inr hcost) n).elem _ _ hl) _ _ _ _ _ ((elem n).le hcnt)) fun _ => .lift _
    obtain ⟨_, _, h3⟩ := tok _ _ _ hst hr
    have hm := Nat.mul_le_mul_left (2 ^ m) (marked_le (X := N'.name) (tgt := brackets (i + 1) ++ rest) st)
    rw [Nat.pow_succ]
    omega
end

section
variable {rs : RuleSet} {ts cs : TokenSet} (h : BaseRead rs ts cs)
include h

/-- The channels find nothing at a text which does not begin like them. -/
theorem BaseRead.quiet {d : Nat} {ps : List Path} (hps : channelPaths { tokens := ts } d cs.list = .ok ps) {env : Env} (ho : ∀ k, (env.channels k).Perm ps)
    {s : Str} (hs : quietHead s = true) : Quiet env s := by
  have hpath := forall2_mem (channelPaths_each hps)
  refine quiet_of (ps := ps) ?_ ho (by rintro rfl; cases hs) ?_
  · intro q hq
    obtain ⟨c, hc, hqc⟩ := hpath.2 q hq
    obtain ⟨r, hw, hr⟩ := h.apart.1 c hc
    obtain ⟨h1, h2⟩ := ruleChannel_path hr hqc
    exact ⟨_, r, h1, hw, h2⟩
  · intro q hq n r hr w hw hp
    obtain ⟨c, hc, hqc⟩ := hpath.2 q hq
    obtain ⟨x, hx, hn, h1, h2, r', e, h3, h4, h5, h6⟩ := h.channel hc
    have hrc : RuleChannel c r' := ⟨h1, e, h3, h4, by simp [GElement.times, h5]⟩
    obtain ⟨_, a2⟩ := ruleChannel_path hrc hqc
    rw [hr] at a2
    simp [ruleElement] at a2
    rw [← a2.2] at h6
    obtain ⟨o, ho, hpo⟩ := h.channel_head hx h6 hw
    have hos := hpo.trans hp
    cases s with
    | nil => cases hs
    | cons a s =>
      simp only [quietHead, Bool.and_eq_true, bne_iff_ne, ne_eq] at hs
      simp only [channelTable, List.mem_cons, List.not_mem_nil, or_false] at hx
      rcases hx with rfl | rfl | rfl <;> simp [channelHeads] at ho
      · rcases ho with rfl | rfl | rfl <;> simp at hos <;> simp [← hos] at hs
      · subst ho; simp at hos; simp [← hos.1] at hs
      · subst ho; simp at hos; simp [← hos.1] at hs

/-- The work on a program which begins with `log([`. -/
theorem BaseRead.program_work {t : GToken} (ht : t ∈ ts.list) (hk : TokenIs rs .program t) {d : Nat} {p : Path} {chans : List Path}
    (hm : matcherNow { tokens := ts } d t (some cs) = .ok (p, chans)) {order : Nat → List Path} (ho : ∀ k, (order k).Perm chans) {m j : Nat} (hj : 2 * m + 1 ≤ j)
    {rest : Str} {fuel : Nat} {a : AST} {st' : St}
    (hr : toAST ⟨p, order⟩ false fuel (lit "log([" ++ (brackets j ++ rest)) ⟨false, fun _ => none, 0⟩ = some (.ok a, st')) : 3 * 2 ^ m ≤ st'.ranges := by
  obtain ⟨hroot, v, H⟩ := guarded_of (g := { tokens := ts }) h.tokensNow ⟨fun _ => rfl, fun _ => rfl⟩ h.guarded ht h.apart hm ho
  have hps : channelPaths { tokens := ts } d cs.list = .ok chans := by
    simp only [matcherNow, Out.bind_eq_ok] at hm
    obtain ⟨p', _, ps', hps, hx⟩ := hm
    simp at hx
    rw [← hx.2]
    exact hps
  have hq : ∀ {s : Str}, quietHead s = true → Quiet ⟨p, order⟩ s := fun hs => h.quiet hps ho hs
  obtain ⟨i, rfl⟩ : ∃ i, j = i + 1 := ⟨j - 1, by omega⟩
  have hcost := h.costs H (rest := rest) (fun j => hq (by simp [brackets, List.replicate_succ, quietHead])) m .assignable _ rfl (i + 1) hj
  have htgt : brackets (i + 1) ++ rest ≠ [] := by simp [brackets]
  have hcnt : 6 ≤ cnt .assignable 20 [] .program (lit "log([") := by decide +kernel
  have hpre : ∀ q, q <:+ lit "log([" → Quiet ⟨p, order⟩ (q ++ (brackets (i + 1) ++ rest)) := by
    intro q hq'
    have : q = [] ∨ quietHead q = true := by
      have hl : ∀ q ∈ (lit "log([").tails, q = [] ∨ quietHead q = true := by decide +kernel
      exact hl q ((List.mem_tails _ _).mpr hq')
    rcases this with rfl | hh
    · exact hq (by simp [brackets, List.replicate_succ, quietHead])
    · refine hq ?_
      cases q with
      | nil => cases hh
      | cons c q => exact hh
  have elem := (h.cnt_pays H (.inr hcost) htgt 20 (stack := []) (k := .program) hpre hroot ht hk fuel).le hcnt
  unfold toAST at hr
  obtain ⟨tok, s1, h1, h2⟩ := M.bind_ok.mp hr
  unfold toToken at h1
  rw [M.bind_some_ok (M.get_run _), M.bind_some_ok (M.set_run _ _)] at h1
  obtain ⟨_, _, h3⟩ := elem _ _ _ rfl h1
  have hm0 : marked Kind.assignable.name (brackets (i + 1) ++ rest) ({ canPrefix := false, recursive := fun _ => none, ranges := 0 } : St) = 0 := by simp [marked]
  rw [hm0] at h3
  have hs : st' = s1 := by
    obtain ⟨mi, s2, g1, g2⟩ := M.bind_ok.mp h2
    simp at g1
    obtain ⟨_, rfl⟩ := g1
    cases mi with
    | some mi => simp at g2; exact g2.2.symm
    | none =>
      obtain ⟨x, s3, g3, g4⟩ := M.bind_ok.mp g2
      simp at g3 g4
      rw [← g4.2, ← g3.2]
  subst hs
  dsimp only at h3
  omega
end

end Verif.Base
