import Verif.Lemmas.LexerTotal4

/-!
# The work of the matcher: how often the channels are tried

A visit of a recursive token `X` at the text `tgt` either costs `W`, or it is given up and forgets the text, so that the next one costs. The potential
`W` for a remembered text makes this additive.
-/

namespace Verif.Lexer
open Verif.Patterns Verif.Cardinality

/-- The text `tgt` is remembered for the token `X`. -/
def marked (X tgt : Str) (st : St) : Nat := if st.recursive X = some tgt then 1 else 0

theorem marked_le {X tgt : Str} (st : St) : marked X tgt st ≤ 1 := by unfold marked; split <;> omega

/-- Runs without prefixes pay half of `W` for each of `v` visits and for remembering. -/
def M.Pays {α} (W : Nat) (X tgt : Str) (v : Nat) (x : M α) : Prop := ∀ st a st', st.canPrefix = false → x st = some (.ok a, st') →
  st'.canPrefix = false ∧ st.ranges ≤ st'.ranges ∧ W * v + W * marked X tgt st' + 2 * st.ranges ≤ 2 * st'.ranges + W * marked X tgt st

namespace M.Pays
variable {W : Nat} {X tgt : Str}

theorem pure {α} (a : α) : M.Pays W X tgt 0 (pure a : M α) := by
  intro st b st' h e; simp at e; obtain ⟨_, rfl⟩ := e; exact ⟨h, le_rfl, by omega⟩
theorem lift {α} (a : Out α) : M.Pays W X tgt 0 (M.lift a) := by
  intro st b st' h e; simp at e; obtain ⟨_, rfl⟩ := e; exact ⟨h, le_rfl, by omega⟩
theorem outOfFuel {α} {v : Nat} : M.Pays W X tgt v (M.outOfFuel : M α) := by
  intro st b st' h e; simp at e
theorem get : M.Pays W X tgt 0 M.get := by
  intro st b st' h e; simp at e; obtain ⟨_, rfl⟩ := e; exact ⟨h, le_rfl, by omega⟩

theorem le {α} {x : M α} {v w : Nat} (h : M.Pays W X tgt v x) (hw : w ≤ v) : M.Pays W X tgt w x := by
  intro st a st' hs e
  obtain ⟨h1, h2, h3⟩ := h st a st' hs e
  have := Nat.mul_le_mul_left W hw
  exact ⟨h1, h2, by omega⟩

/-- What follows may use what is known of the result. -/
theorem bind_post {α β} {x : M α} {f : α → M β} {v w : Nat} (hx : M.Pays W X tgt v x)
    (hf : ∀ st a st', st.canPrefix = false → x st = some (.ok a, st') → M.Pays W X tgt w (f a)) : M.Pays W X tgt (v + w) (x >>= f) := by
  intro st b st' hs e
  rw [M.bind_def] at e
  split at e
  · simp at e
  · rename_i a s1 h1
    obtain ⟨k1, k2, k3⟩ := hx _ _ _ hs h1
    obtain ⟨l1, l2, l3⟩ := hf _ a _ hs h1 _ _ _ k1 e
    have := Nat.mul_add W v w
    exact ⟨l1, by omega, by omega⟩
  · simp at e
  · simp at e

theorem bind {α β} {x : M α} {f : α → M β} {v w : Nat} (hx : M.Pays W X tgt v x) (hf : ∀ a, M.Pays W X tgt w (f a)) : M.Pays W X tgt (v + w) (x >>= f) :=
  hx.bind_post fun _ a _ _ _ => hf a

theorem bind0 {α β} {x : M α} {f : α → M β} {v : Nat} (hx : M.Pays W X tgt v x) (hf : ∀ a, M.Pays W X tgt 0 (f a)) : M.Pays W X tgt v (x >>= f) :=
  hx.bind hf

theorem bind0' {α β} {x : M α} {f : α → M β} {v : Nat} (hx : M.Pays W X tgt 0 x) (hf : ∀ a, M.Pays W X tgt v (f a)) : M.Pays W X tgt v (x >>= f) :=
  (hx.bind hf).le (by omega)

theorem keeps {α} {x : M α} (h : M.Keeps (fun _ => False) x) (hr : ∀ st r st', x st = some (r, st') → st.ranges ≤ st'.ranges) : M.Pays W X tgt 0 x := by
  intro st a st' hs e
  obtain ⟨h1, h2⟩ := h st _ st' hs e
  have := hr _ _ _ e
  have hm : marked X tgt st' = marked X tgt st := by unfold marked; rw [h2 X (by simp)]
  exact ⟨h1, this, by rw [hm]; omega⟩

end M.Pays

section loops
variable {W : Nat} {X tgt : Str}

theorem notePrefix_pays (i : Nat) : M.Pays W X tgt 0 (notePrefix i) := by
  refine .keeps (notePrefix_keeps i) ?_
  intro st r st' e
  simp only [notePrefix, Option.some.injEq, Prod.mk.injEq] at e
  obtain ⟨_, rfl⟩ := e
  split <;> exact le_rfl

theorem ruleLoop_pays (rule : Rule) (card : Card) (cp : Bool) (len n : Nat) : ∀ rem acc, M.Pays W X tgt 0 (ruleLoop rule card cp len n rem acc) := by
  induction n with
  | zero => intro rem acc; exact .outOfFuel
  | succ n ih =>
    intro rem acc
    unfold ruleLoop
    cases toResult rule rem with
    | panic => exact .lift _
    | err => exact .pure _
    | ok res =>
      dsimp only
      cases res.results with
      | none => exact .pure _
      | some l =>
        cases l with
        | nil => exact .lift _
        | cons m ms =>
          refine .bind0 (.lift _) fun i => .bind0 (notePrefix_pays i) fun _ => ?_
          split
          · exact .pure _
          · split
            · exact .pure _
            · split
              · exact .lift _
              · split
                · exact .pure _
                · exact ih _ _

theorem ruleToRuleMatch_pays (n : Nat) (r : Rule) (k : Card) (s : Str) (ch : Bool) : M.Pays W X tgt 0 (ruleToRuleMatch n r k s ch) := by
  unfold ruleToRuleMatch
  exact .bind0 .get fun _ => .bind0 (ruleLoop_pays _ _ _ _ _ _ _) fun _ => .bind0 .get fun _ => .pure _

theorem buildNext_pays (deps : List Element) (n : Nat) (c : PContainer) : M.Pays W X tgt 0 (buildNextElement deps n c) := by
  intro s r s' h e
  rw [buildNext_state _ _ _ _ _ _ e]
  exact ⟨h, le_rfl, by omega⟩

theorem bestLoop_pays {f : Line → M (Option (List BlockMatch))} {c : Line → Nat} (ls : List Line) (h : ∀ l ∈ ls, M.Pays W X tgt (c l) (f l)) :
    ∀ i b, M.Pays W X tgt ((ls.map c).sum) (bestLoop f ls i b) := by
  induction ls with
  | nil => intro i b; exact .pure _
  | cons l ls ih =>
    intro i b
    have ih := ih fun l hl => h l (by simp [hl])
    rw [List.map_cons, List.sum_cons]
    refine .bind (h l (by simp)) fun r => ?_
    cases r <;> exact ih _ _

theorem tokenLoop_pays {f : Str → M Token} (h : ∀ r, M.Pays W X tgt 0 (f r)) (card : Card) (n : Nat) :
    ∀ rem acc v, M.Pays W X tgt v (f rem) → M.Pays W X tgt v (tokenLoop f card n rem acc) := by
  induction n with
  | zero => intro rem acc v _; exact .outOfFuel
  | succ n ih =>
    intro rem acc v hv
    refine .bind0 hv fun t => ?_
    split
    · exact .pure _
    · split
      · exact .lift _
      · dsimp only
        split
        · exact .pure _
        · split
          · exact .pure _
          · exact ih _ _ _ (h _)

end loops

/-! Only rules stand where the channels are switched off. -/
mutual
inductive Loud : Element → Prop
  | mk {name : Str} {must not : List Line} : (∀ line ∈ must ++ not, ∀ c, Instruction.container c ∈ line → LoudC c) →
      (∀ line ∈ must ++ not, Instruction.channelSwitch ∈ line → ∀ c, Instruction.container c ∈ line → ∃ r k, c = .rule r k) → Loud (.mk name must not)
inductive LoudC : PContainer → Prop
  | token {e : Element} {sp : List Spec} {k : Card} : Loud e → LoudC (.token e sp k)
  | rule {r : Rule} {k : Card} : LoudC (.rule r k)
  | recursive {n : Str} {sp : List Spec} {k : Card} : LoudC (.recursive n sp k)
end

def LoudLine (l : Line) : Prop := (∀ c, Instruction.container c ∈ l → LoudC c) ∧
  (Instruction.channelSwitch ∈ l → ∀ c, Instruction.container c ∈ l → ∃ r k, c = .rule r k)

theorem Loud.lines {e : Element} (h : Loud e) : ∀ line ∈ e.must ++ e.not, LoudLine line := by
  cases h with
  | mk h1 h2 => exact fun l hl => ⟨h1 l hl, h2 l hl⟩

/-- The element of the token `X` at the text `tgt` costs `W`. -/
def Costs (env : Env) (deps : List Element) (W : Nat) (X tgt : Str) : Prop := ∀ n e sp k st r st', fetch deps X = .ok e → st.canPrefix = false →
  tokenToTokenMatch env n e sp k deps tgt true st = some (.ok r, st') → st.ranges + W ≤ st'.ranges

structure PaysAt (env : Env) (deps : List Element) (W : Nat) (X tgt : Str) (n : Nat) : Prop where
  elem : ∀ e s, Loud e → M.Pays W X tgt 0 (elementToToken env n e deps s true)
  content : ∀ e s, Loud e → M.Pays W X tgt 0 (elementToTokenContent env n e deps s true)
  best : ∀ ls s, (∀ line ∈ ls, LoudLine line) → M.Pays W X tgt 0 (bestLineToMatches env n ls deps s true)
  line : ∀ l s, LoudLine l → M.Pays W X tgt 0 (lineToMatches env n l deps s true)
  rblock : ∀ r k s ch nx, M.Pays W X tgt 0 (containerToBlockMatch env n (.rule r k) deps s ch nx)
  rchan : ∀ r k s nx, s ≠ [] → M.Pays W X tgt 0 (findChannelBlockMatch env n (.rule r k) deps s nx)
  block : ∀ c s, LoudC c → M.Pays W X tgt 0 (containerToBlockMatch env n c deps s true true)
  chan : ∀ c s, s ≠ [] → LoudC c → M.Pays W X tgt 0 (findChannelBlockMatch env n c deps s true)
  mtch : ∀ c s, LoudC c → M.Pays W X tgt 0 (containerToMatch env n c deps s true)
  tok : ∀ e sp k s, Loud e → M.Pays W X tgt 0 (tokenToTokenMatch env n e sp k deps s true)

theorem lineLoop_rules_pays {W : Nat} {X tgt : Str} {f : PContainer → Str → Bool → Bool → M (Option BlockMatch)} (is : List Instruction)
    (h : ∀ c, .container c ∈ is → ∀ r a b, M.Pays W X tgt 0 (f c r a b)) : ∀ a b rem acc, M.Pays W X tgt 0 (lineLoop f is a b rem acc) := by
  induction is with
  | nil => intro a b rem acc; exact .pure _
  | cons i is ih =>
    intro a b rem acc
    have ih := ih fun c hc => h c (by simp [hc])
    cases i with
    | channelSwitch => exact ih _ _ _ _
    | container c =>
      refine .bind0 (h c (by simp) _ _ _) fun m => ?_
      cases m with
      | none => exact .pure _
      | some x =>
        dsimp only
        split
        · exact .pure _
        · split
          · exact .pure _
          · exact ih _ _ _ _

/-- A line without switches. -/
theorem lineLoop_loud_pays {W : Nat} {X tgt : Str} {f : PContainer → Str → Bool → Bool → M (Option BlockMatch)} (is : List Instruction)
    (hsw : Instruction.channelSwitch ∉ is)
    (h : ∀ c, .container c ∈ is → ∀ r, M.Pays W X tgt 0 (f c r true true)) : ∀ rem acc, M.Pays W X tgt 0 (lineLoop f is true true rem acc) := by
  induction is with
  | nil => intro rem acc; exact .pure _
  | cons i is ih =>
    intro rem acc
    have ih := ih (fun hm => hsw (by simp [hm])) fun c hc => h c (by simp [hc])
    cases i with
    | channelSwitch => exact absurd (List.mem_cons_self ..) hsw
    | container c =>
      refine .bind0 (h c (by simp) _) fun m => ?_
      cases m with
      | none => exact .pure _
      | some x =>
        dsimp only
        split
        · exact .pure _
        · split
          · exact .pure _
          · exact ih _ _

/-- The loop over the channels and what follows. -/
theorem chan_pays {env : Env} (hch : ChannelsKeep env) {deps : List Element} {W : Nat} {X tgt : Str} {n : Nat} {c : PContainer} {s : Str} {nx : Bool}
    (hs : s ≠ []) (hb : ∀ r, M.Pays W X tgt 0 (containerToBlockMatch env n c deps r nx nx)) :
    M.Pays W X tgt 0 (findChannelBlockMatch env (n + 1) c deps s nx) := by
  unfold findChannelBlockMatch
  intro s0 r s' h0 e
  rw [M.bind_some_ok (M.get_run _), M.bind_some_ok (M.set_run _ _)] at e
  have : M.Pays W X tgt 0 (channelLoop (fun p => elementToToken env n p.element p.deps s false) (env.channels s0.ranges) >>= fun p => match p with
    | none => pure none
    | some l => if !(l.discoveries.isPrefixOf s) then pure none
      else do
        let b ← containerToBlockMatch env n c deps (replaceFirst s l.discoveries) nx nx
        match b with
        | none => pure none
        | some b => pure (some (BlockMatch.mk (some l) (.block b)))) := by
    refine .bind0 ?_ fun p => ?_
    · intro s1 r1 s1' h1 e1
      rw [hch _ _ _ _ _ _ hs h1 e1]
      exact ⟨h1, le_rfl, by omega⟩
    · cases p with
      | none => exact .pure _
      | some l =>
        dsimp only
        split
        · exact .pure _
        · refine .bind0 (hb _) fun b => ?_
          cases b <;> exact .pure _
  obtain ⟨h1, h2, h3⟩ := this { s0 with ranges := s0.ranges + 1 } r s' h0 e
  have hm : marked X tgt { s0 with ranges := s0.ranges + 1 } = marked X tgt s0 := rfl
  rw [hm] at h3
  dsimp only at h2 h3
  exact ⟨h1, by omega, by omega⟩

/-- A visit of a recursive token. -/
theorem visit_pays {env : Env} {deps : List Element} {W : Nat} {X tgt : Str} (hc : W = 0 ∨ Costs env deps W X tgt) {n : Nat} {sp : List Spec} {k : Card} {nm s : Str}
    (htok : ∀ e, fetch deps nm = .ok e → M.Pays W X tgt 0 (tokenToTokenMatch env n e sp k deps s true)) :
    M.Pays W X tgt (if nm = X ∧ s = tgt then 1 else 0) (containerToMatch env (n + 1) (.recursive nm sp k) deps s true) := by
  intro s0 r s' h0 e
  unfold containerToMatch at e
  rw [M.bind_some_ok (M.get_run _)] at e
  split at e
  · rename_i hcut
    rw [M.bind_some_ok (M.set_run _ _)] at e
    simp at e
    obtain ⟨_, rfl⟩ := e
    refine ⟨h0, le_rfl, ?_⟩
    by_cases hx : nm = X
    · subst hx
      have h1 : marked nm tgt { s0 with recursive := Function.update s0.recursive nm none } = 0 := by simp [marked]
      by_cases hs : s = tgt
      · subst hs
        have h2 : marked nm s s0 = 1 := by simp [marked, hcut]
        rw [h1, h2]; simp only [and_self, if_true]; omega
      · rw [h1]; simp [hs]
    · have h1 : marked X tgt { s0 with recursive := Function.update s0.recursive nm none } = marked X tgt s0 := by
        simp only [marked, Function.update_of_ne (Ne.symm hx)]
      rw [h1]; simp [hx]; omega
  · rw [M.bind_some_ok (M.set_run _ _)] at e
    cases hf : fetch deps nm with
    | err => rw [hf] at e; simp [M.bind_def] at e
    | panic => exact absurd hf fetch_ne_panic
    | ok el =>
      rw [M.bind_some_ok (by rw [M.lift_run, hf])] at e
      rw [M.bind_def] at e
      cases ht : tokenToTokenMatch env n el sp k deps s true { s0 with recursive := Function.update s0.recursive nm (some s) } with
      | none => rw [ht] at e; simp at e
      | some y =>
        obtain ⟨y, s1⟩ := y
        rw [ht] at e
        cases y with
        | err => simp at e
        | panic => simp at e
        | ok y =>
          simp at e
          obtain ⟨_, rfl⟩ := e
          obtain ⟨h1, h2, h3⟩ := htok el hf _ _ _ (by exact h0) ht
          dsimp only at h2
          refine ⟨h1, h2, ?_⟩
          by_cases hx : nm = X ∧ s = tgt
          · obtain ⟨rfl, rfl⟩ := hx
            have : s0.ranges + W ≤ s1.ranges := by
              rcases hc with rfl | hc
              · exact h2
              · have := hc n el sp k _ _ _ hf (by exact h0) ht
                exact this
            have hm := Nat.mul_le_mul_left W (marked_le (X := nm) (tgt := s) s1)
            simp only [and_self, if_true]
            omega
          · have hm : marked X tgt { s0 with recursive := Function.update s0.recursive nm (some s) } ≤ marked X tgt s0 := by
              by_cases hn : nm = X
              · subst hn
                have : s ≠ tgt := fun h => hx ⟨rfl, h⟩
                simp [marked, this]
              · simp only [marked, Function.update_of_ne (Ne.symm hn)]; exact le_rfl
            have := Nat.mul_le_mul_left W hm
            rw [if_neg hx]
            dsimp only at h3
            omega

theorem pays_all {env : Env} (hch : ChannelsKeep env) {deps : List Element} {W : Nat} {X tgt : Str} (hc : W = 0 ∨ Costs env deps W X tgt)
    (hdeps : ∀ nm e, fetch deps nm = .ok e → Loud e) (n : Nat) : PaysAt env deps W X tgt n := by
  induction n with
  | zero => constructor <;> intros <;> exact .outOfFuel
  | succ n ih =>
    constructor
    · intro e s he
      refine .bind0 (ih.content _ _ he) fun _ => ?_
      split
      · exact .lift _
      · exact .pure _
    · intro e s he
      have := he.lines
      refine .bind0 (ih.best _ _ fun l hl => this l (by simp [hl])) fun m => ?_
      cases m with
      | none => exact .pure _
      | some m =>
        dsimp only
        split
        · exact .pure _
        · exact .bind0 (ih.best _ _ fun l hl => this l (by simp [hl])) fun _ => .pure _
    · intro ls s hls
      have := bestLoop_pays (W := W) (X := X) (tgt := tgt) (f := fun l => lineToMatches env n l deps s true) (c := fun _ => 0) ls
        (fun l hl => ih.line _ _ (hls l hl)) 0 ⟨0, none, none⟩
      exact .bind0 (this.le (Nat.zero_le _)) fun _ => .pure _
    · intro l s hl
      unfold lineToMatches
      by_cases hsw : Instruction.channelSwitch ∈ l
      · refine lineLoop_rules_pays _ (fun c hc r a b => ?_) _ _ _ _
        obtain ⟨r', k, rfl⟩ := hl.2 hsw c hc
        exact ih.rblock _ _ _ _ _
      · exact lineLoop_loud_pays _ hsw (fun c hc r => ih.block _ _ (hl.1 c hc)) _ _
    · intro r k s ch nx
      unfold containerToBlockMatch
      split
      · refine .bind0 (.lift _) fun k => ?_
        split
        · exact .pure _
        · exact .bind0 (buildNext_pays _ _ _) fun _ => .pure _
      · rename_i hs
        refine .bind0 ?_ fun b => ?_
        · split
          · exact ih.rchan _ _ _ _ hs
          · exact .pure _
        · cases b with
          | some b => exact .pure _
          | none =>
            refine .bind0 ?_ fun m => ?_
            · cases n with
              | zero => exact .outOfFuel
              | succ n =>
                unfold containerToMatch
                exact .bind0 (ruleToRuleMatch_pays _ _ _ _ _) fun _ => .pure _
            · cases m <;> exact .pure _
    · intro r k s nx hs
      exact chan_pays hch hs fun r => ih.rblock _ _ _ _ _
    · intro c s hc
      unfold containerToBlockMatch
      split
      · refine .bind0 (.lift _) fun k => ?_
        split
        · exact .pure _
        · exact .bind0 (buildNext_pays _ _ _) fun _ => .pure _
      · rename_i hs
        refine .bind0 ?_ fun b => ?_
        · rw [if_pos rfl]
          exact ih.chan _ _ hs hc
        · cases b with
          | some b => exact .pure _
          | none =>
            refine .bind0 (ih.mtch _ _ hc) fun m => ?_
            cases m <;> exact .pure _
    · intro c s hs hc
      exact chan_pays hch hs fun r => ih.block _ _ hc
    · intro c s hc'
      cases hc' with
      | token he =>
        unfold containerToMatch
        exact .bind0 (ih.tok _ _ _ _ he) fun _ => .pure _
      | rule =>
        unfold containerToMatch
        exact .bind0 (ruleToRuleMatch_pays _ _ _ _ _) fun _ => .pure _
      | @recursive nm sp k => exact (visit_pays hc fun e he => ih.tok _ _ _ _ (hdeps _ _ he)).le (Nat.zero_le _)
    · intro e sp k s he
      exact .bind0 (tokenLoop_pays (fun r => ih.elem _ _ he) _ _ _ _ _ (ih.elem _ _ he)) fun _ => .lift _

end Verif.Lexer
