import Verif.Lemmas.LexerInv
import Verif.Lemmas.GrammarLang

/-!
# What a run leaves alone in the map of the recursive tokens
-/

namespace Verif.Lexer
open Verif.Patterns Verif.Cardinality

/-- Without prefixes, only the entries of `A` are changed. -/
def M.Keeps {α} (A : Str → Prop) (x : M α) : Prop := ∀ s r s', s.canPrefix = false → x s = some (r, s') →
  s'.canPrefix = false ∧ ∀ n, ¬ A n → s'.recursive n = s.recursive n

namespace M.Keeps
variable {A : Str → Prop}

theorem pure {α} (a : α) : M.Keeps A (pure a : M α) := by
  intro s r s' h e; simp at e; obtain ⟨_, rfl⟩ := e; exact ⟨h, fun _ _ => rfl⟩
theorem lift {α} (a : Out α) : M.Keeps A (M.lift a) := by
  intro s r s' h e; simp at e; obtain ⟨_, rfl⟩ := e; exact ⟨h, fun _ _ => rfl⟩
theorem outOfFuel {α} : M.Keeps A (M.outOfFuel : M α) := by
  intro s r s' h e; simp at e
theorem get : M.Keeps A M.get := by
  intro s r s' h e; simp at e; obtain ⟨_, rfl⟩ := e; exact ⟨h, fun _ _ => rfl⟩

theorem bind {α β} {x : M α} {f : α → M β} (hx : M.Keeps A x) (hf : ∀ a, M.Keeps A (f a)) : M.Keeps A (x >>= f) := by
  intro s r s' h e
  rw [M.bind_def] at e
  split at e
  · simp at e
  · rename_i a s1 h1
    obtain ⟨k1, k2⟩ := hx _ _ _ h h1
    obtain ⟨k3, k4⟩ := hf a _ _ _ k1 e
    exact ⟨k3, fun n hn => (k4 n hn).trans (k2 n hn)⟩
  · rename_i s1 h1
    simp at e; obtain ⟨_, rfl⟩ := e
    exact hx _ _ _ h h1
  · rename_i s1 h1
    simp at e; obtain ⟨_, rfl⟩ := e
    exact hx _ _ _ h h1

theorem get_bind {α} {f : St → M α} (h : ∀ s0 r s', s0.canPrefix = false → f s0 s0 = some (r, s') → s'.canPrefix = false ∧ ∀ n, ¬ A n → s'.recursive n = s0.recursive n) :
    M.Keeps A (M.get >>= f) := by
  intro s r s' hs e
  rw [M.bind_some_ok (M.get_run _)] at e
  exact h s r s' hs e

end M.Keeps

section
variable {A : Str → Prop}

theorem notePrefix_keeps (i : Nat) : M.Keeps A (notePrefix i) := by
  intro s r s' h e
  unfold notePrefix at e
  simp at e
  obtain ⟨_, rfl⟩ := e
  split
  · exact ⟨rfl, fun _ _ => rfl⟩
  · exact ⟨h, fun _ _ => rfl⟩

theorem ruleLoop_keeps (rule : Rule) (card : Card) (cp : Bool) (len n : Nat) : ∀ rem acc, M.Keeps A (ruleLoop rule card cp len n rem acc) := by
  induction n with
  | zero => intro rem acc; exact .outOfFuel
  | succ n ih =>
    intro rem acc
    unfold ruleLoop
    cases toResult rule rem with
    | panic => exact .lift _
    | err => exact .pure _
    | ok res =>
      dsimp only
      cases res.results with
      | none => exact .pure _
      | some l =>
        cases l with
        | nil => exact .lift _
        | cons m ms =>
          refine .bind (.lift _) fun i => .bind (notePrefix_keeps i) fun _ => ?_
          split
          · exact .pure _
          · split
            · exact .pure _
            · split
              · exact .lift _
              · split
                · exact .pure _
                · exact ih _ _

theorem ruleToRuleMatch_keeps (n : Nat) (r : Rule) (k : Card) (s : Str) (ch : Bool) : M.Keeps A (ruleToRuleMatch n r k s ch) := by
  unfold ruleToRuleMatch
  exact .bind .get fun _ => .bind (ruleLoop_keeps _ _ _ _ _ _ _) fun _ => .bind .get fun _ => .pure _

theorem buildNext_keeps (deps : List Element) (n : Nat) (c : PContainer) : M.Keeps A (buildNextElement deps n c) := by
  intro s r s' h e
  rw [buildNext_state _ _ _ _ _ _ e]
  exact ⟨h, fun _ _ => rfl⟩

theorem bestLoop_keeps {f : Line → M (Option (List BlockMatch))} (ls : List Line) (h : ∀ l ∈ ls, M.Keeps A (f l)) :
    ∀ i b, M.Keeps A (bestLoop f ls i b) := by
  induction ls with
  | nil => intro i b; exact .pure _
  | cons l ls ih =>
    intro i b
    have ih := ih fun l hl => h l (by simp [hl])
    refine .bind (h l (by simp)) fun r => ?_
    cases r <;> exact ih _ _

theorem lineLoop_keeps {f : PContainer → Str → Bool → Bool → M (Option BlockMatch)} (is : List Instruction)
    (h : ∀ c, .container c ∈ is → ∀ r a b, M.Keeps A (f c r a b)) : ∀ a b rem acc, M.Keeps A (lineLoop f is a b rem acc) := by
  induction is with
  | nil => intro a b rem acc; exact .pure _
  | cons i is ih =>
    intro a b rem acc
    have ih := ih fun c hc => h c (by simp [hc])
    cases i with
    | channelSwitch => exact ih _ _ _ _
    | container c =>
      refine .bind (h c (by simp) _ _ _) fun m => ?_
      cases m with
      | none => exact .pure _
      | some x =>
        dsimp only
        split
        · exact .pure _
        · split
          · exact .pure _
          · exact ih _ _ _ _

theorem tokenLoop_keeps {f : Str → M Token} (h : ∀ r, M.Keeps A (f r)) (card : Card) (n : Nat) :
    ∀ rem acc, M.Keeps A (tokenLoop f card n rem acc) := by
  induction n with
  | zero => intro rem acc; exact .outOfFuel
  | succ n ih =>
    intro rem acc
    refine .bind (h _) fun t => ?_
    split
    · exact .pure _
    · split
      · exact .lift _
      · dsimp only
        split
        · exact .pure _
        · split
          · exact .pure _
          · exact ih _ _

end

/-! All the recursive tokens inside are of `A`. -/
mutual
inductive Within (A : Str → Prop) : Element → Prop
  | mk {name : Str} {must not : List Line} : (∀ line ∈ must ++ not, ∀ c, Instruction.container c ∈ line → WithinC A c) → Within A (.mk name must not)
inductive WithinC (A : Str → Prop) : PContainer → Prop
  | token {e : Element} {sp : List Spec} {k : Card} : Within A e → WithinC A (.token e sp k)
  | rule {r : Rule} {k : Card} : WithinC A (.rule r k)
  | recursive {n : Str} {sp : List Spec} {k : Card} : A n → WithinC A (.recursive n sp k)
end

theorem Within.lines {A : Str → Prop} {e : Element} (h : Within A e) : ∀ line ∈ e.must ++ e.not, ∀ c, Instruction.container c ∈ line → WithinC A c := by
  cases h with
  | mk h => exact h

structure KeepsAt (env : Env) (deps : List Element) (A : Str → Prop) (n : Nat) : Prop where
  elem : ∀ e s ch, Within A e → M.Keeps A (elementToToken env n e deps s ch)
  content : ∀ e s ch, Within A e → M.Keeps A (elementToTokenContent env n e deps s ch)
  best : ∀ ls s ch, (∀ line ∈ ls, ∀ c, Instruction.container c ∈ line → WithinC A c) → M.Keeps A (bestLineToMatches env n ls deps s ch)
  line : ∀ l s ch, (∀ c, Instruction.container c ∈ l → WithinC A c) → M.Keeps A (lineToMatches env n l deps s ch)
  block : ∀ c s ch nx, WithinC A c → M.Keeps A (containerToBlockMatch env n c deps s ch nx)
  chan : ∀ c s nx, s ≠ [] → WithinC A c → M.Keeps A (findChannelBlockMatch env n c deps s nx)
  mtch : ∀ c s nx, WithinC A c → M.Keeps A (containerToMatch env n c deps s nx)
  tok : ∀ e sp k s nx, Within A e → M.Keeps A (tokenToTokenMatch env n e sp k deps s nx)

/-- The loop over the channels leaves the state alone. -/
def ChannelsKeep (env : Env) : Prop := ∀ n k s st r st', s ≠ [] → st.canPrefix = false →
  channelLoop (fun p => elementToToken env n p.element p.deps s false) (env.channels k) st = some (r, st') → st' = st

theorem keeps_all {env : Env} (hch : ChannelsKeep env) {deps : List Element} {A : Str → Prop}
    (hA : ∀ n e, A n → fetch deps n = .ok e → Within A e) (n : Nat) : KeepsAt env deps A n := by
  induction n with
  | zero => constructor <;> intros <;> exact .outOfFuel
  | succ n ih =>
    constructor
    · intro e s ch he
      refine .bind (ih.content _ _ _ he) fun _ => ?_
      split
      · exact .lift _
      · exact .pure _
    · intro e s ch he
      have := he.lines
      refine .bind (ih.best _ _ _ fun l hl => this l (by simp [hl])) fun m => ?_
      cases m with
      | none => exact .pure _
      | some m =>
        dsimp only
        split
        · exact .pure _
        · exact .bind (ih.best _ _ _ fun l hl => this l (by simp [hl])) fun _ => .pure _
    · intro ls s ch hls
      exact .bind (bestLoop_keeps _ (fun l hl => ih.line _ _ _ (hls l hl)) _ _) fun _ => .pure _
    · intro l s ch hl
      exact lineLoop_keeps _ (fun c hc r a b => ih.block _ _ _ _ (hl c hc)) _ _ _ _
    · intro c s ch nx hc
      unfold containerToBlockMatch
      split
      · refine .bind (.lift _) fun k => ?_
        split
        · exact .pure _
        · exact .bind (buildNext_keeps _ _ _) fun _ => .pure _
      · rename_i hs
        refine .bind ?_ fun b => ?_
        · split
          · exact ih.chan _ _ _ hs hc
          · exact .pure _
        · cases b with
          | some b => exact .pure _
          | none =>
            refine .bind (ih.mtch _ _ _ hc) fun m => ?_
            cases m <;> exact .pure _
    · intro c s nx hs hc
      unfold findChannelBlockMatch
      refine .get_bind ?_
      intro s0 r s' h0 e
      rw [M.bind_some_ok (M.set_run _ _)] at e
      have : M.Keeps A (channelLoop (fun p => elementToToken env n p.element p.deps s false) (env.channels s0.ranges) >>= fun p => match p with
        | none => pure none
        | some l => if !(l.discoveries.isPrefixOf s) then pure none
          else do
            let b ← containerToBlockMatch env n c deps (replaceFirst s l.discoveries) nx nx
            match b with
            | none => pure none
            | some b => pure (some (BlockMatch.mk (some l) (.block b)))) := by
        refine .bind ?_ fun p => ?_
        · intro s1 r1 s1' h1 e1
          rw [hch _ _ _ _ _ _ hs h1 e1]
          exact ⟨h1, fun _ _ => rfl⟩
        · cases p with
          | none => exact .pure _
          | some l =>
            dsimp only
            split
            · exact .pure _
            · refine .bind (ih.block _ _ _ _ hc) fun b => ?_
              cases b <;> exact .pure _
      exact this { s0 with ranges := s0.ranges + 1 } r s' h0 e
    · intro c s nx hc
      cases hc with
      | token he =>
        unfold containerToMatch
        exact .bind (ih.tok _ _ _ _ _ he) fun _ => .pure _
      | rule =>
        unfold containerToMatch
        exact .bind (ruleToRuleMatch_keeps _ _ _ _ _) fun _ => .pure _
      | @recursive nm sp k ha =>
        unfold containerToMatch
        refine .get_bind ?_
        intro s0 r s' h0 e
        split at e
        · rw [M.bind_some_ok (M.set_run _ _)] at e
          simp at e
          obtain ⟨_, rfl⟩ := e
          refine ⟨h0, fun m hm => ?_⟩
          exact Function.update_of_ne (by rintro rfl; exact hm ha) _ _
        · rw [M.bind_some_ok (M.set_run _ _)] at e
          cases hf : fetch deps nm with
          | err =>
            rw [hf] at e
            simp [M.bind_def] at e
            obtain ⟨_, rfl⟩ := e
            exact ⟨h0, fun m hm => Function.update_of_ne (by rintro rfl; exact hm ha) _ _⟩
          | panic => exact absurd hf fetch_ne_panic
          | ok el =>
            rw [M.bind_some_ok (by rw [M.lift_run, hf])] at e
            have : M.Keeps A (tokenToTokenMatch env n el sp k deps s nx >>= fun t => (pure (some (wrapToken t)) : M (Option Match))) :=
              .bind (ih.tok _ _ _ _ _ (hA _ _ ha hf)) fun _ => .pure _
            obtain ⟨k1, k2⟩ := this _ _ _ (by exact h0) e
            exact ⟨k1, fun m hm => (k2 m hm).trans (Function.update_of_ne (by rintro rfl; exact hm ha) _ _)⟩
    · intro e sp k s nx he
      exact .bind (tokenLoop_keeps (fun r => ih.elem _ _ _ he) _ _ _ _) fun _ => .lift _

/-! The elements which are read from a grammar. -/
section
variable {g : PathEnv} (hg : TokensOk g) (hclosed : GClosed g) {A : Str → Prop}
  (hA : ∀ t ∈ g.tokens.list, A t.name → ∀ l ∈ t.must, ∀ e, .element e ∈ l → ∀ u specs, e.content = .token u specs → A u)
  (hnot : ∀ t ∈ g.tokens.list, t.not = none)
include hg hclosed hA hnot

mutual
theorem unf_within : ∀ {stack : List Str} {t : GToken} {e : Element}, Unf g stack t e → t ∈ g.tokens.list → A t.name → Within A e
  | _, t, _, .mk (must := must) (not := not) _ _ h3 h4 _, ht, ha => by
    have key := unfLines_within h3 (fun l hl e he u specs hu => hA t ht ha l hl e he u specs hu)
    have hn := h4 (hnot t ht)
    refine .mk ?_
    rw [hn, List.append_nil]
    exact key
theorem unfLines_within : ∀ {stack : List Str} {parent : Str} {ls : List GLine} {xs : List Line}, UnfLines g stack parent ls xs →
    (∀ l ∈ ls, ∀ e, .element e ∈ l → ∀ u specs, e.content = .token u specs → A u) → ∀ x ∈ xs, ∀ c, Instruction.container c ∈ x → WithinC A c
  | _, _, _, _, .nil, _ => by simp
  | _, _, _, _, .cons _ h2 h3, h => by
    have k1 := unfLine_within h2 (h _ (by simp))
    have k2 := unfLines_within h3 (fun l hl => h l (by simp [hl]))
    exact List.forall_mem_cons.mpr ⟨k1, k2⟩
theorem unfLine_within : ∀ {stack : List Str} {parent : Str} {n : Nat} {l : GLine} {x : Line}, UnfLine g stack parent n l x →
    (∀ e, .element e ∈ l → ∀ u specs, e.content = .token u specs → A u) → ∀ c, Instruction.container c ∈ x → WithinC A c
  | _, _, _, _, _, .nil, _ => by simp
  | _, _, _, _, _, .switch h1, h => by
    intro c hc
    exact unfLine_within h1 (fun e he => h e (by simp [he])) c (by simpa using hc)
  | _, _, _, _, _, .elem h1 h2, h => by
    have k1 := unfC_within h1 (h _ (by simp))
    have k2 := unfLine_within h2 (fun e he => h e (by simp [he]))
    intro c hc
    rcases List.mem_cons.mp hc with hc | hc
    · cases hc
      exact k1
    · exact k2 c hc
theorem unfC_within : ∀ {stack : List Str} {parent : Str} {n : Nat} {e : GElement} {c : PContainer}, UnfC g stack parent n e c →
    (∀ u specs, e.content = .token u specs → A u) → WithinC A c
  | _, _, _, _, _, .recur h1 _ _ _ _, h => .recursive (h _ _ h1)
  | _, _, _, _, _, .replaced _ _ _ h4, _ => by rw [hclosed.1] at h4; cases h4
  | _, _, _, _, _, .declared h1 _ _ _ h5 h6, h => by
    obtain ⟨k1, k2⟩ := (hg.find _ _).mp h5
    exact .token (unf_within h6 k1 (by rw [k2]; exact h _ _ h1))
  | _, _, _, _, _, .missing _ _ _ _ _ h6, _ => by rw [hclosed.2] at h6; cases h6
  | _, _, _, _, _, .rule _, _ => .rule
end

/-- The recursive tokens of `A` lead to elements inside `A`. -/
theorem resolves_within {deps : List Element} (hr : Resolves g deps) (n : Str) (hn : ∃ u ∈ g.tokens.list, u.name = n) (e : Element) (ha : A n)
    (hf : fetch deps n = .ok e) : Within A e := by
  obtain ⟨u, hu, rfl⟩ := hn
  obtain ⟨e', h1, h2⟩ := hr u hu
  rw [h1] at hf; cases hf
  exact unf_within hg hclosed hA hnot h2 hu ha
end

end Verif.Lexer
