import Verif.Lemmas.LexerInv

/-! The matcher in two states which differ in the number of `range` statements only, without prefixes. -/

namespace Verif.Lexer
open Verif.Patterns Verif.Cardinality

/-- Both without prefixes, the same recursive tokens. -/
def Alike (s1 s2 : St) : Prop := s1.canPrefix = false ∧ s2.canPrefix = false ∧ s1.recursive = s2.recursive

/-- The same outcome in alike states, and alike states again. -/
def M.Same {α} (x y : M α) : Prop := ∀ s1 s2, Alike s1 s2 → (x s1 = none ∧ y s2 = none) ∨
  ∃ r s1' s2', x s1 = some (r, s1') ∧ y s2 = some (r, s2') ∧ Alike s1' s2'

namespace M.Same

theorem pure {α} (a : α) : M.Same (pure a : M α) (pure a) := fun s1 s2 h => .inr ⟨_, _, _, rfl, rfl, h⟩
theorem lift {α} (a : Out α) : M.Same (M.lift a) (M.lift a) := fun s1 s2 h => .inr ⟨_, _, _, rfl, rfl, h⟩
theorem outOfFuel {α} : M.Same (M.outOfFuel : M α) M.outOfFuel := fun s1 s2 h => .inl ⟨rfl, rfl⟩

theorem bind {α β} {x y : M α} {f g : α → M β} (h : M.Same x y) (hf : ∀ a, M.Same (f a) (g a)) :
    M.Same (x >>= f) (y >>= g) := by
  intro s1 s2 hs
  rcases h s1 s2 hs with ⟨h1, h2⟩ | ⟨r, s1', s2', h1, h2, h3⟩
  · left; simp [M.bind_def, h1, h2]
  · cases r with
    | ok a => rw [M.bind_some_ok h1, M.bind_some_ok h2]; exact hf a _ _ h3
    | err => right; exact ⟨.err, s1', s2', by simp [M.bind_def, h1], by simp [M.bind_def, h2], h3⟩
    | panic => right; exact ⟨.panic, s1', s2', by simp [M.bind_def, h1], by simp [M.bind_def, h2], h3⟩

/-- A function of the state. -/
theorem get_bind {α} {f g : St → M α} (h : ∀ s1 s2, Alike s1 s2 → M.Same (f s1) (g s2)) :
    M.Same (M.get >>= f) (M.get >>= g) := by
  intro s1 s2 hs
  rw [M.bind_some_ok (M.get_run _), M.bind_some_ok (M.get_run _)]
  exact h s1 s2 hs s1 s2 hs

theorem set {s1 s2 : St} (h : Alike s1 s2) : M.Same (M.set s1) (M.set s2) :=
  fun _ _ _ => .inr ⟨_, _, _, rfl, rfl, h⟩

end M.Same

theorem ruleLoop_same (rule : Rule) (card : Card) (cp : Bool) (len n : Nat) : ∀ rem acc,
    M.Same (ruleLoop rule card cp len n rem acc) (ruleLoop rule card cp len n rem acc) := by
  induction n with
  | zero => intro rem acc; exact .outOfFuel
  | succ n ih =>
    intro rem acc
    unfold ruleLoop
    cases toResult rule rem with
    | panic => exact .lift _
    | err => exact .pure _
    | ok res =>
      dsimp only
      cases res.results with
      | none => exact .pure _
      | some l =>
        cases l with
        | nil => exact .lift _
        | cons m ms =>
          dsimp only
          refine .bind (.lift _) ?_
          intro i
          refine .bind ?_ ?_
          · intro s1 s2 hs
            right
            refine ⟨.ok (), _, _, rfl, rfl, ?_⟩
            split
            · exact ⟨rfl, rfl, hs.2.2⟩
            · exact hs
          · intro _
            split
            · exact .pure _
            · split
              · exact .pure _
              · split
                · exact .lift _
                · split
                  · exact .pure _
                  · exact ih _ _

theorem ruleToRuleMatch_same (n : Nat) (r : Rule) (k : Card) (s : Str) (ch : Bool) :
    M.Same (ruleToRuleMatch n r k s ch) (ruleToRuleMatch n r k s ch) := by
  unfold ruleToRuleMatch
  refine .get_bind ?_
  intro s1 s2 hs
  rw [hs.1, hs.2.1]
  refine .bind (ruleLoop_same _ _ _ _ _ _ _) ?_
  intro l
  refine .get_bind ?_
  intro s1 s2 hs
  rw [hs.1, hs.2.1]
  exact .pure _

theorem fetchFirstRule_same (deps : List Element) (n : Nat) : ∀ name,
    M.Same (fetchFirstRule deps n name) (fetchFirstRule deps n name) := by
  induction n with
  | zero => intro name; exact .outOfFuel
  | succ n ih =>
    intro name
    simp only [fetchFirstRule]
    refine .bind (.lift _) ?_
    intro e
    split
    · exact .lift _
    · split
      · exact .lift _
      · exact ih _
      · exact .pure _
      · exact ih _
      · exact .lift _

theorem buildNext_same (deps : List Element) (n : Nat) (c : PContainer) :
    M.Same (buildNextElement deps n c) (buildNextElement deps n c) := by
  cases c with
  | rule r k => exact .lift _
  | token e sp k => exact .bind (fetchFirstRule_same _ _ _) (fun _ => .lift _)
  | recursive nm sp k => exact .bind (fetchFirstRule_same _ _ _) (fun _ => .lift _)
  | lines ls => exact .lift _

theorem bestLoop_same {f g : Line → M (Option (List BlockMatch))} (hf : ∀ l, M.Same (f l) (g l)) (ls : List Line) :
    ∀ i b, M.Same (bestLoop f ls i b) (bestLoop g ls i b) := by
  induction ls with
  | nil => intro i b; exact .pure _
  | cons l ls ih =>
    intro i b
    refine .bind (hf l) ?_
    intro m
    cases m with
    | none => exact ih _ _
    | some m => exact ih _ _

theorem channelLoop_same {f g : Path → M Token} (hf : ∀ p, M.Same (f p) (g p)) (ps : List Path) :
    M.Same (channelLoop f ps) (channelLoop g ps) := by
  induction ps with
  | nil => exact .pure _
  | cons p ps ih =>
    refine .bind (hf p) ?_
    intro t
    split
    · exact ih
    · split
      · exact .pure _
      · exact .lift _

theorem lineLoop_same {f g : PContainer → Str → Bool → Bool → M (Option BlockMatch)}
    (hf : ∀ c r a b, M.Same (f c r a b) (g c r a b)) (is : List Instruction) :
    ∀ a b rem acc, M.Same (lineLoop f is a b rem acc) (lineLoop g is a b rem acc) := by
  induction is with
  | nil => intro a b rem acc; exact .pure _
  | cons i is ih =>
    intro a b rem acc
    cases i with
    | channelSwitch => exact ih _ _ _ _
    | container c =>
      refine .bind (hf _ _ _ _) ?_
      intro m
      cases m with
      | none => exact .pure _
      | some x =>
        dsimp only
        split
        · exact .pure _
        · split
          · exact .pure _
          · exact ih _ _ _ _

theorem tokenLoop_same {f g : Str → M Token} (hf : ∀ r, M.Same (f r) (g r)) (card : Card) (n : Nat) :
    ∀ rem acc, M.Same (tokenLoop f card n rem acc) (tokenLoop g card n rem acc) := by
  induction n with
  | zero => intro rem acc; exact .outOfFuel
  | succ n ih =>
    intro rem acc
    refine .bind (hf _) ?_
    intro t
    split
    · exact .pure _
    · split
      · exact .lift _
      · dsimp only
        split
        · exact .pure _
        · split
          · exact .pure _
          · exact ih _ _

structure SameAt (env env' : Env) (n : Nat) : Prop where
  elem : ∀ e deps s c, M.Same (elementToToken env n e deps s c) (elementToToken env' n e deps s c)
  content : ∀ e deps s c, M.Same (elementToTokenContent env n e deps s c) (elementToTokenContent env' n e deps s c)
  best : ∀ ls deps s c, M.Same (bestLineToMatches env n ls deps s c) (bestLineToMatches env' n ls deps s c)
  line : ∀ line deps s c, M.Same (lineToMatches env n line deps s c) (lineToMatches env' n line deps s c)
  block : ∀ p deps s c x, M.Same (containerToBlockMatch env n p deps s c x) (containerToBlockMatch env' n p deps s c x)
  chan : ∀ p deps s x, s ≠ [] → M.Same (findChannelBlockMatch env n p deps s x) (findChannelBlockMatch env' n p deps s x)
  mtch : ∀ p deps s x, M.Same (containerToMatch env n p deps s x) (containerToMatch env' n p deps s x)
  tok : ∀ e sp k deps s x, M.Same (tokenToTokenMatch env n e sp k deps s x) (tokenToTokenMatch env' n e sp k deps s x)

/-- Two matchers whose channels find the same. -/
theorem same_all2 {env env' : Env} (hch : ∀ n, SameAt env env' n → ∀ k k' s, s ≠ [] →
      M.Same (channelLoop (fun p => elementToToken env n p.element p.deps s false) (env.channels k))
        (channelLoop (fun p => elementToToken env' n p.element p.deps s false) (env'.channels k'))) (n : Nat) : SameAt env env' n := by
  induction n with
  | zero => constructor <;> intros <;> exact M.Same.outOfFuel
  | succ n ih =>
    constructor
    · intro e deps s c
      simp only [elementToToken]
      refine .bind (ih.content _ _ _ _) ?_
      intro o
      split
      · exact .lift _
      · exact .pure _
    · intro e deps s c
      simp only [elementToTokenContent]
      refine .bind (ih.best _ _ _ _) ?_
      intro m
      cases m with
      | none => exact .pure _
      | some m =>
        dsimp only
        split
        · exact .pure _
        · exact .bind (ih.best _ _ _ _) (fun _ => .pure _)
    · intro ls deps s c
      simp only [bestLineToMatches]
      exact .bind (bestLoop_same (fun l => ih.line _ _ _ _) _ _ _) (fun _ => .pure _)
    · intro line deps s c
      simp only [lineToMatches]
      exact lineLoop_same (fun c r a b => ih.block _ _ _ _ _) _ _ _ _ _
    · intro p deps s c x
      simp only [containerToBlockMatch]
      split
      · refine .bind (.lift _) ?_
        intro k
        split
        · exact .pure _
        · exact .bind (buildNext_same _ _ _) (fun _ => .pure _)
      · rename_i hne
        refine .bind ?_ ?_
        · split
          · exact ih.chan _ _ _ _ hne
          · exact .pure _
        · intro b
          cases b with
          | some b => exact .pure _
          | none =>
            refine .bind (ih.mtch _ _ _ _) ?_
            intro m
            cases m <;> exact .pure _
    · intro p deps s x hne
      simp only [findChannelBlockMatch]
      refine .get_bind ?_
      intro s1 s2 hs
      refine .bind (.set hs) ?_
      intro _
      refine .bind (hch n ih _ _ _ hne) ?_
      intro l
      cases l with
      | none => exact .pure _
      | some l =>
        dsimp only
        split
        · exact .pure _
        · refine .bind (ih.block _ _ _ _ _) ?_
          intro b
          cases b <;> exact .pure _
    · intro p deps s x
      cases p with
      | token e sp k =>
        simp only [containerToMatch]
        exact .bind (ih.tok _ _ _ _ _ _) (fun _ => .pure _)
      | rule r k =>
        simp only [containerToMatch]
        exact .bind (ruleToRuleMatch_same _ _ _ _ _) (fun _ => .pure _)
      | recursive nm sp k =>
        simp only [containerToMatch]
        refine .get_bind ?_
        intro s1 s2 hs
        rw [hs.2.2]
        split
        · exact .bind (.set ⟨hs.1, hs.2.1, rfl⟩) (fun _ => .pure _)
        · refine .bind (.set ⟨hs.1, hs.2.1, rfl⟩) ?_
          intro _
          refine .bind (.lift _) ?_
          intro e
          exact .bind (ih.tok _ _ _ _ _ _) (fun _ => .pure _)
      | lines ls =>
        simp only [containerToMatch]
        refine .bind (ih.best _ _ _ _) ?_
        intro l
        cases l <;> exact .pure _
    · intro e sp k deps s x
      simp only [tokenToTokenMatch]
      exact .bind (tokenLoop_same (fun r => ih.elem _ _ _ _) _ _ _ _) (fun _ => .lift _)

theorem same_all {env : Env} {chans : List Path} (hch : ∀ k, env.channels k = chans) (n : Nat) : SameAt env env n := by
  refine same_all2 ?_ n
  intro n ih k k' s _
  rw [hch k, hch k']
  exact channelLoop_same (fun p => ih.elem _ _ _ _) _

theorem toToken_same2 {env env' : Env} (hr : env.root = env'.root) {n : Nat} (h : SameAt env env' n) (script : Str) {s1 s2 : St}
    (h1 : s1.canPrefix = false) (h2 : s2.canPrefix = false) :
    (toToken env n script s1 = none ∧ toToken env' n script s2 = none) ∨
    ∃ r s1' s2', toToken env n script s1 = some (r, s1') ∧ toToken env' n script s2 = some (r, s2') ∧ Alike s1' s2' := by
  unfold toToken
  rw [M.bind_some_ok (M.get_run _), M.bind_some_ok (M.set_run _ _), M.bind_some_ok (M.get_run _), M.bind_some_ok (M.set_run _ _), hr]
  exact h.elem _ _ _ _ _ _ ⟨h1, h2, rfl⟩

theorem toToken_same {env : Env} {chans : List Path} (hch : ∀ k, env.channels k = chans) (n : Nat) (script : Str) {s1 s2 : St}
    (h1 : s1.canPrefix = false) (h2 : s2.canPrefix = false) :
    (toToken env n script s1 = none ∧ toToken env n script s2 = none) ∨
    ∃ r s1' s2', toToken env n script s1 = some (r, s1') ∧ toToken env n script s2 = some (r, s2') ∧ Alike s1' s2' := by
  unfold toToken
  rw [M.bind_some_ok (M.get_run _), M.bind_some_ok (M.set_run _ _), M.bind_some_ok (M.get_run _), M.bind_some_ok (M.set_run _ _)]
  exact (same_all hch n).elem _ _ _ _ _ _ ⟨h1, h2, rfl⟩

end Verif.Lexer
