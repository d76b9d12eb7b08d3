import Verif.Spec.LexerReps
import Verif.Lemmas.LexerSound

namespace Verif.Lexer
open Verif.Patterns Verif.Cardinality

/-- Every result of `x` satisfies `Q`. -/
def M.Post {α} (x : M α) (Q : α → Prop) : Prop := ∀ s a s', x s = some (.ok a, s') → Q a

theorem M.Post.bind {α β} {x : M α} {f : α → M β} {P : α → Prop} {Q : β → Prop} (hx : M.Post x P)
    (hf : ∀ a, P a → M.Post (f a) Q) : M.Post (x >>= f) Q := by
  intro s b s' h
  obtain ⟨a, s1, h1, h2⟩ := M.bind_ok.mp h
  exact hf a (hx _ _ _ h1) _ _ _ h2

theorem M.Post.pure {α} {a : α} {Q : α → Prop} (h : Q a) : M.Post (pure a : M α) Q := by
  intro s b s' hb
  simp at hb; obtain ⟨rfl, _⟩ := hb; exact h

theorem M.Post.lift {α} {o : Out α} {Q : α → Prop} (h : ∀ a, o = .ok a → Q a) : M.Post (M.lift o) Q := by
  intro s b s' hb
  simp at hb; exact h _ hb.1

theorem M.Post.outOfFuel {α} {Q : α → Prop} : M.Post (M.outOfFuel : M α) Q := by
  intro s b s' hb
  simp at hb

theorem M.Post.true {α} (x : M α) : M.Post x (fun _ => True) := fun _ _ _ _ => trivial

/-- All the parts respect the maximum. -/
def RepsOK (l : List Rep) : Prop := ∀ r ∈ l, AtMost r.card r.amount

theorem RepsOK.nil : RepsOK [] := by simp [RepsOK]
theorem RepsOK.append {a b : List Rep} (h : RepsOK a) (h' : RepsOK b) : RepsOK (a ++ b) := by
  intro r hr
  rcases List.mem_append.mp hr with hr | hr
  · exact h r hr
  · exact h' r hr

def OptReps : Option LineMatch → List Rep
  | none => []
  | some l => l.reps

theorem TokenContent.reps_must {c : TokenContent} {n : Str} (h : RepsOK (Token.reps (.mk n (some c)))) : RepsOK c.must.reps := by
  match c with
  | .mk m none => exact h
  | .mk m (some x) => exact fun r hr => h r (by simp [Token.reps]; left; exact hr)

theorem blocksReps_append (a b : List BlockMatch) : blocksReps (a ++ b) = blocksReps a ++ blocksReps b := by
  induction a with
  | nil => rfl
  | cons x xs ih => simp [blocksReps, ih]

theorem tokensReps_append (a b : List Token) : tokensReps (a ++ b) = tokensReps a ++ tokensReps b := by
  induction a with
  | nil => rfl
  | cons x xs ih => simp [tokensReps, ih]

def OptOK {α} (f : α → List Rep) : Option α → Prop
  | none => True
  | some a => RepsOK (f a)

theorem bestLoop_reps {f : Line → M (Option (List BlockMatch))} (hf : ∀ l, M.Post (f l) (OptOK blocksReps))
    (ls : List Line) : ∀ i b, OptOK LineMatch.reps b.valid → OptOK LineMatch.reps b.invalid →
      M.Post (bestLoop f ls i b) (fun b => OptOK LineMatch.reps b.valid ∧ OptOK LineMatch.reps b.invalid) := by
  induction ls with
  | nil => intro i b h1 h2; exact M.Post.pure ⟨h1, h2⟩
  | cons l ls ih =>
    intro i b h1 h2
    refine M.Post.bind (hf l) ?_
    intro m hm
    cases m with
    | none => exact ih _ _ h1 h2
    | some m =>
      refine ih _ _ ?_ ?_
      · unfold Best.step
        split
        · split <;> exact h1
        · dsimp only; split
          · exact hm
          · exact h1
      · unfold Best.step
        split
        · split
          · exact hm
          · exact h2
        · dsimp only; split <;> exact h2

theorem channelLoop_reps {f : Path → M Token} (hf : ∀ p, M.Post (f p) (fun t => RepsOK t.reps)) (ps : List Path) :
    M.Post (channelLoop f ps) (OptOK LineMatch.reps) := by
  induction ps with
  | nil => exact M.Post.pure trivial
  | cons p ps ih =>
    refine M.Post.bind (hf p) ?_
    intro t ht
    split
    · exact ih
    · match t, ht with
      | .mk n none, _ => exact M.Post.lift (by simp)
      | .mk n (some c), ht => exact M.Post.pure (TokenContent.reps_must ht)

theorem lineLoop_reps {f : PContainer → Str → Bool → Bool → M (Option BlockMatch)}
    (hf : ∀ c r a b, M.Post (f c r a b) (OptOK BlockMatch.reps)) (is : List Instruction) :
    ∀ a b rem acc, RepsOK (blocksReps acc) → M.Post (lineLoop f is a b rem acc) (OptOK blocksReps) := by
  induction is with
  | nil => intro a b rem acc h; refine M.Post.pure ?_; split <;> trivial
  | cons i is ih =>
    intro a b rem acc h
    cases i with
    | channelSwitch => exact ih _ _ _ _ h
    | container c =>
      refine M.Post.bind (hf _ _ _ _) ?_
      intro m hm
      cases m with
      | none => refine M.Post.pure ?_; split <;> trivial
      | some x =>
        dsimp only
        split
        · exact M.Post.pure (by simpa [OptOK, blocksReps] using hm)
        · split
          · exact M.Post.pure trivial
          · refine ih _ _ _ _ ?_
            rw [blocksReps_append]
            exact h.append (by simpa [OptOK, blocksReps] using hm)

theorem tokenLoop_reps {f : Str → M Token} (hf : ∀ r, M.Post (f r) (fun t => RepsOK t.reps)) (card : Card) (n : Nat) :
    ∀ rem acc, RepsOK (tokensReps acc) → Below card acc.length →
      M.Post (tokenLoop f card n rem acc) (fun l => RepsOK (tokensReps l) ∧ AtMost card l.length) := by
  induction n with
  | zero => intro rem acc _ _; exact M.Post.outOfFuel
  | succ n ih =>
    intro rem acc h hb
    refine M.Post.bind (hf _) ?_
    intro t ht
    have hat : AtMost card (acc ++ [t]).length := by simpa using hb.succ
    have hacc : RepsOK (tokensReps (acc ++ [t])) := by
      rw [tokensReps_append]; exact h.append (by simpa [tokensReps] using ht)
    split
    · exact M.Post.pure ⟨h, hb.atMost⟩
    · cases t.content with
      | none => exact M.Post.lift (by simp)
      | some c =>
        dsimp only
        split
        · exact M.Post.pure ⟨hacc, hat⟩
        · split
          · exact M.Post.pure ⟨hacc, hat⟩
          · rename_i hr
            exact ih _ _ hacc (by simpa using hb.next (by simpa using hr))

structure RepsSound (env : Env) (n : Nat) : Prop where
  elem : ∀ e deps s c, M.Post (elementToToken env n e deps s c) (fun t => RepsOK t.reps)
  content : ∀ e deps s c, M.Post (elementToTokenContent env n e deps s c)
    (fun o => ∀ nm, RepsOK (Token.reps (.mk nm o)))
  best : ∀ ls deps s c, M.Post (bestLineToMatches env n ls deps s c) (OptOK LineMatch.reps)
  line : ∀ l deps s c, M.Post (lineToMatches env n l deps s c) (OptOK blocksReps)
  block : ∀ p deps s c x, M.Post (containerToBlockMatch env n p deps s c x) (OptOK BlockMatch.reps)
  chan : ∀ p deps s x, M.Post (findChannelBlockMatch env n p deps s x) (OptOK BlockMatch.reps)
  mtch : ∀ p deps s x, M.Post (containerToMatch env n p deps s x) (OptOK Match.reps)
  tok : ∀ e sp k deps s x, M.Post (tokenToTokenMatch env n e sp k deps s x) (fun t => RepsOK t.reps)

theorem wrapToken_reps {t : TokenMatch} (h : RepsOK t.reps) : OptOK Match.reps (some (wrapToken t)) := by
  unfold wrapToken; split <;> exact h

theorem repsSound (env : Env) (n : Nat) : RepsSound env n := by
  induction n with
  | zero =>
    constructor <;> intros <;> try exact M.Post.outOfFuel
  | succ n ih =>
    constructor
    · intro e deps s c
      simp only [elementToToken]
      refine M.Post.bind (ih.content _ _ _ _) ?_
      intro o ho
      split
      · exact M.Post.lift (by simp)
      · exact M.Post.pure (ho _)
    · intro e deps s c
      simp only [elementToTokenContent]
      refine M.Post.bind (ih.best _ _ _ _) ?_
      intro m hm
      cases m with
      | none => exact M.Post.pure (fun _ => RepsOK.nil)
      | some m =>
        dsimp only
        split
        · exact M.Post.pure (fun _ => hm)
        · refine M.Post.bind (ih.best _ _ _ _) ?_
          intro x hx
          refine M.Post.pure (fun _ => ?_)
          cases x with
          | none => exact hm
          | some x => exact RepsOK.append hm hx
    · intro ls deps s c
      simp only [bestLineToMatches]
      refine M.Post.bind (bestLoop_reps (fun l => ih.line l _ _ _) _ _ _ trivial trivial) ?_
      intro b hb
      refine M.Post.pure ?_
      unfold Best.result
      cases hv : b.valid with
      | none => exact hb.2
      | some l => simpa [hv] using hb.1
    · intro l deps s c
      simp only [lineToMatches]
      exact lineLoop_reps (fun c r a b => ih.block _ _ _ _ _) _ _ _ _ _ RepsOK.nil
    · intro p deps s c x
      simp only [containerToBlockMatch]
      split
      · refine M.Post.bind (M.Post.true _) ?_
        intro k _
        split
        · exact M.Post.pure trivial
        · refine M.Post.bind (M.Post.true _) ?_
          intro y _
          exact M.Post.pure RepsOK.nil
      · refine M.Post.bind (P := OptOK BlockMatch.reps) ?_ ?_
        · split
          · exact ih.chan _ _ _ _
          · exact M.Post.pure trivial
        · intro b hb
          cases b with
          | some b => exact M.Post.pure hb
          | none =>
            refine M.Post.bind (ih.mtch _ _ _ _) ?_
            intro m hm
            cases m with
            | none => exact M.Post.pure trivial
            | some m => exact M.Post.pure hm
    · intro p deps s x
      simp only [findChannelBlockMatch]
      refine M.Post.bind (M.Post.true _) ?_
      intro s0 _
      refine M.Post.bind (M.Post.true _) ?_
      intro _ _
      refine M.Post.bind (channelLoop_reps (fun p => ih.elem _ _ _ _) _) ?_
      intro l hl
      cases l with
      | none => exact M.Post.pure trivial
      | some l =>
        dsimp only
        split
        · exact M.Post.pure trivial
        · refine M.Post.bind (ih.block _ _ _ _ _) ?_
          intro b hb
          cases b with
          | none => exact M.Post.pure trivial
          | some b => exact M.Post.pure (RepsOK.append hl hb)
    · intro p deps s x
      cases p with
      | token e sp k =>
        simp only [containerToMatch]
        exact M.Post.bind (ih.tok _ _ _ _ _ _) (fun t ht => M.Post.pure (wrapToken_reps ht))
      | rule r k =>
        simp only [containerToMatch]
        refine M.Post.bind (P := fun y => AtMost y.card y.amount) ?_ ?_
        · unfold ruleToRuleMatch
          refine M.Post.bind (M.Post.true _) ?_
          intro s0 _
          refine M.Post.bind (P := fun l => AtMost k l.length) ?_ ?_
          · intro s1 l s2 hl
            exact (ruleLoop_text _ _ _ _ _ _ _ _ _ _ hl (by intro m _; simp)).1
          · intro l hl
            exact M.Post.bind (M.Post.true _) (fun s' _ => M.Post.pure hl)
        · intro y hy
          refine M.Post.pure ?_
          unfold wrapRule
          split <;> simpa [OptOK, Match.reps, RepsOK] using hy
      | recursive nm sp k =>
        simp only [containerToMatch]
        refine M.Post.bind (M.Post.true _) ?_
        intro s0 _
        split
        · exact M.Post.bind (M.Post.true _) (fun _ _ => M.Post.pure trivial)
        · refine M.Post.bind (M.Post.true _) ?_
          intro _ _
          refine M.Post.bind (M.Post.true _) ?_
          intro e _
          exact M.Post.bind (ih.tok _ _ _ _ _ _) (fun t ht => M.Post.pure (wrapToken_reps ht))
      | lines ls =>
        simp only [containerToMatch]
        refine M.Post.bind (ih.best _ _ _ _) ?_
        intro l hl
        cases l with
        | none => exact M.Post.pure trivial
        | some l => exact M.Post.pure hl
    · intro e sp k deps s x
      simp only [tokenToTokenMatch]
      refine M.Post.bind (tokenLoop_reps (fun r => ih.elem _ _ _ _) k _ _ _ RepsOK.nil (by intro m _; simp)) ?_
      intro l hl
      refine M.Post.lift ?_
      intro t ht
      unfold tokenMatchNow at ht
      split at ht
      · simp at ht
      · split at ht
        · simp at ht
        · simp at ht; subst ht
          intro r hr
          simp only [TokenMatch.reps, List.mem_cons] at hr
          rcases hr with rfl | hr
          · exact hl.2
          · exact hl.1 r hr

/-! Valid parts have a valid amount. -/

def RepsValid (l : List Rep) : Prop := ∀ r ∈ l, r.valid = true → r.card.isValid (UInt64.ofNat r.amount) = true

theorem RepsValid.append {a b : List Rep} (h : RepsValid a) (h' : RepsValid b) : RepsValid (a ++ b) := by
  intro r hr
  rcases List.mem_append.mp hr with hr | hr
  · exact h r hr
  · exact h' r hr

mutual
theorem Token.reps_valid : (t : Token) → RepsValid t.reps
  | .mk _ none => by simp [Token.reps, RepsValid]
  | .mk _ (some (.mk m none)) => m.reps_valid
  | .mk _ (some (.mk m (some n))) => m.reps_valid.append n.reps_valid
theorem LineMatch.reps_valid : (t : LineMatch) → RepsValid t.reps
  | .mk _ l => blocks_reps_valid l
theorem blocks_reps_valid : (l : List BlockMatch) → RepsValid (blocksReps l)
  | [] => by simp [blocksReps, RepsValid]
  | b :: bs => b.reps_valid.append (blocks_reps_valid bs)
theorem BlockMatch.reps_valid : (t : BlockMatch) → RepsValid t.reps
  | .mk none c => c.reps_valid
  | .mk (some p) c => p.reps_valid.append c.reps_valid
theorem BlockContent.reps_valid : (t : BlockContent) → RepsValid t.reps
  | .container m => m.reps_valid
  | .block b => b.reps_valid
  | .next _ => by simp [BlockContent.reps, RepsValid]
theorem Match.reps_valid : (t : Match) → RepsValid t.reps
  | .token t => t.reps_valid
  | .rule r => by
    intro x hx hv
    simp [Match.reps] at hx; subst hx
    simp only [RuleMatch.isValid, Bool.and_eq_true] at hv
    exact hv.1
  | .skipToken t => t.reps_valid
  | .skipRule r => by
    intro x hx hv
    simp [Match.reps] at hx; subst hx
    simp only [RuleMatch.isValid, Bool.and_eq_true] at hv
    exact hv.1
  | .line l => l.reps_valid
theorem TokenMatch.reps_valid : (t : TokenMatch) → RepsValid t.reps
  | .mk n (.mk i c l) sp => by
    intro x hx hv
    simp only [TokenMatch.reps, List.mem_cons] at hx
    rcases hx with rfl | hx
    · simp only [TokenMatch.isValid, TokenResult.isValid, Bool.and_eq_true] at hv
      exact hv.2.1
    · exact tokens_reps_valid l x hx hv
theorem tokens_reps_valid : (l : List Token) → RepsValid (tokensReps l)
  | [] => by simp [tokensReps, RepsValid]
  | t :: ts => t.reps_valid.append (tokens_reps_valid ts)
end

end Verif.Lexer
