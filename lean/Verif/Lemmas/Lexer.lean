import Verif.Spec.Lexer
import Verif.Lemmas.Strings
import Verif.Props.Patterns

namespace Verif.Lexer
open Verif.Patterns Verif.Cardinality

/-! ## The monad -/

namespace M

theorem bind_def {α β} (x : M α) (f : α → M β) (s : St) : (x >>= f) s = match x s with
  | none => none
  | some (.ok a, s') => f a s'
  | some (.err, s') => some (.err, s')
  | some (.panic, s') => some (.panic, s') := rfl

theorem bind_ok {α β} {x : M α} {f : α → M β} {s s' : St} {b : β} :
    (x >>= f) s = some (.ok b, s') ↔ ∃ a s1, x s = some (.ok a, s1) ∧ f a s1 = some (.ok b, s') := by
  rw [bind_def]
  split <;> rename_i h <;> simp [h]

theorem bind_none {α β} {x : M α} {f : α → M β} {s : St} :
    (x >>= f) s = none ↔ x s = none ∨ ∃ a s1, x s = some (.ok a, s1) ∧ f a s1 = none := by
  rw [bind_def]
  split <;> rename_i h <;> simp [h]

theorem bind_some_ok {α β} {x : M α} {f : α → M β} {s s1 : St} {a : α} (h : x s = some (.ok a, s1)) :
    (x >>= f) s = f a s1 := by rw [bind_def, h]

@[simp] theorem pure_run {α} (a : α) (s : St) : (pure a : M α) s = some (.ok a, s) := rfl
@[simp] theorem lift_run {α} (o : Out α) (s : St) : (lift o) s = some (o, s) := rfl
@[simp] theorem get_run (s : St) : get s = some (.ok s, s) := rfl
@[simp] theorem set_run (s s' : St) : set s s' = some (.ok (), s) := rfl
@[simp] theorem outOfFuel_run {α} (s : St) : (outOfFuel : M α) s = none := rfl

/-- `x` does no less than `y`: every completed run of `x` is a run of `y`. -/
def Le {α} (x y : M α) : Prop := ∀ s r, x s = some r → y s = some r

theorem Le.refl {α} (x : M α) : Le x x := fun _ _ h => h

theorem Le.bind {α β} {x y : M α} {f g : α → M β} (h : Le x y) (hf : ∀ a, Le (f a) (g a)) : Le (x >>= f) (y >>= g) := by
  intro s r
  rw [bind_def, bind_def]
  cases hx : x s with
  | none => simp
  | some p =>
    rw [h s p hx]
    obtain ⟨o, s1⟩ := p
    cases o with
    | ok a => exact hf a s1 r
    | err => exact id
    | panic => exact id

theorem Le.outOfFuel {α} (x : M α) : Le M.outOfFuel x := by intro s r h; simp at h

end M

/-- What a completed run with result shows. -/
def shows {α β} (f : α → β) (x : Option (Out α × St)) : Option (Option β) :=
  x.map (fun y => match y.1 with | .ok t => some (f t) | _ => none)

theorem of_shows {α β} {f : α → β} {x : Option (Out α × St)} {v : β} (h : shows f x = some (some v)) :
    ∃ t st', x = some (.ok t, st') ∧ f t = v := by
  match x with
  | none => simp [shows] at h
  | some (.ok t, st') => simp [shows] at h; exact ⟨t, st', rfl, h⟩
  | some (.err, st') => simp [shows] at h
  | some (.panic, st') => simp [shows] at h

/-! ## More steps do not change a completed run -/

theorem bestLoop_mono {f g : Line → M (Option (List BlockMatch))} (h : ∀ l, M.Le (f l) (g l)) (ls : List Line) :
    ∀ i b, M.Le (bestLoop f ls i b) (bestLoop g ls i b) := by
  induction ls with
  | nil => intro i b; exact M.Le.refl _
  | cons l ls ih =>
    intro i b
    refine M.Le.bind (h l) ?_
    intro a
    cases a <;> exact ih _ _

theorem channelLoop_mono {f g : Path → M Token} (h : ∀ l, M.Le (f l) (g l)) (ls : List Path) :
    M.Le (channelLoop f ls) (channelLoop g ls) := by
  induction ls with
  | nil => exact M.Le.refl _
  | cons l ls ih =>
    refine M.Le.bind (h l) ?_
    intro t
    split
    · exact ih
    · exact M.Le.refl _

theorem lineLoop_mono {f g : PContainer → Str → Bool → Bool → M (Option BlockMatch)}
    (h : ∀ c r a b, M.Le (f c r a b) (g c r a b)) (is : List Instruction) :
    ∀ a b r acc, M.Le (lineLoop f is a b r acc) (lineLoop g is a b r acc) := by
  induction is with
  | nil => intro a b r acc; exact M.Le.refl _
  | cons i is ih =>
    intro a b r acc
    cases i with
    | channelSwitch => exact ih _ _ _ _
    | container c =>
      refine M.Le.bind (h _ _ _ _) ?_
      intro m
      cases m with
      | none => exact M.Le.refl _
      | some x =>
        dsimp only
        split
        · exact M.Le.refl _
        · split
          · exact M.Le.refl _
          · exact ih _ _ _ _

theorem tokenLoop_mono {f g : Str → M Token} (h : ∀ r, M.Le (f r) (g r)) (card : Card) (n : Nat) :
    ∀ m, n ≤ m → ∀ r acc, M.Le (tokenLoop f card n r acc) (tokenLoop g card m r acc) := by
  induction n with
  | zero => intro m _ r acc; exact M.Le.outOfFuel _
  | succ n ih =>
    intro m hm r acc
    obtain ⟨m, rfl⟩ : ∃ k, m = k + 1 := ⟨m - 1, by omega⟩
    refine M.Le.bind (h r) ?_
    intro t
    dsimp only
    split
    · exact M.Le.refl _
    · cases t.content with
      | none => exact M.Le.refl _
      | some c =>
        dsimp only
        split
        · exact M.Le.refl _
        · split
          · exact M.Le.refl _
          · exact ih _ (by omega) _ _

theorem ruleLoop_mono (rule : Rule) (card : Card) (cp : Bool) (len n : Nat) :
    ∀ m, n ≤ m → ∀ r acc, M.Le (ruleLoop rule card cp len n r acc) (ruleLoop rule card cp len m r acc) := by
  induction n with
  | zero => intro m _ r acc; exact M.Le.outOfFuel _
  | succ n ih =>
    intro m hm r acc
    obtain ⟨m, rfl⟩ : ∃ k, m = k + 1 := ⟨m - 1, by omega⟩
    unfold ruleLoop
    cases toResult rule r with
    | panic => exact M.Le.refl _
    | err => exact M.Le.refl _
    | ok res =>
      dsimp only
      split
      · exact M.Le.refl _
      · exact M.Le.refl _
      · refine M.Le.bind (M.Le.refl _) ?_
        intro i
        refine M.Le.bind (M.Le.refl _) ?_
        intro _
        split
        · exact M.Le.refl _
        · split
          · exact M.Le.refl _
          · split
            · exact M.Le.refl _
            · split
              · exact M.Le.refl _
              · exact ih _ (by omega) _ _

theorem fetchFirstRule_mono (deps : List Element) (n : Nat) :
    ∀ m, n ≤ m → ∀ name, M.Le (fetchFirstRule deps n name) (fetchFirstRule deps m name) := by
  induction n with
  | zero => intro m _ name; exact M.Le.outOfFuel _
  | succ n ih =>
    intro m hm name
    obtain ⟨m, rfl⟩ : ∃ k, m = k + 1 := ⟨m - 1, by omega⟩
    refine M.Le.bind (M.Le.refl _) ?_
    intro e
    split
    · exact M.Le.refl _
    · split
      · exact M.Le.refl _
      · exact ih _ (by omega) _
      · exact M.Le.refl _
      · exact ih _ (by omega) _
      · exact M.Le.refl _

theorem buildNextElement_mono (deps : List Element) (n m : Nat) (h : n ≤ m) (c : PContainer) :
    M.Le (buildNextElement deps n c) (buildNextElement deps m c) := by
  cases c with
  | token e s k => exact M.Le.bind (fetchFirstRule_mono deps n m h _) (fun _ => M.Le.refl _)
  | rule r k => exact M.Le.refl _
  | recursive nm s k => exact M.Le.bind (fetchFirstRule_mono deps n m h _) (fun _ => M.Le.refl _)
  | lines ls => exact M.Le.refl _

theorem ruleToRuleMatch_mono (n m : Nat) (h : n ≤ m) (r : Rule) (k : Card) (s : Str) (c : Bool) :
    M.Le (ruleToRuleMatch n r k s c) (ruleToRuleMatch m r k s c) :=
  M.Le.bind (M.Le.refl _) (fun _ => M.Le.bind (ruleLoop_mono _ _ _ _ n m h _ _) (fun _ => M.Le.refl _))

structure Mono (env : Env) (n m : Nat) : Prop where
  elem : ∀ e deps s c, M.Le (elementToToken env n e deps s c) (elementToToken env m e deps s c)
  content : ∀ e deps s c, M.Le (elementToTokenContent env n e deps s c) (elementToTokenContent env m e deps s c)
  best : ∀ ls deps s c, M.Le (bestLineToMatches env n ls deps s c) (bestLineToMatches env m ls deps s c)
  line : ∀ l deps s c, M.Le (lineToMatches env n l deps s c) (lineToMatches env m l deps s c)
  block : ∀ p deps s c x, M.Le (containerToBlockMatch env n p deps s c x) (containerToBlockMatch env m p deps s c x)
  chan : ∀ p deps s x, M.Le (findChannelBlockMatch env n p deps s x) (findChannelBlockMatch env m p deps s x)
  mtch : ∀ p deps s x, M.Le (containerToMatch env n p deps s x) (containerToMatch env m p deps s x)
  tok : ∀ e sp k deps s x, M.Le (tokenToTokenMatch env n e sp k deps s x) (tokenToTokenMatch env m e sp k deps s x)

theorem mono (env : Env) (n : Nat) : ∀ m, n ≤ m → Mono env n m := by
  induction n with
  | zero =>
    intro m _
    constructor <;> intros <;> intro s r h
    · simp [elementToToken] at h
    · simp [elementToTokenContent] at h
    · simp [bestLineToMatches] at h
    · simp [lineToMatches] at h
    · simp [containerToBlockMatch] at h
    · simp [findChannelBlockMatch] at h
    · simp [containerToMatch] at h
    · simp [tokenToTokenMatch] at h
  | succ n ih =>
    intro m hm
    obtain ⟨m, rfl⟩ : ∃ k, m = k + 1 := ⟨m - 1, by omega⟩
    have hnm : n ≤ m := by omega
    have ih := ih m hnm
    constructor
    · intro e deps s c
      simp only [elementToToken]
      exact M.Le.bind (ih.content _ _ _ _) (fun _ => M.Le.refl _)
    · intro e deps s c
      simp only [elementToTokenContent]
      refine M.Le.bind (ih.best _ _ _ _) ?_
      intro a
      cases a with
      | none => exact M.Le.refl _
      | some a =>
        dsimp only
        split
        · exact M.Le.refl _
        · exact M.Le.bind (ih.best _ _ _ _) (fun _ => M.Le.refl _)
    · intro ls deps s c
      simp only [bestLineToMatches]
      exact M.Le.bind (bestLoop_mono (fun _ => ih.line _ _ _ _) _ _ _) (fun _ => M.Le.refl _)
    · intro l deps s c
      simp only [lineToMatches]
      exact lineLoop_mono (fun _ _ _ _ => ih.block _ _ _ _ _) _ _ _ _ _
    · intro p deps s c x
      simp only [containerToBlockMatch]
      split
      · refine M.Le.bind (M.Le.refl _) ?_
        intro card
        split
        · exact M.Le.refl _
        · exact M.Le.bind (buildNextElement_mono _ _ _ hnm _) (fun _ => M.Le.refl _)
      · refine M.Le.bind ?_ ?_
        · split
          · exact ih.chan _ _ _ _
          · exact M.Le.refl _
        · intro b
          cases b with
          | some b => exact M.Le.refl _
          | none => exact M.Le.bind (ih.mtch _ _ _ _) (fun _ => M.Le.refl _)
    · intro p deps s x
      simp only [findChannelBlockMatch]
      refine M.Le.bind (M.Le.refl _) (fun st => M.Le.bind (M.Le.refl _) (fun _ => ?_))
      refine M.Le.bind (channelLoop_mono (fun _ => ih.elem _ _ _ _) _) ?_
      intro a
      cases a with
      | none => exact M.Le.refl _
      | some a =>
        dsimp only
        split
        · exact M.Le.refl _
        · exact M.Le.bind (ih.block _ _ _ _ _) (fun _ => M.Le.refl _)
    · intro p deps s x
      cases p with
      | token e sp k =>
        simp only [containerToMatch]
        exact M.Le.bind (ih.tok _ _ _ _ _ _) (fun _ => M.Le.refl _)
      | rule r k =>
        simp only [containerToMatch]
        exact M.Le.bind (ruleToRuleMatch_mono _ _ hnm _ _ _ _) (fun _ => M.Le.refl _)
      | recursive nm sp k =>
        simp only [containerToMatch]
        refine M.Le.bind (M.Le.refl _) (fun st => ?_)
        split
        · exact M.Le.refl _
        · refine M.Le.bind (M.Le.refl _) (fun _ => M.Le.bind (M.Le.refl _) (fun _ => ?_))
          exact M.Le.bind (ih.tok _ _ _ _ _ _) (fun _ => M.Le.refl _)
      | lines ls =>
        simp only [containerToMatch]
        exact M.Le.bind (ih.best _ _ _ _) (fun _ => M.Le.refl _)
    · intro e sp k deps s x
      simp only [tokenToTokenMatch]
      exact M.Le.bind (tokenLoop_mono (fun _ => ih.elem _ _ _ _) _ _ _ hnm _ _) (fun _ => M.Le.refl _)

theorem toToken_mono (env : Env) (n m : Nat) (h : n ≤ m) (script : Str) :
    M.Le (toToken env n script) (toToken env m script) :=
  M.Le.bind (M.Le.refl _) (fun _ => M.Le.bind (M.Le.refl _) (fun _ => (mono env n m h).elem _ _ _ _))

end Verif.Lexer
