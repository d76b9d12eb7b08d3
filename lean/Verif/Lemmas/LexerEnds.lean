import Verif.Lemmas.LexerLang
import Verif.Lemmas.LexerBest

/-! Termination. -/

namespace Verif.Lexer
open Verif.Patterns Verif.Cardinality

def Mon {α} (F : Nat → M α) : Prop := ∀ n m, n ≤ m → M.Le (F n) (F m)

def EndsAt {α} (F : Nat → M α) (st : St) : Prop := ∃ n r, F n st = some r

theorem Mon.const {α} (x : M α) : Mon (fun _ => x) := fun _ _ _ => M.Le.refl _

theorem Mon.bind {α β} {F : Nat → M α} {G : Nat → α → M β} (hF : Mon F) (hG : ∀ a, Mon (fun n => G n a)) :
    Mon (fun n => F n >>= G n) := fun n m h => M.Le.bind (hF n m h) (fun a => hG a n m h)

theorem EndsAt.bind {α β} {F : Nat → M α} {G : Nat → α → M β} {st : St} (hF : Mon F) (hG : ∀ a, Mon (fun n => G n a))
    (h : EndsAt F st) (h2 : ∀ n a s1, F n st = some (.ok a, s1) → EndsAt (fun n => G n a) s1) :
    EndsAt (fun n => F n >>= G n) st := by
  obtain ⟨n, r, hr⟩ := h
  match r, hr with
  | (.ok a, s1), hr =>
    obtain ⟨m, r', hr'⟩ := h2 n a s1 hr
    refine ⟨max n m, r', ?_⟩
    dsimp only
    rw [M.bind_some_ok (hF n (max n m) (le_max_left _ _) _ _ hr)]
    exact hG a m (max n m) (le_max_right _ _) _ _ hr'
  | (.err, s1), hr => exact ⟨n, (.err, s1), by dsimp only; rw [M.bind_def, hr]⟩
  | (.panic, s1), hr => exact ⟨n, (.panic, s1), by dsimp only; rw [M.bind_def, hr]⟩

theorem EndsAt.const {α} {x : M α} {st : St} {r : Out α × St} (h : x st = some r) : EndsAt (fun _ => x) st := ⟨0, r, h⟩

theorem EndsAt.pure {α} {a : α} {st : St} : EndsAt (fun _ => (pure a : M α)) st := .const rfl
theorem EndsAt.lift {α} {a : Out α} {st : St} : EndsAt (fun _ => M.lift a) st := .const rfl

theorem EndsAt.of_succ {α} {F : Nat → M α} {st : St} (h : EndsAt (fun n => F (n + 1)) st) : EndsAt F st := by
  obtain ⟨n, r, h⟩ := h
  exact ⟨n + 1, r, h⟩

/-! Loops -/

theorem bestLoop_ends {f : Nat → Line → M (Option (List BlockMatch))} (hm : ∀ l, Mon (fun n => f n l)) (ls : List Line)
    (h : ∀ l ∈ ls, ∀ st, EndsAt (fun n => f n l) st) : ∀ i b st, EndsAt (fun n => bestLoop (f n) ls i b) st := by
  induction ls with
  | nil => intro i b st; exact .pure
  | cons l ls ih =>
    intro i b st
    have ih := ih (fun l' hl' => h l' (by simp [hl']))
    refine EndsAt.bind (F := fun n => f n l) (G := fun n r => match r with
      | none => bestLoop (f n) ls (i + 1) b
      | some m => bestLoop (f n) ls (i + 1) (b.step i m)) (hm l) ?_ (h l (by simp) st) ?_
    · intro a n m hnm
      cases a <;> exact bestLoop_mono (fun l => hm l n m hnm) _ _ _
    · intro n a s1 _
      cases a <;> exact ih _ _ _

theorem channelLoop_ends {f : Nat → Path → M Token} (hm : ∀ l, Mon (fun n => f n l)) (ps : List Path)
    (h : ∀ l ∈ ps, ∀ st, EndsAt (fun n => f n l) st) : ∀ st, EndsAt (fun n => channelLoop (f n) ps) st := by
  induction ps with
  | nil => intro st; exact .pure
  | cons l ls ih =>
    intro st
    have ih := ih (fun l' hl' => h l' (by simp [hl']))
    refine EndsAt.bind (F := fun n => f n l) (G := fun n t => if !t.isValid then channelLoop (f n) ls
      else match t.content with
      | some c => pure (some c.must)
      | none => M.lift .panic) (hm l) ?_ (h l (by simp) st) ?_
    · intro t n m hnm
      dsimp only
      split
      · exact channelLoop_mono (fun l => hm l n m hnm) _
      · exact M.Le.refl _
    · intro n t s1 _
      cases t.isValid with
      | false => exact ih _
      | true =>
        cases t.content with
        | none => exact .lift
        | some c => exact .pure

theorem lineLoop_ends {f : Nat → PContainer → Str → Bool → Bool → M (Option BlockMatch)}
    (hm : ∀ c r a b, Mon (fun n => f n c r a b)) (P : Bool → Prop) (is : List Instruction) :
    (∀ c, .container c ∈ is → ∀ r a b st, P a → P b → EndsAt (fun n => f n c r a b) st) → P false →
    ((∀ b, P b) ∨ .channelSwitch ∉ is) → ∀ a b rem acc st, P a → P b → EndsAt (fun n => lineLoop (f n) is a b rem acc) st := by
  induction is with
  | nil => intro _ _ _ a b rem acc st _ _; exact .pure
  | cons i is ih =>
    intro h hP hsw a b rem acc st ha hb
    have ih := ih (fun c hc => h c (by simp [hc])) hP (hsw.imp_right (fun h hc => h (by simp [hc])))
    cases i with
    | channelSwitch =>
      rcases hsw with hsw | hsw
      · exact ih _ _ _ _ _ ha (hsw _)
      · simp at hsw
    | container c =>
      refine EndsAt.bind (F := fun n => f n c rem a b) (G := fun n m => match m with
        | none => pure (if acc.isEmpty then none else some acc)
        | some x => if !x.isValid then pure (some [x])
          else if !(x.discoveries.isPrefixOf rem) then pure none
          else lineLoop (f n) is (if b then a else false) b (replaceFirst rem x.discoveries) (acc ++ [x]))
        (hm _ _ _ _) ?_ (h c (by simp) _ _ _ _ ha hb) ?_
      · intro x n m hnm
        cases x with
        | none => exact M.Le.refl _
        | some x =>
          dsimp only
          split
          · exact M.Le.refl _
          · split
            · exact M.Le.refl _
            · exact lineLoop_mono (fun c r a b => hm c r a b n m hnm) _ _ _ _ _
      · intro n x s1 _
        cases x with
        | none => exact .pure
        | some x =>
          dsimp only
          cases x.isValid with
          | false => exact .pure
          | true =>
            cases hx : x.discoveries.isPrefixOf rem with
            | false => exact .pure
            | true => exact ih _ _ _ _ _ (by cases b <;> simp [hP, ha]) hb

theorem tokenLoop_ends {f : Nat → Str → M Token} (hm : ∀ r, Mon (fun n => f n r))
    (h : ∀ r st, EndsAt (fun n => f n r) st) (card : Card) (μ : Str → List Token → Nat)
    (hμ : ∀ n rem acc st t st' c, f n rem st = some (.ok t, st') → t.isValid = true → t.content = some c →
      c.must.discoveries <+: rem → reachedMax card (acc.length + 1) = false →
      μ (rem.drop c.must.discoveries.length) (acc ++ [t]) < μ rem acc) :
    ∀ k rem acc st, μ rem acc ≤ k → EndsAt (fun n => tokenLoop (f n) card n rem acc) st := by
  intro k
  induction k with
  | zero =>
    intro rem acc st hk
    refine EndsAt.of_succ (EndsAt.bind (F := fun n => f (n + 1) rem) (G := fun n t =>
      if !t.isValid then pure acc
      else match t.content with
      | none => M.lift .panic
      | some c =>
        if !(c.must.discoveries.isPrefixOf rem) then pure (acc ++ [t])
        else if reachedMax card (acc.length + 1) then pure (acc ++ [t])
        else tokenLoop (f (n + 1)) card n (replaceFirst rem c.must.discoveries) (acc ++ [t]))
      (fun n m hnm => hm _ _ _ (by omega)) ?_ ?_ ?_)
    · intro t n m hnm
      dsimp only
      split
      · exact M.Le.refl _
      · cases t.content with
        | none => exact M.Le.refl _
        | some c =>
          dsimp only
          split
          · exact M.Le.refl _
          · split
            · exact M.Le.refl _
            · exact tokenLoop_mono (fun r => hm r _ _ (by omega)) _ _ _ hnm _ _
    · obtain ⟨n, r, hr⟩ := h rem st
      exact ⟨n, r, hm rem n (n + 1) (by omega) _ _ hr⟩
    · intro n t s1 ht
      cases hv : t.isValid with
      | false => exact .pure
      | true =>
        cases hc : t.content with
        | none => exact .lift
        | some c =>
          dsimp only
          cases hp : c.must.discoveries.isPrefixOf rem with
          | false => exact .pure
          | true =>
            cases hr : reachedMax card (acc.length + 1) with
            | true => exact .pure
            | false =>
              have := hμ _ _ acc _ _ _ _ ht hv hc (isPrefixOf_iff.mp hp) hr
              omega
  | succ k ih =>
    intro rem acc st hk
    refine EndsAt.of_succ (EndsAt.bind (F := fun n => f (n + 1) rem) (G := fun n t =>
      if !t.isValid then pure acc
      else match t.content with
      | none => M.lift .panic
      | some c =>
        if !(c.must.discoveries.isPrefixOf rem) then pure (acc ++ [t])
        else if reachedMax card (acc.length + 1) then pure (acc ++ [t])
        else tokenLoop (f (n + 1)) card n (replaceFirst rem c.must.discoveries) (acc ++ [t]))
      (fun n m hnm => hm _ _ _ (by omega)) ?_ ?_ ?_)
    · intro t n m hnm
      dsimp only
      split
      · exact M.Le.refl _
      · cases t.content with
        | none => exact M.Le.refl _
        | some c =>
          dsimp only
          split
          · exact M.Le.refl _
          · split
            · exact M.Le.refl _
            · exact tokenLoop_mono (fun r => hm r _ _ (by omega)) _ _ _ hnm _ _
    · obtain ⟨n, r, hr⟩ := h rem st
      exact ⟨n, r, hm rem n (n + 1) (by omega) _ _ hr⟩
    · intro n t s1 ht
      cases hv : t.isValid with
      | false => exact .pure
      | true =>
        cases hc : t.content with
        | none => exact .lift
        | some c =>
          dsimp only
          cases hp : c.must.discoveries.isPrefixOf rem with
          | false => exact .pure
          | true =>
            cases hr : reachedMax card (acc.length + 1) with
            | true => exact .pure
            | false =>
              have := hμ _ _ acc _ _ _ _ ht hv hc (isPrefixOf_iff.mp hp) hr
              rw [replaceFirst_prefix (isPrefixOf_iff.mp hp)]
              obtain ⟨j, r, hj⟩ := ih (rem.drop c.must.discoveries.length) (acc ++ [t]) s1 (by omega)
              exact ⟨j, r, tokenLoop_mono (fun r => hm r _ _ (by omega)) _ _ _ le_rfl _ _ _ _ hj⟩

theorem ruleLoop_ends {rule : Rule} (hw : RuleWF rule) (card : Card) (cp : Bool) (len : Nat) (k : Nat) :
    ∀ rem acc st, rem.length ≤ k → ∃ r, ruleLoop rule card cp len (k + 1) rem acc st = some r := by
  induction k with
  | zero =>
    intro rem acc st hk
    unfold ruleLoop
    cases hres : toResult rule rem with
    | panic => exact ⟨_, rfl⟩
    | err => exact ⟨_, rfl⟩
    | ok res =>
      dsimp only
      cases hrr : res.results with
      | none => exact ⟨_, rfl⟩
      | some l =>
        cases l with
        | nil => exact ⟨_, rfl⟩
        | cons m ms =>
          dsimp only
          have hne := List.length_pos_iff.mpr (RuleText_nonempty (toResult_text hw hres hrr))
          cases hi : m.index with
          | err => exact ⟨_, rfl⟩
          | panic => exact ⟨_, rfl⟩
          | ok i =>
            rw [M.bind_some_ok (M.lift_run _ _), M.bind_some_ok (a := ()) (by unfold notePrefix; rfl)]
            split
            · exact ⟨_, rfl⟩
            · split
              · exact ⟨_, rfl⟩
              · rw [if_pos (by omega)]
                exact ⟨_, rfl⟩
  | succ k ih =>
    intro rem acc st hk
    unfold ruleLoop
    cases hres : toResult rule rem with
    | panic => exact ⟨_, rfl⟩
    | err => exact ⟨_, rfl⟩
    | ok res =>
      dsimp only
      cases hrr : res.results with
      | none => exact ⟨_, rfl⟩
      | some l =>
        cases l with
        | nil => exact ⟨_, rfl⟩
        | cons m ms =>
          dsimp only
          have hne := List.length_pos_iff.mpr (RuleText_nonempty (toResult_text hw hres hrr))
          cases hi : m.index with
          | err => exact ⟨_, rfl⟩
          | panic => exact ⟨_, rfl⟩
          | ok i =>
            rw [M.bind_some_ok (M.lift_run _ _), M.bind_some_ok (a := ()) (by unfold notePrefix; rfl)]
            split
            · exact ⟨_, rfl⟩
            · split
              · exact ⟨_, rfl⟩
              · split
                · exact ⟨_, rfl⟩
                · split
                  · exact ⟨_, rfl⟩
                  · refine ih _ _ _ ?_
                    simp; omega

theorem fetchFirstRule_ends {deps : List Element} {name : Str} (h : FirstEnds deps name) :
    ∀ st, EndsAt (fun n => fetchFirstRule deps n name) st := by
  induction h with
  | @mk name h1 h2 ih1 ih2 =>
    intro st
    refine EndsAt.of_succ ?_
    simp only [fetchFirstRule]
    refine EndsAt.bind (F := fun _ => M.lift (fetch deps name)) (Mon.const _) ?_ .lift ?_
    · intro e n m hnm
      dsimp only
      split
      · exact M.Le.refl _
      · split
        · exact M.Le.refl _
        · exact fetchFirstRule_mono deps n m hnm _
        · exact M.Le.refl _
        · exact fetchFirstRule_mono deps n m hnm _
        · exact M.Le.refl _
    · intro n e s1 he
      simp at he
      cases hm : e.must with
      | nil => exact .lift
      | cons l ls =>
        dsimp only
        cases hf : firstContainer l with
        | none => exact .lift
        | some c =>
          cases c with
          | token e' sp k => exact ih1 e l ls e' sp k he.1 hm hf s1
          | rule r k => exact .pure
          | recursive nm sp k => exact ih2 e l ls nm sp k he.1 hm hf s1
          | lines ls => exact .lift

/-! The matcher -/

section
variable {env : Env}

def ChannelsEnd (env : Env) : Prop := ∀ k, ∀ p ∈ env.channels k, p.element.not = [] ∧
  ∀ s st, EndsAt (fun n => elementToToken env n p.element p.deps s false) st

theorem mon_elem (e : Element) (deps : List Element) (s : Str) (c : Bool) : Mon (fun n => elementToToken env n e deps s c) :=
  fun n m h => (mono env n m h).elem _ _ _ _
theorem mon_block (p : PContainer) (deps : List Element) (s : Str) (c x : Bool) :
    Mon (fun n => containerToBlockMatch env n p deps s c x) := fun n m h => (mono env n m h).block _ _ _ _ _
theorem mon_mtch (p : PContainer) (deps : List Element) (s : Str) (x : Bool) :
    Mon (fun n => containerToMatch env n p deps s x) := fun n m h => (mono env n m h).mtch _ _ _ _
theorem mon_chan (p : PContainer) (deps : List Element) (s : Str) (x : Bool) :
    Mon (fun n => findChannelBlockMatch env n p deps s x) := fun n m h => (mono env n m h).chan _ _ _ _
theorem mon_best (p : List Line) (deps : List Element) (s : Str) (x : Bool) :
    Mon (fun n => bestLineToMatches env n p deps s x) := fun n m h => (mono env n m h).best _ _ _ _
theorem mon_line (p : Line) (deps : List Element) (s : Str) (x : Bool) :
    Mon (fun n => lineToMatches env n p deps s x) := fun n m h => (mono env n m h).line _ _ _ _

theorem best_spec {env : Env} {n : Nat} {lines deps script ch s r s'}
    (h : bestLineToMatches env n lines deps script ch s = some (.ok r, s')) : ∃ ms, BestSpec ms r := by
  match n with
  | 0 => simp [bestLineToMatches] at h
  | n + 1 =>
    simp only [bestLineToMatches] at h
    obtain ⟨b, s1, hb, h⟩ := M.bind_ok.mp h
    simp at h
    obtain ⟨rfl, rfl⟩ := h
    obtain ⟨ms, h1, h2⟩ := bestLoop_inv lines [] ⟨0, none, none⟩ s b s1
      ⟨by simp [GoodLine], by simp, by simp, by simp, by simp [BadLine]⟩ hb
    exact ⟨_, h2.result⟩

theorem elem_nonempty (env : Env) (n : Nat) {e deps s c st t st'} (h : elementToToken env n e deps s c st = some (.ok t, st'))
    (hv : t.isValid = true) (hn : e.not = []) : t.discoveries ≠ [] := by
  match n with
  | 0 => simp [elementToToken] at h
  | 1 =>
    simp only [elementToToken] at h
    obtain ⟨_, _, h, _⟩ := M.bind_ok.mp h
    simp [elementToTokenContent] at h
  | n + 2 =>
    simp only [elementToToken] at h
    obtain ⟨x, s1, h1, h⟩ := M.bind_ok.mp h
    simp only [elementToTokenContent] at h1
    obtain ⟨m, s2, h2, h1⟩ := M.bind_ok.mp h1
    split at h
    · simp at h
    · simp at h
      obtain ⟨rfl, rfl⟩ := h
      cases m with
      | none =>
        simp at h1
        obtain ⟨rfl, rfl⟩ := h1
        simp [Token.isValid] at hv
      | some m =>
        simp [hn] at h1
        obtain ⟨rfl, rfl⟩ := h1
        obtain ⟨ms, hsp⟩ := best_spec h2
        simp only [Token.isValid, TokenContent.isValid] at hv
        simp only [Token.discoveries, TokenContent.discoveries]
        cases hsp with
        | @good i l hg _ _ =>
          obtain ⟨_, hg2, hg3⟩ := hg
          simpa [LineMatch.discoveries, hg2] using hg3
        | @bad i l _ hb _ =>
          have := hb.2
          simp [LineMatch.isValid, this] at hv

/-- A container with the channels. -/
theorem block_ends {c : PContainer} {deps : List Element} (hF : ∀ name, FirstEnds deps name) (nx : Bool)
    (hc : ∀ s st, EndsAt (fun n => containerToMatch env n c deps s nx) st) (hnx : ChannelsEnd env ∨ nx = false) (k : Nat) :
    ∀ s ch st, s.length ≤ k → (ChannelsEnd env ∨ ch = false) →
      EndsAt (fun n => containerToBlockMatch env n c deps s ch nx) st := by
  induction k using Nat.strong_induction_on with
  | _ k ih =>
    intro s ch st hk hch
    refine EndsAt.of_succ ?_
    simp only [containerToBlockMatch]
    by_cases hs : s = []
    · simp only [hs, if_true]
      refine EndsAt.bind (F := fun _ => M.lift c.cardinality) (Mon.const _) ?_ .lift ?_
      · intro card n m hnm
        split
        · exact M.Le.refl _
        · exact M.Le.bind (buildNextElement_mono _ _ _ hnm _) (fun _ => M.Le.refl _)
      · intro n card s1 _
        by_cases hv : card.isValid 0 = true
        · simp only [hv, if_true]; exact .pure
        · simp only [hv]
          refine EndsAt.bind (F := fun n => buildNextElement deps n c) (fun n m h => buildNextElement_mono _ _ _ h _)
            (fun _ => Mon.const _) ?_ (fun _ _ _ _ => .pure)
          cases c with
          | rule r k => exact .lift
          | token e sp k =>
            exact EndsAt.bind (F := fun n => fetchFirstRule deps n e.name) (fun n m h => fetchFirstRule_mono _ _ _ h _)
              (fun _ => Mon.const _) (fetchFirstRule_ends (hF _) _) (fun _ _ _ _ => .lift)
          | recursive nm sp k =>
            exact EndsAt.bind (F := fun n => fetchFirstRule deps n nm) (fun n m h => fetchFirstRule_mono _ _ _ h _)
              (fun _ => Mon.const _) (fetchFirstRule_ends (hF _) _) (fun _ _ _ _ => .lift)
          | lines ls => exact .lift
    · simp only [hs, if_false]
      have hG : ∀ b : Option BlockMatch, Mon (fun n => (match b with
          | some b => pure (some b)
          | none => do
            let m ← containerToMatch env n c deps s nx
            match m with
            | none => pure none
            | some x => pure (some (.mk none (.container x))) : M (Option BlockMatch))) := by
        intro b n m hnm
        cases b with
        | some b => exact M.Le.refl _
        | none => exact M.Le.bind (mon_mtch _ _ _ _ n m hnm) (fun _ => M.Le.refl _)
      refine EndsAt.bind (F := fun n => if ch then findChannelBlockMatch env n c deps s nx else pure none) ?_ hG ?_ ?_
      · intro n m hnm
        cases ch
        · exact M.Le.refl _
        · exact mon_chan _ _ _ _ n m hnm
      · cases ch with
        | false => exact .pure
        | true =>
          have hCH : ChannelsEnd env := by simpa using hch
          simp only [if_true]
          refine EndsAt.of_succ ?_
          simp only [findChannelBlockMatch]
          refine EndsAt.bind (F := fun _ => M.get) (Mon.const _) ?_ (.const rfl) ?_
          · intro s0
            refine Mon.bind (Mon.const _) (fun _ => Mon.bind ?_ ?_)
            · intro n m hnm
              exact channelLoop_mono (fun p => mon_elem _ _ _ _ n m hnm) _
            · intro l n m hnm
              cases l with
              | none => exact M.Le.refl _
              | some l =>
                dsimp only
                split
                · exact M.Le.refl _
                · exact M.Le.bind (mon_block _ _ _ _ _ n m hnm) (fun _ => M.Le.refl _)
          · intro n s0 s1 _
            refine EndsAt.bind (F := fun _ => M.set { s0 with ranges := s0.ranges + 1 }) (Mon.const _) ?_ (.const rfl) ?_
            · intro _
              refine Mon.bind ?_ ?_
              · intro n m hnm
                exact channelLoop_mono (fun p => mon_elem _ _ _ _ n m hnm) _
              · intro l n m hnm
                cases l with
                | none => exact M.Le.refl _
                | some l =>
                  dsimp only
                  split
                  · exact M.Le.refl _
                  · exact M.Le.bind (mon_block _ _ _ _ _ n m hnm) (fun _ => M.Le.refl _)
            · intro n _ s2 _
              refine EndsAt.bind (F := fun n => channelLoop (fun p => elementToToken env n p.element p.deps s false)
                (env.channels s0.ranges)) ?_ ?_ ?_ ?_
              · intro n m hnm
                exact channelLoop_mono (fun p => mon_elem _ _ _ _ n m hnm) _
              · intro l n m hnm
                cases l with
                | none => exact M.Le.refl _
                | some l =>
                  dsimp only
                  split
                  · exact M.Le.refl _
                  · exact M.Le.bind (mon_block _ _ _ _ _ n m hnm) (fun _ => M.Le.refl _)
              · exact channelLoop_ends (fun p => mon_elem _ _ _ _) _ (fun p hp st => (hCH _ p hp).2 s st) _
              · intro n l s3 hl
                cases l with
                | none => exact .pure
                | some l =>
                  have hne : l.discoveries ≠ [] := channelLoop_conforms (P := fun l => l.discoveries ≠ []) _ (by
                    intro q hq t a a' c ht hv hc
                    have := elem_nonempty env _ ht hv (hCH _ q hq).1
                    obtain ⟨c', h1, h2⟩ := valid_discoveries hv
                    rw [hc] at h1; simp at h1; subst h1
                    rwa [← h2]) _ _ _ hl
                  dsimp only
                  cases hp : l.discoveries.isPrefixOf s with
                  | false => exact .pure
                  | true =>
                    have hp' := isPrefixOf_iff.mp hp
                    have := hp'.length_le
                    have := List.length_pos_iff.mpr hne
                    simp only [Bool.not_true, Bool.false_eq_true, if_false]
                    refine EndsAt.bind (F := fun n => containerToBlockMatch env n c deps (replaceFirst s l.discoveries) nx nx)
                      (mon_block _ _ _ _ _) (fun _ => Mon.const _) ?_ ?_
                    · refine ih (k - 1) (by omega) _ _ _ ?_ hnx
                      rw [replaceFirst_prefix hp']; simp; omega
                    · intro n b s4 _
                      cases b <;> exact .pure
      · intro n b s1 _
        cases b with
        | some b => exact .pure
        | none =>
          refine EndsAt.bind (F := fun n => containerToMatch env n c deps s nx) (mon_mtch _ _ _ _) (fun _ => Mon.const _)
            (hc s s1) ?_
          intro n m s2 _
          cases m <;> exact .pure

theorem elem_of_lines {e : Element} {deps : List Element} {s : Str} {ch : Bool}
    (h : ∀ line ∈ e.must ++ e.not, ∀ st, EndsAt (fun n => lineToMatches env n line deps s ch) st) (st : St) :
    EndsAt (fun n => elementToToken env n e deps s ch) st := by
  have hbest : ∀ ls, (∀ l ∈ ls, l ∈ e.must ++ e.not) → ∀ st, EndsAt (fun n => bestLineToMatches env n ls deps s ch) st := by
    intro ls hls st
    refine EndsAt.of_succ ?_
    simp only [bestLineToMatches]
    refine EndsAt.bind (F := fun n => bestLoop (fun l => lineToMatches env n l deps s ch) ls 0 ⟨0, none, none⟩) ?_
      (fun _ => Mon.const _) ?_ (fun _ _ _ _ => .pure)
    · intro n m hnm
      exact bestLoop_mono (fun l => mon_line _ _ _ _ n m hnm) _ _ _
    · exact bestLoop_ends (fun l => mon_line _ _ _ _) _ (fun l hl st => h l (hls l hl) st) _ _ _
  refine EndsAt.of_succ ?_
  simp only [elementToToken]
  refine EndsAt.bind (F := fun n => elementToTokenContent env n e deps s ch)
    (fun n m hnm => (mono env n m hnm).content _ _ _ _) (fun _ => Mon.const _) ?_ ?_
  · refine EndsAt.of_succ ?_
    simp only [elementToTokenContent]
    refine EndsAt.bind (F := fun n => bestLineToMatches env n e.must deps s ch) (mon_best _ _ _ _) ?_
      (hbest _ (fun l hl => by simp [hl]) _) ?_
    · intro a n m hnm
      cases a with
      | none => exact M.Le.refl _
      | some a =>
        dsimp only
        split
        · exact M.Le.refl _
        · exact M.Le.bind (mon_best _ _ _ _ n m hnm) (fun _ => M.Le.refl _)
    · intro n a s1 _
      cases a with
      | none => exact .pure
      | some a =>
        dsimp only
        by_cases hn : e.not.isEmpty = true
        · simp only [hn, if_true]; exact .pure
        · simp only [hn, if_false]
          exact EndsAt.bind (F := fun n => bestLineToMatches env n e.not deps s ch) (mon_best _ _ _ _) (fun _ => Mon.const _)
            (hbest _ (fun l hl => by simp [hl]) _) (fun _ _ _ _ => .pure)
  · intro n a s1 _
    by_cases hn : e.name = []
    · simp only [hn, if_true]; exact .lift
    · simp only [hn, if_false]; exact .pure

/-- The number of rounds which remain for a token with a maximum. -/
def roundsLeft (m len : Nat) : Nat := if len % 2 ^ 64 < m then m - len % 2 ^ 64 else 2 ^ 64 + m - len % 2 ^ 64

theorem roundsLeft_lt {card : Card} {m : UInt64} (hm : card.delimiter.2 = some m) (len : Nat)
    (h : reachedMax card (len + 1) = false) : roundsLeft m.toNat (len + 1) < roundsLeft m.toNat len := by
  simp only [reachedMax, hm, decide_eq_false_iff_not, ge_iff_le, UInt64.not_le] at h
  rw [UInt64.lt_iff_toNat_lt, UInt64.toNat_ofNat'] at h
  have := m.toNat_lt
  unfold roundsLeft
  split <;> split <;> omega

theorem token_ends {e : Element} {sp : List Spec} {card : Card} {deps : List Element} {ch : Bool}
    (hcard : e.not = [] ∨ card.delimiter.2 ≠ none)
    (h : ∀ s st, EndsAt (fun n => elementToToken env n e deps s ch) st) (s : Str) (st : St) :
    EndsAt (fun n => containerToMatch env n (.token e sp card) deps s ch) st := by
  refine EndsAt.of_succ ?_
  simp only [containerToMatch]
  refine EndsAt.bind (F := fun n => tokenToTokenMatch env n e sp card deps s ch)
    (fun n m hnm => (mono env n m hnm).tok _ _ _ _ _ _) (fun _ => Mon.const _) ?_ (fun _ _ _ _ => .pure)
  refine EndsAt.of_succ ?_
  simp only [tokenToTokenMatch]
  refine EndsAt.bind (F := fun n => tokenLoop (fun rem => elementToToken env n e deps rem ch) card n s []) ?_
    (fun _ => Mon.const _) ?_ (fun _ _ _ _ => .lift)
  · intro n m hnm
    exact tokenLoop_mono (fun r => mon_elem _ _ _ _ n m hnm) _ _ _ hnm _ _
  · by_cases hn : e.not = []
    · refine tokenLoop_ends (fun r => mon_elem _ _ _ _) h card (fun rem _ => rem.length) ?_ _ _ _ _ le_rfl
      intro n rem acc st t st' c ht hv hc hp _
      have := elem_nonempty env _ ht hv hn
      obtain ⟨c', h1, h2⟩ := valid_discoveries hv
      rw [hc] at h1; simp at h1; subst h1
      rw [h2] at this
      have := List.length_pos_iff.mpr this
      have := hp.length_le
      simp; omega
    · have hcard := hcard.resolve_left hn
      obtain ⟨m, hm⟩ := Option.ne_none_iff_exists'.mp hcard
      refine tokenLoop_ends (fun r => mon_elem _ _ _ _) h card (fun _ acc => roundsLeft m.toNat acc.length) ?_ _ _ _ _ le_rfl
      intro n rem acc st t st' c ht hv hc hp hr
      simpa using roundsLeft_lt hm acc.length hr

mutual
theorem ends_elem {sw : Bool} {e : Element} : (h : Ending sw e) → ∀ {deps}, (∀ name, FirstEnds deps name) →
    (ChannelsEnd env ∨ sw = false) → ∀ s ch st, (ChannelsEnd env ∨ ch = false) →
    EndsAt (fun n => elementToToken env n e deps s ch) st
  | .mk (must := must) (not := not) h1 h2 => by
    intro hF hsw s ch st hch
    refine elem_of_lines ?_ st
    intro line hl st
    refine EndsAt.of_succ ?_
    simp only [lineToMatches]
    refine lineLoop_ends (fun c r a b => mon_block _ _ _ _ _) (fun b => ChannelsEnd env ∨ b = false) line ?_ (.inr rfl) ?_
      _ _ _ _ _ hch hch
    · intro c hc r a b st ha hb
      exact block_ends hF b (fun s st => ends_cont (h2 line hl c hc) hF hsw s b st hb) hb _ _ _ _ le_rfl ha
    · rcases hsw with h | h
      · exact .inl (fun _ => .inl h)
      · exact .inr (h1 line hl h)
theorem ends_cont {sw : Bool} {c : PContainer} : (h : EndingC sw c) → ∀ {deps}, (∀ name, FirstEnds deps name) →
    (ChannelsEnd env ∨ sw = false) → ∀ s ch st, (ChannelsEnd env ∨ ch = false) →
    EndsAt (fun n => containerToMatch env n c deps s ch) st
  | .token h1 h2 => by
    intro hF hsw s ch st hch
    exact token_ends h2 (fun s st => ends_elem h1 hF hsw s ch st hch) s st
  | .rule (r := r) hw => by
    intro hF hsw s ch st hch
    refine EndsAt.of_succ ?_
    simp only [containerToMatch]
    refine EndsAt.bind (F := fun n => ruleToRuleMatch n r _ s ch) (fun n m h => ruleToRuleMatch_mono n m h _ _ _ _)
      (fun _ => Mon.const _) ?_ (fun _ _ _ _ => .pure)
    unfold ruleToRuleMatch
    refine EndsAt.bind (F := fun _ => M.get) (Mon.const _) ?_ (.const rfl) ?_
    · intro s0
      refine Mon.bind ?_ (fun _ => Mon.const _)
      intro n m hnm
      exact ruleLoop_mono _ _ _ _ _ _ hnm _ _
    · intro _ s0 s1 _
      refine EndsAt.bind (F := fun n => ruleLoop r _ (s0.canPrefix && ch) s.length n s []) ?_ (fun _ => Mon.const _) ?_ ?_
      · intro n m hnm
        exact ruleLoop_mono _ _ _ _ _ _ hnm _ _
      · obtain ⟨r, hr⟩ := ruleLoop_ends hw _ (s0.canPrefix && ch) s.length s.length s [] s1 le_rfl
        exact ⟨_, r, hr⟩
      · intro n l s2 _
        exact .const rfl
end

end

end Verif.Lexer
