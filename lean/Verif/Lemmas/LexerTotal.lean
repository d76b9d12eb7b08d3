import Verif.Spec.LexerTotal
import Verif.Lemmas.LexerFrame
import Verif.Lemmas.LexerEnds
import Verif.Lemmas.LexerOrder

/-!
# Termination of guarded grammars
-/

namespace Verif.Lexer
open Verif.Patterns Verif.Cardinality

/-! ## Loops whose states are followed -/

theorem EndsAt.mono_of {α} {F G : Nat → M α} {st : St} (h : EndsAt F st) (hm : ∀ n, M.Le (F n) (G n)) : EndsAt G st := by
  obtain ⟨n, r, h⟩ := h
  exact ⟨n, r, hm n _ _ h⟩

theorem bestLoop_follow {f : Nat → Line → M (Option (List BlockMatch))} (hm : ∀ l, Mon (fun n => f n l)) (J : List Line → St → Prop)
    (h : ∀ l ls st, J (l :: ls) st → EndsAt (fun n => f n l) st ∧ ∀ n r st', f n l st = some (.ok r, st') → J ls st') (ls : List Line) :
    ∀ i b st, J ls st → EndsAt (fun n => bestLoop (f n) ls i b) st := by
  induction ls with
  | nil => intro i b st _; exact .pure
  | cons l ls ih =>
    intro i b st hJ
    obtain ⟨h1, h2⟩ := h l ls st hJ
    refine EndsAt.bind (F := fun n => f n l) (G := fun n r => match r with
      | none => bestLoop (f n) ls (i + 1) b
      | some m => bestLoop (f n) ls (i + 1) (b.step i m)) (hm l) ?_ h1 ?_
    · intro a n m hnm
      cases a <;> exact bestLoop_mono (fun l => hm l n m hnm) _ _ _
    · intro n a s1 hr
      have := h2 n a s1 hr
      cases a <;> exact ih _ _ _ this

theorem lineLoop_follow {f : Nat → PContainer → Str → Bool → Bool → M (Option BlockMatch)} (hm : ∀ c r a b, Mon (fun n => f n c r a b))
    (J : List Instruction → Bool → Bool → Str → St → Prop)
    (hsw : ∀ is a b rem st, J (.channelSwitch :: is) a b rem st → J is a (!b) rem st)
    (h : ∀ c is a b rem st, J (.container c :: is) a b rem st → EndsAt (fun n => f n c rem a b) st ∧
      ∀ n x st', f n c rem a b st = some (.ok (some x), st') → x.isValid = true → x.discoveries <+: rem →
        J is (if b then a else false) b (rem.drop x.discoveries.length) st') (is : List Instruction) :
    ∀ a b rem acc st, J is a b rem st → EndsAt (fun n => lineLoop (f n) is a b rem acc) st := by
  induction is with
  | nil => intro a b rem acc st _; exact .pure
  | cons i is ih =>
    intro a b rem acc st hJ
    cases i with
    | channelSwitch => exact ih _ _ _ _ _ (hsw _ _ _ _ _ hJ)
    | container c =>
      obtain ⟨h1, h2⟩ := h c is a b rem st hJ
      refine EndsAt.bind (F := fun n => f n c rem a b) (G := fun n m => match m with
        | none => pure (if acc.isEmpty then none else some acc)
        | some x => if !x.isValid then pure (some [x])
          else if !(x.discoveries.isPrefixOf rem) then pure none
          else lineLoop (f n) is (if b then a else false) b (replaceFirst rem x.discoveries) (acc ++ [x]))
        (hm _ _ _ _) ?_ h1 ?_
      · intro x n m hnm
        cases x with
        | none => exact M.Le.refl _
        | some x =>
          dsimp only
          split
          · exact M.Le.refl _
          · split
            · exact M.Le.refl _
            · exact lineLoop_mono (fun c r a b => hm c r a b n m hnm) _ _ _ _ _
      · intro n x s1 hr
        cases x with
        | none => exact .pure
        | some x =>
          dsimp only
          cases hv : x.isValid with
          | false => exact .pure
          | true =>
            cases hx : x.discoveries.isPrefixOf rem with
            | false => exact .pure
            | true =>
              have hp := isPrefixOf_iff.mp hx
              have := h2 n x s1 hr hv hp
              rw [replaceFirst_prefix hp]
              exact ih _ _ _ _ _ this

/-- The first round at this text and state, the others at shorter ones. -/
theorem tokenLoop_follow {f : Nat → Str → M Token} (hm : ∀ r, Mon (fun n => f n r)) (card : Card)
    (hcp : ∀ n r st t st', st.canPrefix = false → f n r st = some (.ok t, st') → st'.canPrefix = false)
    (hne : ∀ n r st t st' c, f n r st = some (.ok t, st') → t.isValid = true → t.content = some c → c.must.discoveries ≠ []) :
    ∀ k rem acc st, rem.length ≤ k → st.canPrefix = false → EndsAt (fun n => f n rem) st →
      (∀ r, r.length < rem.length → ∀ st, st.canPrefix = false → EndsAt (fun n => f n r) st) →
      EndsAt (fun n => tokenLoop (f n) card n rem acc) st := by
  intro k
  induction k using Nat.strong_induction_on with
  | _ k ih =>
    intro rem acc st hk hst h1 h2
    refine EndsAt.of_succ (EndsAt.bind (F := fun n => f (n + 1) rem) (G := fun n t =>
      if !t.isValid then pure acc
      else match t.content with
      | none => M.lift .panic
      | some c =>
        if !(c.must.discoveries.isPrefixOf rem) then pure (acc ++ [t])
        else if reachedMax card (acc.length + 1) then pure (acc ++ [t])
        else tokenLoop (f (n + 1)) card n (replaceFirst rem c.must.discoveries) (acc ++ [t]))
      (fun n m hnm => hm _ _ _ (by omega)) ?_ ?_ ?_)
    · intro t n m hnm
      dsimp only
      split
      · exact M.Le.refl _
      · cases t.content with
        | none => exact M.Le.refl _
        | some c =>
          dsimp only
          split
          · exact M.Le.refl _
          · split
            · exact M.Le.refl _
            · exact tokenLoop_mono (fun r => hm r _ _ (by omega)) _ _ _ hnm _ _
    · exact h1.mono_of (fun n => hm rem n (n + 1) (by omega))
    · intro n t s1 ht
      cases hv : t.isValid with
      | false => exact .pure
      | true =>
        cases hc : t.content with
        | none => exact .lift
        | some c =>
          dsimp only
          cases hp : c.must.discoveries.isPrefixOf rem with
          | false => exact .pure
          | true =>
            cases hr : reachedMax card (acc.length + 1) with
            | true => exact .pure
            | false =>
              have hlen := List.length_pos_iff.mpr (hne _ _ _ _ _ _ ht hv hc)
              have hp' := isPrefixOf_iff.mp hp
              have hle := hp'.length_le
              simp only [Bool.not_true, Bool.false_eq_true, if_false]
              rw [replaceFirst_prefix hp']
              have hs1 := hcp _ _ _ _ _ hst ht
              have hl : (rem.drop c.must.discoveries.length).length < rem.length := by simp; omega
              have := ih (rem.drop c.must.discoveries.length).length (by omega) (rem.drop c.must.discoveries.length) (acc ++ [t]) s1 le_rfl hs1
                (h2 _ hl _ hs1) (fun r hr => h2 r (by omega))
              exact this.mono_of (fun n => tokenLoop_mono (fun r => hm r _ _ (by omega)) _ _ _ le_rfl _ _)

theorem block_end {env : Env} {n : Nat} {c : PContainer} {deps : List Element} {a b : Bool} {st st1 : St} {r : Out (Option BlockMatch)}
    (h : containerToBlockMatch env n c deps [] a b st = some (r, st1)) : st1 = st := by
  cases n with
  | zero => simp [containerToBlockMatch] at h
  | succ n =>
    simp only [containerToBlockMatch, if_true] at h
    have hk : ∀ (o : Out Card), ((do
        let card ← M.lift o
        if card.isValid 0 then pure none
        else do
          let x ← buildNextElement deps n c
          pure (some (.mk none (.next x))) : M (Option BlockMatch)) st = some (r, st1)) → st1 = st := by
      intro o h
      cases o with
      | err => simp [M.bind_def] at h; exact h.2.symm
      | panic => simp [M.bind_def] at h; exact h.2.symm
      | ok k =>
        rw [M.bind_some_ok (M.lift_run _ _)] at h
        split at h
        · simp at h; exact h.2.symm
        · rw [M.bind_def] at h
          cases hb : buildNextElement deps n c st with
          | none => rw [hb] at h; simp at h
          | some p =>
            obtain ⟨o, s2⟩ := p
            have := buildNext_state _ _ _ _ _ _ hb
            subst this
            rw [hb] at h
            cases o <;> simp at h <;> exact h.2.symm
    exact hk _ h

/-! ## The channels -/

/-- The channels give an answer which depends on the text only, and leave the state alone. -/
structure ChannelsAnswer (env : Env) (v : Str → Option LineMatch) : Prop where
  run : ∀ n k s st r st', s ≠ [] → st.canPrefix = false →
    channelLoop (fun p => elementToToken env n p.element p.deps s false) (env.channels k) st = some (r, st') → r = .ok (v s) ∧ st' = st
  ends : ∀ k s st, s ≠ [] → st.canPrefix = false →
    EndsAt (fun n => channelLoop (fun p => elementToToken env n p.element p.deps s false) (env.channels k)) st
  pos : ∀ s l, v s = some l → l.discoveries ≠ []
  bounded : ∃ chans : List Path, (∀ k, ∀ p ∈ env.channels k, p ∈ chans) ∧ ∀ p ∈ chans, p.element.not = []

theorem ChannelsAnswer.keep {env : Env} {v : Str → Option LineMatch} (h : ChannelsAnswer env v) : ChannelsKeep env :=
  fun _ _ _ _ _ _ hs hst e => (h.run _ _ _ _ _ _ hs hst e).2

section
variable {env : Env} {v : Str → Option LineMatch} (hv : ChannelsAnswer env v)

/-- The states in which a container is tried without the channels. -/
def Falls (env : Env) (c : PContainer) (deps : List Element) (s : Str) (ch nx : Bool) (st st1 : St) : Prop :=
  ∃ n, (if ch then findChannelBlockMatch env n c deps s nx else pure none : M (Option BlockMatch)) st = some (.ok none, st1)

include hv

/-- A container with the channels, if it ends without them and at the shorter texts. -/
theorem block_here {c : PContainer} {deps : List Element} (hF : ∀ name, FirstEnds deps name) {s : Str} {ch nx : Bool} {st : St} (hst : st.canPrefix = false)
    (hb : ∀ s', s'.length < s.length → ∀ st, st.canPrefix = false → EndsAt (fun n => containerToBlockMatch env n c deps s' nx nx) st)
    (hc : s ≠ [] → ∀ st1, Falls env c deps s ch nx st st1 → EndsAt (fun n => containerToMatch env n c deps s nx) st1) :
    EndsAt (fun n => containerToBlockMatch env n c deps s ch nx) st := by
  refine EndsAt.of_succ ?_
  simp only [containerToBlockMatch]
  by_cases hs : s = []
  · simp only [hs, if_true]
    refine EndsAt.bind (F := fun _ => M.lift c.cardinality) (Mon.const _) ?_ .lift ?_
    · intro card n m hnm
      split
      · exact M.Le.refl _
      · exact M.Le.bind (buildNextElement_mono _ _ _ hnm _) (fun _ => M.Le.refl _)
    · intro n card s1 _
      by_cases hk : card.isValid 0 = true
      · simp only [hk, if_true]; exact .pure
      · simp only [hk]
        refine EndsAt.bind (F := fun n => buildNextElement deps n c) (fun n m h => buildNextElement_mono _ _ _ h _)
          (fun _ => Mon.const _) ?_ (fun _ _ _ _ => .pure)
        cases c with
        | rule r k => exact .lift
        | token e sp k =>
          exact EndsAt.bind (F := fun n => fetchFirstRule deps n e.name) (fun n m h => fetchFirstRule_mono _ _ _ h _)
            (fun _ => Mon.const _) (fetchFirstRule_ends (hF _) _) (fun _ _ _ _ => .lift)
        | recursive nm sp k =>
          exact EndsAt.bind (F := fun n => fetchFirstRule deps n nm) (fun n m h => fetchFirstRule_mono _ _ _ h _)
            (fun _ => Mon.const _) (fetchFirstRule_ends (hF _) _) (fun _ _ _ _ => .lift)
        | lines ls => exact .lift
  · simp only [hs, if_false]
    have hG : ∀ b : Option BlockMatch, Mon (fun n => (match b with
        | some b => pure (some b)
        | none => do
          let m ← containerToMatch env n c deps s nx
          match m with
          | none => pure none
          | some x => pure (some (.mk none (.container x))) : M (Option BlockMatch))) := by
      intro b n m hnm
      cases b with
      | some b => exact M.Le.refl _
      | none => exact M.Le.bind (mon_mtch _ _ _ _ n m hnm) (fun _ => M.Le.refl _)
    refine EndsAt.bind (F := fun n => if ch then findChannelBlockMatch env n c deps s nx else pure none) ?_ hG ?_ ?_
    · intro n m hnm
      cases ch
      · exact M.Le.refl _
      · exact mon_chan _ _ _ _ n m hnm
    · cases ch with
      | false => exact .pure
      | true =>
        simp only [if_true]
        refine EndsAt.of_succ ?_
        simp only [findChannelBlockMatch]
        have hH : ∀ l : Option LineMatch, Mon (fun n => (match l with
            | none => pure none
            | some l =>
              if !(l.discoveries.isPrefixOf s) then pure none
              else do
                let b ← containerToBlockMatch env n c deps (replaceFirst s l.discoveries) nx nx
                match b with
                | none => pure none
                | some b => pure (some (.mk (some l) (.block b))) : M (Option BlockMatch))) := by
          intro l n m hnm
          cases l with
          | none => exact M.Le.refl _
          | some l =>
            dsimp only
            split
            · exact M.Le.refl _
            · exact M.Le.bind (mon_block _ _ _ _ _ n m hnm) (fun _ => M.Le.refl _)
        refine EndsAt.bind (F := fun _ => M.get) (Mon.const _) ?_ (.const rfl) ?_
        · intro s0
          refine Mon.bind (Mon.const _) (fun _ => Mon.bind ?_ hH)
          intro n m hnm
          exact channelLoop_mono (fun p => mon_elem _ _ _ _ n m hnm) _
        · intro n s0 s1 hg
          simp at hg
          obtain ⟨rfl, rfl⟩ := hg
          refine EndsAt.bind (F := fun _ => M.set { st with ranges := st.ranges + 1 }) (Mon.const _) ?_ (.const rfl) ?_
          · intro _
            refine Mon.bind ?_ hH
            intro n m hnm
            exact channelLoop_mono (fun p => mon_elem _ _ _ _ n m hnm) _
          · intro n _ s2 h2
            simp at h2
            subst h2
            refine EndsAt.bind (F := fun n => channelLoop (fun p => elementToToken env n p.element p.deps s false)
              (env.channels st.ranges)) ?_ hH ?_ ?_
            · intro n m hnm
              exact channelLoop_mono (fun p => mon_elem _ _ _ _ n m hnm) _
            · exact hv.ends _ _ _ hs hst
            · intro n l s3 hl
              obtain ⟨e1, rfl⟩ := hv.run _ _ _ _ _ _ hs (by exact hst) hl
              simp at e1
              cases l with
              | none => exact .pure
              | some l =>
                dsimp only
                cases hp : l.discoveries.isPrefixOf s with
                | false => exact .pure
                | true =>
                  have hp' := isPrefixOf_iff.mp hp
                  have := hp'.length_le
                  have := List.length_pos_iff.mpr (hv.pos _ _ e1.symm)
                  simp only [Bool.not_true, Bool.false_eq_true, if_false]
                  refine EndsAt.bind (F := fun n => containerToBlockMatch env n c deps (replaceFirst s l.discoveries) nx nx)
                    (mon_block _ _ _ _ _) (fun _ => Mon.const _) ?_ ?_
                  · refine hb _ ?_ _ hst
                    rw [replaceFirst_prefix hp']; simp; omega
                  · intro n b s4 _
                    cases b <;> exact .pure
    · intro n b s1 h1
      cases b with
      | some b => exact .pure
      | none =>
        refine EndsAt.bind (F := fun n => containerToMatch env n c deps s nx) (mon_mtch _ _ _ _) (fun _ => Mon.const _)
          (hc hs s1 ⟨n, h1⟩) ?_
        intro n m s2 _
        cases m <;> exact .pure

/-- A container which ends without the channels at all texts up to this length. -/
theorem block_upto {c : PContainer} {deps : List Element} (hF : ∀ name, FirstEnds deps name) {A : Str → Prop}
    (hA : ∀ n e, A n → fetch deps n = .ok e → Within A e) (hw : WithinC A c) (k : Nat)
    (hc : ∀ s, s.length ≤ k → ∀ nx st, st.canPrefix = false → EndsAt (fun n => containerToMatch env n c deps s nx) st) :
    ∀ s, s.length ≤ k → ∀ ch nx st, st.canPrefix = false → EndsAt (fun n => containerToBlockMatch env n c deps s ch nx) st := by
  induction k using Nat.strong_induction_on with
  | _ k ih =>
    intro s hk ch nx st hst
    refine block_here hv hF hst ?_ ?_
    · intro s' hs' st' hst'
      exact ih s'.length (by omega) (fun r hr => hc r (by omega)) s' le_rfl _ _ _ hst'
    · intro hs st1 hf
      refine hc s hk _ _ ?_
      obtain ⟨n, hn⟩ := hf
      cases ch with
      | false => simp at hn; subst hn; exact hst
      | true => exact (((keeps_all hv.keep hA n).chan c s nx hs hw) _ _ _ hst hn).1

/-- A token or a rule is tried without the channels only if these found nothing, or the end of the text. -/
theorem falls_plain {c : PContainer} (hc : (∃ e sp k, c = .token e sp k) ∨ ∃ r k, c = .rule r k) {deps : List Element} {s : Str} (hs : s ≠ []) {ch nx : Bool}
    {st st1 : St} (hst : st.canPrefix = false) (h : Falls env c deps s ch nx st st1) : st1.canPrefix = false ∧ st1.recursive = st.recursive ∧
      (ch = true → ∀ l, v s = some l → l.discoveries <+: s → s.drop l.discoveries.length = []) := by
  obtain ⟨n, h⟩ := h
  cases ch with
  | false => simp at h; subst h; exact ⟨hst, rfl, by simp⟩
  | true =>
    simp only [if_true] at h
    cases n with
    | zero => simp [findChannelBlockMatch] at h
    | succ n =>
      simp only [findChannelBlockMatch] at h
      rw [M.bind_some_ok (M.get_run _), M.bind_some_ok (M.set_run _ _)] at h
      obtain ⟨o, s1, h1, h⟩ := M.bind_ok.mp h
      obtain ⟨e1, e2⟩ := hv.run _ _ _ _ _ _ hs (by exact hst) h1
      simp at e1
      subst e1
      subst e2
      cases hl : v s with
      | none =>
        rw [hl] at h
        simp at h
        subst h
        exact ⟨hst, rfl, by simp⟩
      | some l =>
        rw [hl] at h
        dsimp only at h
        cases hp : l.discoveries.isPrefixOf s with
        | false =>
          rw [hp] at h
          simp at h
          subst h
          refine ⟨hst, rfl, ?_⟩
          intro _ l' hl' hp'
          cases hl'
          rw [isPrefixOf_iff.mpr hp'] at hp
          cases hp
        | true =>
          rw [hp] at h
          simp only [Bool.not_true, Bool.false_eq_true, if_false] at h
          obtain ⟨o, s2, h2, h⟩ := M.bind_ok.mp h
          cases o with
          | some b => simp at h
          | none =>
            simp at h
            subst h
            have hp' := isPrefixOf_iff.mp hp
            rw [replaceFirst_prefix hp'] at h2
            obtain ⟨chans, hch, _⟩ := hv.bounded
            have hstop := (sound env chans hch n).blockNone _ _ _ _ _ _ _ h2
            have hnil : s.drop l.discoveries.length = [] := by
              rcases hc with ⟨e, sp, k, rfl⟩ | ⟨r, k, rfl⟩
              · exact hstop.1
              · exact hstop.1
            rw [hnil] at h2
            rw [block_end h2]
            refine ⟨hst, rfl, ?_⟩
            intro _ l' hl' _
            cases hl'
            exact hnil
end

end Verif.Lexer
