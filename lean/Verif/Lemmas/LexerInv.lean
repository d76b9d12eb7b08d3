import Verif.Lemmas.LexerBest
import Verif.Lemmas.LexerSound

/-! A general induction principle for the matcher: invariants of the state, of the tokens and of the blocks, for the elements
and containers of a grammar. -/

namespace Verif.Lexer
open Verif.Patterns Verif.Cardinality

/-- From a state with `I`, no panic (when `np`), and a result with `Q` in a state with `I`. -/
def M.Inv {α} (np : Prop) (I : St → Prop) (x : M α) (Q : α → Prop) : Prop :=
  ∀ s r s', I s → x s = some (r, s') → (np → r ≠ .panic) ∧ ∀ a, r = .ok a → I s' ∧ Q a

namespace M.Inv
variable {np : Prop} {I : St → Prop}

theorem bind {α β} {x : M α} {f : α → M β} {P : α → Prop} {Q : β → Prop} (hx : M.Inv np I x P)
    (hf : ∀ a, P a → M.Inv np I (f a) Q) : M.Inv np I (x >>= f) Q := by
  intro s r s' hI h
  rw [M.bind_def] at h
  split at h
  · simp at h
  · rename_i a s1 h1
    obtain ⟨h2, h3⟩ := (hx _ _ _ hI h1).2 a rfl
    exact hf a h3 _ _ _ h2 h
  · simp at h
    obtain ⟨rfl, _⟩ := h
    simp
  · rename_i s1 h1
    simp at h
    obtain ⟨rfl, _⟩ := h
    exact ⟨fun hn => absurd rfl ((hx _ _ _ hI h1).1 hn), by simp⟩

theorem pure {α} {a : α} {Q : α → Prop} (h : Q a) : M.Inv np I (pure a : M α) Q := by
  intro s r s' hI hr
  simp at hr
  obtain ⟨rfl, rfl⟩ := hr
  exact ⟨by simp, fun b hb => by simp at hb; subst hb; exact ⟨hI, h⟩⟩

theorem lift {α} {o : Out α} {Q : α → Prop} (hp : np → o ≠ .panic) (h : ∀ a, o = .ok a → Q a) : M.Inv np I (M.lift o) Q := by
  intro s r s' hI hr
  simp at hr
  obtain ⟨rfl, rfl⟩ := hr
  exact ⟨hp, fun b hb => ⟨hI, h b hb⟩⟩

theorem outOfFuel {α} {Q : α → Prop} : M.Inv np I (M.outOfFuel : M α) Q := by
  intro s r s' _ h
  simp at h

theorem get {Q : St → Prop} (h : ∀ s, I s → Q s) : M.Inv np I M.get Q := by
  intro s r s' hI hr
  simp at hr
  obtain ⟨rfl, rfl⟩ := hr
  exact ⟨by simp, fun b hb => by simp at hb; subst hb; exact ⟨hI, h _ hI⟩⟩

theorem set {s0 : St} (h : I s0) : M.Inv np I (M.set s0) (fun _ => True) := by
  intro s r s' hI hr
  simp at hr
  obtain ⟨rfl, rfl⟩ := hr
  exact ⟨by simp, fun b hb => ⟨h, trivial⟩⟩

theorem mono {α} {x : M α} {P Q : α → Prop} (hx : M.Inv np I x P) (h : ∀ a, P a → Q a) : M.Inv np I x Q := by
  intro s r s' hI hr
  obtain ⟨h1, h2⟩ := hx _ _ _ hI hr
  exact ⟨h1, fun a ha => ⟨(h2 a ha).1, h _ (h2 a ha).2⟩⟩

end M.Inv

/-- What is known about every line match: it belongs to a line, it is not empty, its blocks have the property `B`, it consumes
something when it is valid and consists of the rejected block when it is not. -/
def LineInv (B : PContainer → BlockMatch → Prop) (lines : List Line) : LineMatch → Prop
  | .mk i l => ∃ line, lines[i]? = some line ∧ l ≠ [] ∧ (∀ b ∈ l, ∃ c, .container c ∈ line ∧ B c b) ∧
      (blocksValid l = true → blocksDiscoveries l ≠ []) ∧ (blocksValid l = false → ∃ b, l = [b])

/-- An invariant of the matcher. -/
structure MatcherInv (env : Env) (np : Prop) where
  GE : Element → Prop
  GC : PContainer → Prop
  T : Element → Token → Prop
  B : PContainer → BlockMatch → Prop
  I : St → Prop
  ge : ∀ e, GE e → ∀ line ∈ e.must ++ e.not, ∀ c, Instruction.container c ∈ line → GC c
  gt : ∀ e sp k, GC (.token e sp k) → GE e
  gl : ∀ ls, GC (.lines ls) → ∀ line ∈ ls, ∀ c, Instruction.container c ∈ line → GC c
  gch : ∀ k, ∀ p ∈ env.channels k, GE p.element ∧ ∀ e ∈ p.deps, GE e
  I_rec : ∀ s f, I s → I { s with recursive := f }
  I_ranges : ∀ s n, I s → I { s with ranges := n }
  ok_none : ∀ e, GE e → T e (.mk e.name none)
  ok_tok : ∀ e m n, GE e → LineInv B e.must m → (∀ x, n = some x → LineInv B e.not x) → (e.not = [] → n = none) →
    T e (.mk e.name (some (.mk m n)))
  ok_next : ∀ c k x, GC c → c.cardinality = .ok k → k.isValid 0 = false → B c (.mk none (.next x))
  ok_chan : ∀ ch t tc c b, GE ch → (∃ k, ∃ p ∈ env.channels k, p.element = ch) → T ch t → t.isValid = true → t.content = some tc → B c b →
    B c (.mk (some tc.must) (.block b))
  ok_rule : ∀ n r k script ch, GC (.rule r k) → M.Inv np I (ruleToRuleMatch n r k script ch)
    (fun x => B (.rule r k) (.mk none (.container (wrapRule x))))
  ok_token : ∀ e sp k script l, GC (.token e sp k) → (∀ t ∈ l, T e t ∧ t.isValid = true) → script ≠ [] →
    B (.token e sp k) (.mk none (.container (wrapToken (.mk e.name (.mk script k l) sp))))
  ok_recursive : ∀ e sp k script l, GC (.recursive e.name sp k) → GE e → (∀ t ∈ l, T e t ∧ t.isValid = true) → script ≠ [] →
    B (.recursive e.name sp k) (.mk none (.container (wrapToken (.mk e.name (.mk script k l) sp))))
  ok_line : ∀ ls l, GC (.lines ls) → LineInv B ls l → B (.lines ls) (.mk none (.container (.line l)))
  np_card : np → ∀ c, GC c → c.cardinality ≠ .panic
  np_next : np → ∀ deps n c s r s', (∀ e ∈ deps, GE e) → GC c → buildNextElement deps n c s = some (r, s') → r ≠ .panic

theorem fetch_mem {deps : List Element} {name : Str} {e : Element} (h : fetch deps name = .ok e) : e ∈ deps ∧ e.name = name := by
  unfold fetch at h
  split at h
  · rename_i e' he
    simp at h; subst h
    have h1 := List.mem_of_find?_eq_some he
    have h2 := List.find?_some he
    simp at h1 h2
    exact ⟨h1, h2⟩
  · simp at h

theorem fetch_ne_panic {deps : List Element} {name : Str} : fetch deps name ≠ .panic := by
  unfold fetch
  split <;> simp

theorem buildNext_state (deps : List Element) (n : Nat) (c : PContainer) (s s' : St) (r : Out NextElement)
    (h : buildNextElement deps n c s = some (r, s')) : s' = s := by
  have key : ∀ n name s s' r, fetchFirstRule deps n name s = some (r, s') → s' = s := by
    intro n
    induction n with
    | zero => intro name s s' r h; simp [fetchFirstRule] at h
    | succ n ih =>
      intro name s s' r h
      simp only [fetchFirstRule] at h
      rw [M.bind_def] at h
      rw [M.lift_run] at h
      cases hf : fetch deps name with
      | err => rw [hf] at h; simp at h; exact h.2.symm
      | panic => rw [hf] at h; simp at h; exact h.2.symm
      | ok a =>
        rw [hf] at h
        dsimp only at h
        cases hm : a.must with
        | nil => simp [hm] at h; exact h.2.symm
        | cons l ls =>
          simp only [hm] at h
          cases hc : firstContainer l with
          | none => simp [hc] at h; exact h.2.symm
          | some c =>
            simp only [hc] at h
            cases c with
            | token e sp k => exact ih _ _ _ _ h
            | rule r k => simp at h; exact h.2.symm
            | recursive nm sp k => exact ih _ _ _ _ h
            | lines ls => simp at h; exact h.2.symm
  have key2 : ∀ name, (do let r ← fetchFirstRule deps n name; M.lift (nextFromRule r)) s = some (r, s') → s' = s := by
    intro name h
    rw [M.bind_def] at h
    split at h
    · simp at h
    · rename_i a s1 h1
      simp at h
      rw [← h.2]; exact key _ _ _ _ _ h1
    · rename_i s1 h1
      simp at h
      rw [← h.2]; exact key _ _ _ _ _ h1
    · rename_i s1 h1
      simp at h
      rw [← h.2]; exact key _ _ _ _ _ h1
  cases c with
  | rule r k => simp [buildNextElement] at h; exact h.2.symm
  | token e sp k => exact key2 _ h
  | recursive nm sp k => exact key2 _ h
  | lines ls => simp [buildNextElement] at h; exact h.2.symm

namespace MatcherInv
variable {env : Env} {np : Prop} (V : MatcherInv env np)

theorem bestLoop {f : Line → M (Option (List BlockMatch))} {lines : List Line}
    (hf : ∀ line ∈ lines, M.Inv np V.I (f line) (fun o => ∀ l, o = some l → ∀ i : Nat, lines[i]? = some line →
      l ≠ [] ∧ (∀ b ∈ l, ∃ c, .container c ∈ line ∧ V.B c b) ∧ (blocksValid l = false → ∃ b, l = [b])))
    (ls : List Line) : ∀ (i : Nat) b, (∀ j : Nat, ls[j]? = lines[i + j]?) → (∀ l ∈ ls, l ∈ lines) →
      (∀ l, b.valid = some l → LineInv V.B lines l) → (∀ l, b.invalid = some l → LineInv V.B lines l) →
      M.Inv np V.I (bestLoop f ls i b) (fun b => (∀ l, b.valid = some l → LineInv V.B lines l) ∧
        (∀ l, b.invalid = some l → LineInv V.B lines l)) := by
  induction ls with
  | nil => intro i b _ _ h1 h2; exact .pure ⟨h1, h2⟩
  | cons l ls ih =>
    intro i b hi hm h1 h2
    have hi' : ∀ j : Nat, ls[j]? = lines[i + 1 + j]? := by
      intro j
      have := hi (j + 1)
      simp at this
      rw [this]; congr 1; omega
    have hl : lines[i]? = some l := by
      have := hi 0
      simpa using this.symm
    refine M.Inv.bind (hf l (hm l (by simp))) ?_
    intro m hmm
    cases m with
    | none => exact ih _ _ hi' (fun l hl => hm l (by simp [hl])) h1 h2
    | some m =>
      obtain ⟨k1, k2, k3⟩ := hmm m rfl i hl
      refine ih _ _ hi' (fun l hl => hm l (by simp [hl])) ?_ ?_
      · intro x hx
        unfold Best.step at hx
        split at hx
        · split at hx <;> exact h1 _ hx
        · rename_i hv
          dsimp only at hx
          split at hx
          · rename_i hb
            simp at hx; subst hx
            refine ⟨l, hl, k1, k2, ?_, k3⟩
            intro hv'
            intro hd
            simp [LineMatch.discoveries, hv', hd] at hb
          · exact h1 _ hx
      · intro x hx
        unfold Best.step at hx
        split at hx
        · rename_i hv
          split at hx
          · simp at hx; subst hx
            refine ⟨l, hl, k1, k2, ?_, k3⟩
            intro hv'
            simp [hv'] at hv
          · exact h2 _ hx
        · dsimp only at hx
          split at hx <;> exact h2 _ hx

theorem channelLoop {f : Path → M Token} (ps : List Path) (hps : ∀ p ∈ ps, V.GE p.element)
    (hf : ∀ p ∈ ps, M.Inv np V.I (f p) (V.T p.element)) :
    M.Inv np V.I (channelLoop f ps) (fun o => ∀ l, o = some l → ∃ ch t tc, V.GE ch ∧ V.T ch t ∧ t.isValid = true ∧
      t.content = some tc ∧ l = tc.must ∧ ∃ p ∈ ps, p.element = ch) := by
  induction ps with
  | nil => exact .pure (by simp)
  | cons p ps ih =>
    refine M.Inv.bind (hf p (by simp)) ?_
    intro t ht
    split
    · refine (ih (fun p hp => hps p (by simp [hp])) (fun p hp => hf p (by simp [hp]))).mono ?_
      intro o ho l hl
      obtain ⟨ch, t, tc, h1, h2, h3, h4, h5, p', h6, h7⟩ := ho l hl
      exact ⟨ch, t, tc, h1, h2, h3, h4, h5, p', by simp [h6], h7⟩
    · rename_i hv
      simp at hv
      match t, ht, hv with
      | .mk n none, _, hv => simp [Token.isValid] at hv
      | .mk n (some c), ht, hv =>
        exact .pure (by intro l hl; simp at hl; subst hl; exact ⟨_, _, _, hps p (by simp), ht, hv, rfl, rfl, p, by simp, rfl⟩)

theorem lineLoop {f : PContainer → Str → Bool → Bool → M (Option BlockMatch)} {line : Line} (is : List Instruction)
    (hf : ∀ c, .container c ∈ line → ∀ r a b, M.Inv np V.I (f c r a b) (fun o => ∀ x, o = some x → V.B c x)) :
    ∀ a b rem acc, (∀ i ∈ is, i ∈ line) → (∀ b ∈ acc, ∃ c, .container c ∈ line ∧ V.B c b) → blocksValid acc = true →
    M.Inv np V.I (lineLoop f is a b rem acc) (fun o => ∀ l, o = some l → l ≠ [] ∧
      (∀ b ∈ l, ∃ c, .container c ∈ line ∧ V.B c b) ∧ (blocksValid l = false → ∃ b, l = [b])) := by
  induction is with
  | nil =>
    intro a b rem acc _ h hv
    refine .pure ?_
    intro l hl
    split at hl
    · simp at hl
    · rename_i he
      simp at hl; subst hl
      exact ⟨by simpa using he, h, by simp [hv]⟩
  | cons i is ih =>
    intro a b rem acc hi h hv
    cases i with
    | channelSwitch => exact ih _ _ _ _ (fun i h => hi i (by simp [h])) h hv
    | container c =>
      have hc : .container c ∈ line := hi _ (by simp)
      refine M.Inv.bind (hf c hc _ _ _) ?_
      intro m hm
      cases m with
      | none =>
        refine .pure ?_
        intro l hl
        split at hl
        · simp at hl
        · rename_i he
          simp at hl; subst hl
          exact ⟨by simpa using he, h, by simp [hv]⟩
      | some x =>
        dsimp only
        split
        · refine .pure ?_
          intro l hl
          simp at hl; subst hl
          exact ⟨by simp, by intro b hb; simp at hb; subst hb; exact ⟨c, hc, hm _ rfl⟩, fun _ => ⟨_, rfl⟩⟩
        · rename_i hxv
          simp at hxv
          split
          · exact .pure (by simp)
          · refine ih _ _ _ _ (fun i h => hi i (by simp [h])) ?_ ?_
            · intro y hy
              rcases List.mem_append.mp hy with hy | hy
              · exact h y hy
              · simp at hy; subst hy; exact ⟨c, hc, hm _ rfl⟩
            · have : ∀ a b : List BlockMatch, blocksValid (a ++ b) = (blocksValid a && blocksValid b) := by
                intro a b
                induction a with
                | nil => simp [blocksValid]
                | cons x xs ih => simp [blocksValid, ih, Bool.and_assoc]
              rw [this]
              simp [hv, blocksValid, hxv]

theorem tokenLoop {e : Element} {f : Str → M Token} (hf : ∀ r, M.Inv np V.I (f r) (V.T e)) (card : Card) (n : Nat) :
    ∀ rem acc, (∀ t ∈ acc, V.T e t ∧ t.isValid = true) →
      M.Inv np V.I (tokenLoop f card n rem acc) (fun l => ∀ t ∈ l, V.T e t ∧ t.isValid = true) := by
  induction n with
  | zero => intro rem acc _; exact .outOfFuel
  | succ n ih =>
    intro rem acc h
    refine M.Inv.bind (hf _) ?_
    intro t ht
    split
    · exact .pure h
    · rename_i hv
      simp at hv
      have hacc : ∀ x ∈ acc ++ [t], V.T e x ∧ x.isValid = true := by
        intro x hx
        rcases List.mem_append.mp hx with hx | hx
        · exact h x hx
        · simp at hx; subst hx; exact ⟨ht, hv⟩
      match t, hv with
      | .mk n none, hv => simp [Token.isValid] at hv
      | .mk nm (some c), hv =>
        simp only [Token.content]
        split
        · exact .pure hacc
        · split
          · exact .pure hacc
          · exact ih _ _ hacc

/-- The depths `n`. -/
structure At (n : Nat) : Prop where
  elem : ∀ e deps s c, V.GE e → (∀ d ∈ deps, V.GE d) → M.Inv np V.I (elementToToken env n e deps s c) (V.T e)
  content : ∀ e deps s c, V.GE e → (∀ d ∈ deps, V.GE d) → M.Inv np V.I (elementToTokenContent env n e deps s c)
    (fun o => V.T e (.mk e.name o))
  best : ∀ ls deps s c, (∀ line ∈ ls, ∀ c, Instruction.container c ∈ line → V.GC c) → (∀ d ∈ deps, V.GE d) →
    M.Inv np V.I (bestLineToMatches env n ls deps s c) (fun o => ∀ l, o = some l → LineInv V.B ls l)
  line : ∀ line deps s c, (∀ c, Instruction.container c ∈ line → V.GC c) → (∀ d ∈ deps, V.GE d) →
    M.Inv np V.I (lineToMatches env n line deps s c) (fun o => ∀ l, o = some l → l ≠ [] ∧
      (∀ b ∈ l, ∃ c, .container c ∈ line ∧ V.B c b) ∧ (blocksValid l = false → ∃ b, l = [b]))
  block : ∀ p deps s c x, V.GC p → (∀ d ∈ deps, V.GE d) → M.Inv np V.I (containerToBlockMatch env n p deps s c x)
    (fun o => ∀ b, o = some b → V.B p b)
  chan : ∀ p deps s x, V.GC p → (∀ d ∈ deps, V.GE d) → M.Inv np V.I (findChannelBlockMatch env n p deps s x)
    (fun o => ∀ b, o = some b → V.B p b)
  mtch : ∀ p deps s x, V.GC p → (∀ d ∈ deps, V.GE d) → s ≠ [] → M.Inv np V.I (containerToMatch env n p deps s x)
    (fun o => ∀ m, o = some m → V.B p (.mk none (.container m)))
  tok : ∀ e sp k deps s x, V.GE e → (∀ d ∈ deps, V.GE d) → M.Inv np V.I (tokenToTokenMatch env n e sp k deps s x)
    (fun t => ∃ l, s ≠ [] ∧ t = .mk e.name (.mk s k l) sp ∧ ∀ t ∈ l, V.T e t ∧ t.isValid = true)

theorem at_all (n : Nat) : V.At n := by
  induction n with
  | zero =>
    constructor <;> intros <;> try exact M.Inv.outOfFuel
  | succ n ih =>
    constructor
    · intro e deps s c he hd
      simp only [elementToToken]
      refine M.Inv.bind (ih.content _ _ _ _ he hd) ?_
      intro o ho
      split
      · exact .lift (by simp) (by simp)
      · exact .pure ho
    · intro e deps s c he hd
      simp only [elementToTokenContent]
      refine M.Inv.bind (ih.best _ _ _ _ (fun l hl => V.ge e he l (by simp [hl])) hd) ?_
      intro m hm
      cases m with
      | none => exact .pure (V.ok_none e he)
      | some m =>
        dsimp only
        split
        · exact .pure (V.ok_tok e m none he (hm m rfl) (by simp) (fun _ => rfl))
        · rename_i hne
          refine M.Inv.bind (ih.best _ _ _ _ (fun l hl => V.ge e he l (by simp [hl])) hd) ?_
          intro x hx
          exact .pure (V.ok_tok e m x he (hm m rfl) hx (by intro h; simp [h] at hne))
    · intro ls deps s c hg hd
      simp only [bestLineToMatches]
      refine M.Inv.bind (V.bestLoop (lines := ls) ?_ ls 0 ⟨0, none, none⟩ (by simp) (fun l h => h) (by simp) (by simp)) ?_
      · intro line hl
        exact (ih.line line deps s c (hg line hl) hd).mono (fun o ho l hl i _ => ho l hl)
      · intro b hb
        refine .pure ?_
        intro l hl
        unfold Best.result at hl
        cases hv : b.valid with
        | none => rw [hv] at hl; exact hb.2 _ hl
        | some l' => rw [hv] at hl; simp at hl; subst hl; exact hb.1 _ hv
    · intro line deps s c hg hd
      simp only [lineToMatches]
      exact V.lineLoop line (fun c hc r a b => ih.block _ _ _ _ _ (hg c hc) hd) _ _ _ _ (fun i h => h) (by simp) rfl
    · intro p deps s c x hp hd
      simp only [containerToBlockMatch]
      split
      · refine M.Inv.bind (.lift (fun hn => V.np_card hn p hp) (Q := fun k => p.cardinality = .ok k) (by simp)) ?_
        intro k hk
        split
        · exact .pure (by simp)
        · rename_i hv
          refine M.Inv.bind (P := fun _ => True) ?_ ?_
          · intro s0 r s1 hI hr
            have := buildNext_state _ _ _ _ _ _ hr
            subst this
            exact ⟨fun hn => V.np_next hn _ _ _ _ _ _ hd hp hr, fun _ _ => ⟨hI, trivial⟩⟩
          · intro y _
            exact .pure (by intro b hb; simp at hb; subst hb; exact V.ok_next p k y hp hk (by simpa using hv))
      · rename_i hs
        refine M.Inv.bind (P := fun o => ∀ b, o = some b → V.B p b) ?_ ?_
        · split
          · exact ih.chan _ _ _ _ hp hd
          · exact .pure (by simp)
        · intro b hb
          cases b with
          | some b => exact .pure hb
          | none =>
            refine M.Inv.bind (ih.mtch _ _ _ _ hp hd hs) ?_
            intro m hm
            cases m with
            | none => exact .pure (by simp)
            | some m => exact .pure (by intro b hb; simp at hb; subst hb; exact hm _ rfl)
    · intro p deps s x hp hd
      simp only [findChannelBlockMatch]
      refine M.Inv.bind (.get (Q := V.I) (fun s h => h)) ?_
      intro s0 hs0
      refine M.Inv.bind (.set (V.I_ranges _ _ hs0)) ?_
      intro _ _
      refine M.Inv.bind (V.channelLoop _ (fun p hp => (V.gch _ p hp).1)
        (fun p hp => ih.elem _ _ _ _ (V.gch _ p hp).1 (V.gch _ p hp).2)) ?_
      intro l hl
      cases l with
      | none => exact .pure (by simp)
      | some l =>
        dsimp only
        split
        · exact .pure (by simp)
        · refine M.Inv.bind (ih.block _ _ _ _ _ hp hd) ?_
          intro b hb
          cases b with
          | none => exact .pure (by simp)
          | some b =>
            obtain ⟨ch, t, tc, h1, h2, h3, h4, rfl, p', h5, h6⟩ := hl l rfl
            exact .pure (by intro y hy; simp at hy; subst hy; exact V.ok_chan _ _ _ _ _ h1 ⟨_, p', h5, h6⟩ h2 h3 h4 (hb _ rfl))
    · intro p deps s x hp hd hs
      cases p with
      | token e sp k =>
        simp only [containerToMatch]
        refine M.Inv.bind (ih.tok e sp k deps s x (V.gt _ _ _ hp) hd) ?_
        rintro t ⟨l, h1, rfl, h2⟩
        exact .pure (by intro m hm; simp at hm; subst hm; exact V.ok_token e sp k s l hp h2 h1)
      | rule r k =>
        simp only [containerToMatch]
        refine M.Inv.bind (V.ok_rule n r k s x hp) ?_
        intro y hy
        exact .pure (by intro m hm; simp at hm; subst hm; exact hy)
      | recursive nm sp k =>
        simp only [containerToMatch]
        refine M.Inv.bind (.get (Q := V.I) (fun s h => h)) ?_
        intro s0 hs0
        split
        · exact M.Inv.bind (.set (V.I_rec _ _ hs0)) (fun _ _ => .pure (by simp))
        · refine M.Inv.bind (.set (V.I_rec _ _ hs0)) ?_
          intro _ _
          refine M.Inv.bind (.lift (Q := fun e => fetch deps nm = .ok e) (fun _ => fetch_ne_panic) (fun a h => h)) ?_
          intro e he
          obtain ⟨h1, rfl⟩ := fetch_mem he
          refine M.Inv.bind (ih.tok e sp k deps s x (hd e h1) hd) ?_
          rintro t ⟨l, h2, rfl, h3⟩
          exact .pure (by intro m hm; simp at hm; subst hm; exact V.ok_recursive e sp k s l hp (hd e h1) h3 h2)
      | lines ls =>
        simp only [containerToMatch]
        refine M.Inv.bind (ih.best ls deps s x (V.gl ls hp) hd) ?_
        intro l hl
        cases l with
        | none => exact .pure (by simp)
        | some l => exact .pure (by intro m hm; simp at hm; subst hm; exact V.ok_line ls l hp (hl l rfl))
    · intro e sp k deps s x he hd
      simp only [tokenToTokenMatch]
      refine M.Inv.bind (V.tokenLoop (fun r => ih.elem _ _ _ _ he hd) k _ _ _ (by simp)) ?_
      intro l hl
      refine .lift ?_ ?_
      · intro _
        unfold tokenMatchNow
        split
        · simp
        · split <;> simp
      · intro t ht
        unfold tokenMatchNow at ht
        split at ht
        · simp at ht
        · rename_i hs
          split at ht
          · simp at ht
          · simp at ht; subst ht
            exact ⟨l, hs, rfl, hl⟩

theorem toToken (hr : V.GE env.root.element) (hd : ∀ d ∈ env.root.deps, V.GE d) (n : Nat) (script : Str) :
    M.Inv np V.I (toToken env n script) (V.T env.root.element) := by
  unfold Lexer.toToken
  refine M.Inv.bind (.get (Q := V.I) (fun s h => h)) ?_
  intro s0 hs0
  refine M.Inv.bind (.set (V.I_rec _ _ hs0)) ?_
  intro _ _
  exact (V.at_all n).elem _ _ _ _ hr hd

end MatcherInv

end Verif.Lexer
