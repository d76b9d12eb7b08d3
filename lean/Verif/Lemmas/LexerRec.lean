import Verif.Lemmas.LexerChannels

/-! # Runs of tokens which mention themselves -/

namespace Verif.Lexer
open Verif.Patterns Verif.Cardinality

/-- Total correctness: from a state with `P` the run ends with a result and a state with `Q`. -/
def Tot {α : Type} (P : St → Prop) (x : M α) (Q : α → St → Prop) : Prop :=
  ∀ st, P st → ∃ a st', x st = some (.ok a, st') ∧ Q a st'

theorem Tot.bind {α β : Type} {P : St → Prop} {x : M α} {f : α → M β} {Q : α → St → Prop} {R : β → St → Prop}
    (hx : Tot P x Q) (hf : ∀ a, Tot (Q a) (f a) R) : Tot P (x >>= f) R := by
  intro st hp
  obtain ⟨a, st1, h1, h2⟩ := hx st hp
  obtain ⟨b, st2, h3, h4⟩ := hf a st1 h2
  exact ⟨b, st2, by rw [M.bind_some_ok h1]; exact h3, h4⟩

theorem Tot.pure {α : Type} {P : St → Prop} {a : α} {Q : α → St → Prop} (h : ∀ st, P st → Q a st) : Tot P (pure a : M α) Q :=
  fun st hp => ⟨a, st, rfl, h st hp⟩

theorem Tot.mono {α : Type} {P P' : St → Prop} {x : M α} {Q Q' : α → St → Prop} (h : Tot P x Q) (hp : ∀ st, P' st → P st)
    (hq : ∀ a st, Q a st → Q' a st) : Tot P' x Q' := by
  intro st h'
  obtain ⟨a, st', h1, h2⟩ := h st (hp st h')
  exact ⟨a, st', h1, hq a st' h2⟩

/-- The entry for the recursive tokens is `f`. -/
def RecIs (f : Str → Option Str) (st : St) : Prop := st.recursive = f

/-- The outcome of a part: found exactly if `ok`, and then with the text `w`. -/
def BlockIs (ok : Prop) (w : Str) (o : Option BlockMatch) : Prop :=
  ∃ b, o = some b ∧ (b.isValid = true ↔ ok) ∧ (b.isValid = true → b.discoveries = w)

def TokenIs (ok : Prop) (w : Str) (t : Token) : Prop :=
  (t.isValid = true ↔ ok) ∧ (t.isValid = true → t.discoveries = w ∧ ∃ c, t.content = some c ∧ c.must.discoveries = w)

/-- A mandatory constant. -/
theorem tot_const {env : Env} (hch : ∀ k, env.channels k = []) {r : Rule} {c : Str} (hc : r.content = .constant c)
    (h0 : c ≠ []) (n : Nat) (deps : List Element) (s : Str) (ch nx : Bool) (f : Str → Option Str) :
    Tot (RecIs f) (containerToBlockMatch env (n + 3) (.rule r .mandatory) deps s ch nx)
      (fun o st => RecIs f st ∧ BlockIs (c <+: s) c o) := by
  intro st hp
  obtain ⟨b, st', h1, h2, h3, h4⟩ := block_mandatory hch hc h0 n deps s ch nx st
  exact ⟨_, st', h1, h2.trans hp, b, rfl, h3, h4⟩

/-- A container in front of a text, without channels. -/
theorem tot_direct {env : Env} (hch : ∀ k, env.channels k = []) {n : Nat} {c : PContainer} {deps : List Element} {s : Str}
    (hs : s ≠ []) (ch nx : Bool) {P : (Str → Option Str) → Prop} {Q : Option BlockMatch → St → Prop}
    (h : Tot (fun st => P st.recursive) (containerToMatch env (n + 1) c deps s nx >>= fun m => match m with
        | none => pure none
        | some x => pure (some (.mk none (.container x)))) Q) :
    Tot (fun st => P st.recursive) (containerToBlockMatch env (n + 2) c deps s ch nx) Q := by
  intro st hp
  obtain ⟨k, hk⟩ := block_direct (n := n) (c := c) (deps := deps) hch hs ch nx st
  rw [hk]
  exact h _ hp

theorem mandatory_reached (n : Nat) : reachedMax .mandatory (0 + 1) = true := by decide

/-- A token once. -/
theorem tot_token {env : Env} {n : Nat} {e : Element} {deps : List Element} {s : Str} (hs : s ≠ []) {nx : Bool}
    {P : St → Prop} {Q : St → Prop} {ok : Prop} {w : Str} (hw : ok → w <+: s)
    (h : Tot P (elementToToken env (n + 1) e deps s nx) (fun t st => TokenIs ok w t ∧ Q st)) :
    Tot P (tokenToTokenMatch env (n + 2) e [] .mandatory deps s nx)
      (fun m st => m.result.card = .mandatory ∧ (m.isValid = true ↔ ok) ∧ (m.isValid = true → m.discoveries = w) ∧ Q st) := by
  intro st hp
  obtain ⟨t, st', h1, ⟨h2, h3⟩, h4⟩ := h st hp
  cases hv : t.isValid with
  | false =>
    refine ⟨.mk e.name (.mk s .mandatory []) [], st', ?_, rfl, ?_, ?_, h4⟩
    · simp only [tokenToTokenMatch, tokenLoop]
      rw [M.bind_some_ok (a := []) (s1 := st')]
      · simp [tokenMatchNow, hs]
      · rw [M.bind_some_ok h1]; simp [hv]
    · have : ¬ ok := by rw [← h2, hv]; simp
      simp [TokenMatch.isValid, TokenResult.isValid, specsValid, this]
      decide
    · intro h
      have h0 : Card.mandatory.isValid 0 = false := by decide
      simp [TokenMatch.isValid, TokenResult.isValid, specsValid, h0] at h
  | true =>
    obtain ⟨h5, c, h6, h7⟩ := h3 hv
    have hok := h2.mp hv
    refine ⟨.mk e.name (.mk s .mandatory [t]) [], st', ?_, rfl, ?_, ?_, h4⟩
    · simp only [tokenToTokenMatch, tokenLoop]
      rw [M.bind_some_ok (a := [t]) (s1 := st')]
      · simp [tokenMatchNow, hs]
      · rw [M.bind_some_ok h1]
        have : w.isPrefixOf s = true := isPrefixOf_iff.mpr (hw hok)
        simp only [hv, h6, h7, this, Bool.not_true, Bool.false_eq_true, if_false, List.length_nil, mandatory_reached 0, if_true]
        rfl
    · simp [TokenMatch.isValid, TokenResult.isValid, specsValid, hok, tokensValid, hv]
      decide
    · intro _
      simp [TokenMatch.discoveries, TokenResult.discoveries, tokensDiscoveries, h5]

theorem wrapToken_mandatory {m : TokenMatch} (h : m.result.card = .mandatory) : wrapToken m = .token m := by
  have : m.result.card.isValid 0 = false := by rw [h]; decide
  simp [wrapToken, this]

/-- A mandatory token in a line. -/
theorem tot_tokenBlock {env : Env} (hch : ∀ k, env.channels k = []) {n : Nat} {e : Element} {deps : List Element} {s : Str}
    (hs : s ≠ []) {ch nx : Bool} {P : (Str → Option Str) → Prop} {Q : St → Prop} {ok : Prop} {w : Str} (hw : ok → w <+: s)
    (h : Tot (fun st => P st.recursive) (elementToToken env (n + 1) e deps s nx) (fun t st => TokenIs ok w t ∧ Q st)) :
    Tot (fun st => P st.recursive) (containerToBlockMatch env (n + 4) (.token e [] .mandatory) deps s ch nx)
      (fun o st => BlockIs ok w o ∧ Q st) := by
  refine tot_direct hch hs ch nx ?_
  simp only [containerToMatch]
  intro st hp
  obtain ⟨m, st', h1, h2, h3, h4, h5⟩ := tot_token hs hw h st hp
  refine ⟨some (.mk none (.container (.token m))), st', ?_, ⟨_, rfl, ?_, ?_⟩, h5⟩
  · rw [M.bind_some_ok (a := some (.token m)) (s1 := st')]
    · rfl
    · rw [M.bind_some_ok h1, wrapToken_mandatory h2]; rfl
  · simpa [BlockMatch.isValid, BlockContent.isValid, Match.isValid] using h3
  · simpa [BlockMatch.isValid, BlockContent.isValid, Match.isValid, BlockMatch.discoveries, BlockContent.discoveries,
        Match.discoveries] using h4

/-- A mandatory recursive token in a line, when the guard does not hold it back. -/
theorem tot_recBlock {env : Env} (hch : ∀ k, env.channels k = []) {n : Nat} {e : Element} {deps : List Element} {s : Str}
    (hs : s ≠ []) {name : Str} (hf : fetch deps name = .ok e) {ch nx : Bool} {P : (Str → Option Str) → Prop} {Q : St → Prop}
    {ok : Prop} {w : Str} (hw : ok → w <+: s) (hP : ∀ f, P f → f name ≠ some s)
    (h : Tot (fun st => ∃ f, P f ∧ st.recursive = Function.update f name (some s)) (elementToToken env (n + 1) e deps s nx)
      (fun t st => TokenIs ok w t ∧ Q st)) :
    Tot (fun st => P st.recursive) (containerToBlockMatch env (n + 4) (.recursive name [] .mandatory) deps s ch nx)
      (fun o st => BlockIs ok w o ∧ Q st) := by
  refine tot_direct hch hs ch nx ?_
  intro st hp
  obtain ⟨m, st', h1, h2, h3, h4, h5⟩ := tot_token hs hw h { st with recursive := Function.update st.recursive name (some s) }
    ⟨st.recursive, hp, rfl⟩
  refine ⟨some (.mk none (.container (.token m))), st', ?_, ⟨_, rfl, ?_, ?_⟩, h5⟩
  · rw [M.bind_some_ok (a := some (.token m)) (s1 := st')]
    · rfl
    · simp only [containerToMatch]
      rw [M.bind_some_ok (M.get_run _)]
      simp only [hP _ hp, if_false]
      rw [M.bind_some_ok (M.set_run _ _), hf, M.bind_some_ok (M.lift_run _ _), M.bind_some_ok h1, wrapToken_mandatory h2]
      rfl
  · simpa [BlockMatch.isValid, BlockContent.isValid, Match.isValid] using h3
  · simpa [BlockMatch.isValid, BlockContent.isValid, Match.isValid, BlockMatch.discoveries, BlockContent.discoveries,
        Match.discoveries] using h4

/-- The guard: at the same place a second time the recursive token is nothing, and the guard is open again. -/
theorem tot_recGuard {env : Env} (hch : ∀ k, env.channels k = []) {n : Nat} {deps : List Element} {s : Str}
    (hs : s ≠ []) {name : Str} {sp : List Spec} {card : Card} {ch nx : Bool} {P : (Str → Option Str) → Prop}
    (hP : ∀ f, P f → f name = some s) :
    Tot (fun st => P st.recursive) (containerToBlockMatch env (n + 2) (.recursive name sp card) deps s ch nx)
      (fun o st => o = none ∧ ∃ f, P f ∧ st.recursive = Function.update f name none) := by
  refine tot_direct hch hs ch nx ?_
  intro st hp
  refine ⟨none, { st with recursive := Function.update st.recursive name none }, ?_, rfl, _, hp, rfl⟩
  rw [M.bind_some_ok (a := none) (s1 := { st with recursive := Function.update st.recursive name none })]
  · rfl
  · simp only [containerToMatch]
    rw [M.bind_some_ok (M.get_run _)]
    simp only [hP _ hp, if_true]
    rfl

/-! ## Lines -/

/-- The outcome of a line. -/
def LineIs (acc : List BlockMatch) (ok : Prop) (w : Str) (o : Option (List BlockMatch)) : Prop :=
  ∃ l, o = some l ∧ (blocksValid l = true ↔ ok) ∧ (blocksValid l = true → blocksDiscoveries l = blocksDiscoveries acc ++ w)

theorem tot_lineNil {F : PContainer → Str → Bool → Bool → M (Option BlockMatch)} {P : St → Prop} {ch nx : Bool} {rem : Str}
    {acc : List BlockMatch} (h1 : acc ≠ []) (h2 : blocksValid acc = true) :
    Tot P (lineLoop F [] ch nx rem acc) (fun o st => LineIs acc True [] o ∧ P st) := by
  intro st hp
  refine ⟨some acc, st, ?_, ⟨acc, rfl, by simp [h2], by simp⟩, hp⟩
  simp [lineLoop, h1]

theorem tot_lineCons {F : PContainer → Str → Bool → Bool → M (Option BlockMatch)} {P Q R : St → Prop} {c : PContainer}
    {is : Line} {ch nx : Bool} {rem : Str} {acc : List BlockMatch} {ok ok2 : Prop} {w w2 : Str} (hacc : blocksValid acc = true)
    (hb : Tot P (F c rem ch nx) (fun o st => BlockIs ok w o ∧ Q st)) (hw : ok → w <+: rem) (hQR : ¬ ok → ∀ st, Q st → R st)
    (hrest : ok → ∀ acc', acc' ≠ [] → blocksValid acc' = true →
      Tot Q (lineLoop F is (if nx then ch else false) nx (rem.drop w.length) acc') (fun o st => LineIs acc' ok2 w2 o ∧ R st)) :
    Tot P (lineLoop F (.container c :: is) ch nx rem acc) (fun o st => LineIs acc (ok ∧ ok2) (w ++ w2) o ∧ R st) := by
  intro st hp
  obtain ⟨o, st1, h1, ⟨b, rfl, h2, h3⟩, hq⟩ := hb st hp
  simp only [lineLoop]
  rw [M.bind_some_ok h1]
  cases hv : b.isValid with
  | false =>
    have : ¬ ok := by rw [← h2, hv]; simp
    refine ⟨some [b], st1, by simp only [hv, Bool.not_false, if_true]; rfl, ⟨[b], rfl, ?_, by simp [blocksValid, hv]⟩, hQR this _ hq⟩
    simp [blocksValid, hv, this]
  | true =>
    have hok := h2.mp hv
    have hd := h3 hv
    obtain ⟨o, st2, k1, ⟨l, rfl, k2, k3⟩, k4⟩ := hrest hok (acc ++ [b]) (by simp) (by rw [blocksValid_snoc]; simp [hacc, hv]) st1 hq
    refine ⟨some l, st2, ?_, ⟨l, rfl, by simpa [hok] using k2, ?_⟩, k4⟩
    · have : w.isPrefixOf rem = true := isPrefixOf_iff.mpr (hw hok)
      simp only [hv, hd, this, Bool.not_true, Bool.false_eq_true, if_false]
      rw [replaceFirst_prefix (hw hok)]
      exact k1
    · intro hl
      rw [k3 hl, blocksDiscoveries_snoc, hd]; simp

/-- A line that ends early because a part is nothing. -/
theorem tot_lineStop {F : PContainer → Str → Bool → Bool → M (Option BlockMatch)} {P Q : St → Prop} {c : PContainer}
    {is : Line} {ch nx : Bool} {rem : Str} {acc : List BlockMatch} (hacc : blocksValid acc = true) (h0 : acc ≠ [])
    (hb : Tot P (F c rem ch nx) (fun o st => o = none ∧ Q st)) :
    Tot P (lineLoop F (.container c :: is) ch nx rem acc) (fun o st => LineIs acc True [] o ∧ Q st) := by
  intro st hp
  obtain ⟨o, st1, h1, rfl, hq⟩ := hb st hp
  simp only [lineLoop]
  rw [M.bind_some_ok h1]
  exact ⟨some acc, st1, by simp [h0], ⟨acc, rfl, by simp [hacc], by simp⟩, hq⟩

theorem tot_lineNone {F : PContainer → Str → Bool → Bool → M (Option BlockMatch)} {P Q : St → Prop} {c : PContainer}
    {is : Line} {ch nx : Bool} {rem : Str} (hb : Tot P (F c rem ch nx) (fun o st => o = none ∧ Q st)) :
    Tot P (lineLoop F (.container c :: is) ch nx rem []) (fun o st => o = none ∧ Q st) := by
  intro st hp
  obtain ⟨o, st1, h1, rfl, hq⟩ := hb st hp
  simp only [lineLoop]
  rw [M.bind_some_ok h1]
  exact ⟨none, st1, by simp, rfl, hq⟩

/-! ## Tokens -/

/-- What a line yields: nothing, or blocks which are valid exactly under a condition, and then have a text. -/
def OutIs : Option (Prop × Str) → Option (List BlockMatch) → Prop
  | none, o => o = none
  | some (ok, w), o => LineIs [] ok w o

inductive TotLines (env : Env) (n : Nat) (deps : List Element) (s : Str) (ch : Bool) :
    (St → Prop) → List Line → List (Option (Prop × Str)) → (St → Prop) → Prop
  | nil {P : St → Prop} : TotLines env n deps s ch P [] [] P
  | cons {P Q R : St → Prop} {l : Line} {ls : List Line} {x : Option (Prop × Str)} {xs : List (Option (Prop × Str))} :
      Tot P (lineToMatches env n l deps s ch) (fun o st => OutIs x o ∧ Q st) → TotLines env n deps s ch Q ls xs R →
      TotLines env n deps s ch P (l :: ls) (x :: xs) R

theorem TotLines.runs {env n deps s ch P ls xs R} (h : TotLines env n deps s ch P ls xs R) : ∀ st, P st →
    ∃ ms st', LineRuns env n deps s ch ls st ms st' ∧ List.Forall₂ OutIs xs ms ∧ R st' := by
  induction h with
  | nil => intro st hp; exact ⟨[], st, .nil _, .nil, hp⟩
  | cons h1 _ ih =>
    intro st hp
    obtain ⟨o, st1, k1, k2, k3⟩ := h1 st hp
    obtain ⟨ms, st2, k4, k5, k6⟩ := ih st1 k3
    exact ⟨_, st2, .cons k1 k4, .cons k2 k5, k6⟩

/-- The longest valid line. -/
theorem tot_element {env n deps s ch P ls xs R} (h : TotLines env n deps s ch P ls xs R) {name : Str} (hname : name ≠ [])
    {ok : Prop} {w : Str} (hok : ok ↔ ∃ p u, some (p, u) ∈ xs ∧ p) (hne : ∀ p u, some (p, u) ∈ xs → p → u ≠ [])
    (hmax : ∀ p u, some (p, u) ∈ xs → p → (∀ p' u', some (p', u') ∈ xs → p' → u'.length ≤ u.length) → u = w) :
    Tot P (elementToToken env (n + 3) (.mk name ls []) deps s ch) (fun t st => TokenIs ok w t ∧ R st) := by
  intro st hp
  obtain ⟨ms, st', h1, h2, h3⟩ := h.runs st hp
  obtain ⟨x, hx, hsp⟩ := token_of_runs h1 hname
  refine ⟨_, st', hx, ?_, h3⟩
  -- a good line is a line whose condition holds
  have hgood : ∀ {i : Nat} {l}, GoodLine ms i l → ∃ p u, some (p, u) ∈ xs ∧ p ∧ blocksDiscoveries l = u := by
    rintro i l ⟨g1, g2, g3⟩
    obtain ⟨hl, he⟩ := List.getElem?_eq_some_iff.mp g1
    have hl' : i < xs.length := by rw [h2.length_eq]; exact hl
    have hg := h2.get hl' hl
    simp only [List.get_eq_getElem] at hg
    rw [he] at hg
    cases hxi : xs[i] with
    | none => rw [hxi] at hg; simp [OutIs] at hg
    | some pu =>
      obtain ⟨p, u⟩ := pu
      rw [hxi] at hg
      obtain ⟨l', e1, e2, e3⟩ := hg
      simp at e1; subst e1
      exact ⟨p, u, by rw [← hxi]; exact List.getElem_mem _, e2.mp g2, by rw [e3 g2]; simp [blocksDiscoveries]⟩
  have hgood' : ∀ {p u}, some (p, u) ∈ xs → p → ∃ i l, GoodLine ms i l ∧ blocksDiscoveries l = u := by
    intro p u hm hp'
    obtain ⟨i, hl, he⟩ := List.mem_iff_getElem.mp hm
    have hl' : i < ms.length := by rw [← h2.length_eq]; exact hl
    have hg := h2.get hl hl'
    simp only [List.get_eq_getElem] at hg
    rw [he] at hg
    obtain ⟨l, e1, e2, e3⟩ := hg
    have hv := e2.mpr hp'
    have hd : blocksDiscoveries l = u := by rw [e3 hv]; simp [blocksDiscoveries]
    exact ⟨i, l, ⟨by rw [← e1]; simp [hl'], hv, by rw [hd]; exact hne p u hm hp'⟩, hd⟩
  cases hsp with
  | @good i l g1 g2 g3 =>
    obtain ⟨p, u, hm, hp', hd⟩ := hgood g1
    have hu : u = w := hmax p u hm hp' (by
      intro p' u' hm' hp''
      obtain ⟨j, l', e1, e2⟩ := hgood' hm' hp''
      have := g2 j l' e1
      rw [e2, hd] at this
      exact this)
    refine ⟨?_, ?_⟩
    · simp only [Option.map_some, Token.isValid, TokenContent.isValid, LineMatch.isValid, g1.2.1, true_iff]
      exact hok.mpr ⟨p, u, hm, hp'⟩
    · intro _
      simp [Token.discoveries, TokenContent.discoveries, LineMatch.discoveries, g1.2.1, hd, hu, Token.content, TokenContent.must]
  | @bad i l g1 g2 g3 =>
    have : ¬ ok := by
      intro ho
      obtain ⟨p, u, hm, hp'⟩ := hok.mp ho
      obtain ⟨j, l', e1, _⟩ := hgood' hm hp'
      exact g1 j l' e1
    refine ⟨by simp [Token.isValid, TokenContent.isValid, LineMatch.isValid, g2.2, this], ?_⟩
    simp [Token.isValid, TokenContent.isValid, LineMatch.isValid, g2.2]
  | nothing g1 g2 =>
    have : ¬ ok := by
      intro ho
      obtain ⟨p, u, hm, hp'⟩ := hok.mp ho
      obtain ⟨j, l', e1, _⟩ := hgood' hm hp'
      exact g1 j l' e1
    refine ⟨by simp [Token.isValid, this], by simp [Token.isValid]⟩

end Verif.Lexer
