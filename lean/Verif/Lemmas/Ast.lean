import Verif.Spec.Ast
import Verif.Lemmas.LexerInv

namespace Verif.Lexer
open Verif.Patterns Verif.Cardinality

/-! ## Results of rules -/

theorem resultNow_ne {i ds r n x} (h : resultNow i ds r n = .ok x) : x.discoveries ≠ [] ∧ x.input = i ∧ x.discoveries = ds := by
  unfold resultNow at h
  split at h
  · simp at h
  · split at h
    · simp at h
    · simp at h; subst h; simp

theorem fromGroupAt_index (g : Group) (content : Str) : ∀ (rest : Str) (i : Nat) (x : Result),
    fromGroupAt g content i rest = .ok x → content.length = i + rest.length →
    ∃ d, x.discoveries = [d] ∧ d.index ≤ x.input.length := by
  intro rest
  induction rest with
  | nil => intro i x h; simp [fromGroupAt] at h
  | cons c cs ih =>
    intro i x h hl
    simp only [fromGroupAt] at h
    split at h
    · exact ih _ _ h (by simp at hl; omega)
    · simp only [Out.bind_eq_ok] at h
      obtain ⟨d, hd, h⟩ := h
      obtain ⟨_, h2, h3⟩ := resultNow_ne h
      refine ⟨d, h3, ?_⟩
      unfold discoveryNow at hd
      split at hd
      · simp at hd
      · simp at hd; subst hd
        rw [h2]; simp; omega

theorem matchPattern_ne {p : Pattern} {s : Str} {i : Nat} {x : Result} (h : matchPattern p s i = .ok (some x)) :
    x.discoveries ≠ [] := by
  unfold matchPattern at h
  simp only [Out.bind_eq_ok] at h
  obtain ⟨r, _, h⟩ := h
  split at h
  · simp at h
  · simp only [Out.bind_eq_ok] at h
    obtain ⟨y, hy, h⟩ := h
    simp at h; subst h
    exact (resultNow_ne hy).1

theorem resultLoop_zero (ps : List Pattern) (m : Option UInt64) (n : Nat) : ∀ list rem l,
    (∀ r ∈ list, r.index = .ok 0) → resultLoop ps m n list rem = .ok l → ∀ r ∈ l, r.index = .ok 0 := by
  induction n with
  | zero => intro list rem l h h'; simp [resultLoop] at h'; subst h'; exact h
  | succ n ih =>
    intro list rem l h h'
    simp only [resultLoop] at h'
    split at h'
    · simp at h'; subst h'; exact h
    · split at h'
      · simp at h'; subst h'; exact h
      · split at h'
        · simp at h'
        · simp at h'; subst h'; exact h
        · rename_i r hr
          simp only [Out.bind_eq_ok] at h'
          obtain ⟨i, hi, h'⟩ := h'
          split at h'
          · simp at h'; subst h'; exact h
          · rename_i h0
            refine ih _ _ _ ?_ h'
            intro x hx
            rcases List.mem_append.mp hx with hx | hx
            · exact h x hx
            · simp at hx; subst hx
              rw [hi]
              have : i = 0 := by omega
              rw [this]

/-- The results of a rule: all of them are at the front, except that of a constant. -/
theorem toResult_index {rule : Rule} {s : Str} {res : RuleResult} (h : toResult rule s = .ok res) {l : List Result}
    (hl : res.results = some l) : ∃ m ms i, l = m :: ms ∧ m.index = .ok i ∧ i ≤ m.input.length ∧
      ∀ x ∈ ms, x.index = .ok 0 := by
  unfold toResult at h
  split at h
  · split at h
    · simp at h; subst h; simp at hl
    · simp only [Out.bind_eq_ok] at h
      obtain ⟨g, hg, h⟩ := h
      split at h
      · simp at h
      · rename_i r hr
        simp at h; subst h; simp at hl; subst hl
        obtain ⟨d, h1, h2⟩ := fromGroupAt_index g s s 0 r hr (by simp)
        exact ⟨r, [], d.index, rfl, by simp [Result.index, h1], h2, by simp⟩
      · simp at h; subst h; simp at hl
  · simp only [Out.bind_eq_ok] at h
    obtain ⟨l', hl', h⟩ := h
    split at h
    · simp at h; subst h; simp at hl
    · rename_i hne
      simp at h; subst h; simp at hl; subst hl
      have := resultLoop_zero _ _ _ _ _ _ (by simp) hl'
      cases l' with
      | nil => simp at hne
      | cons m ms => exact ⟨m, ms, 0, rfl, this m (by simp), by simp, fun x hx => this x (by simp [hx])⟩

/-- What is known about a match of a rule without prefix. -/
def RuleTame (r : RuleMatch) : Prop := r.canHavePrefix = false ∧ ∀ x ∈ r.results, ∃ m ms i,
  x.results = some (m :: ms) ∧ m.index = .ok i ∧ i ≤ m.input.length ∧ ∀ y ∈ ms, y.index = .ok 0

theorem ruleLoop_inv {np : Prop} (rule : Rule) (card : Card) (cp : Bool) (len : Nat)
    (hnp : np → (∀ s, toResult rule s ≠ .panic) ∧ ∀ s res, toResult rule s = .ok res → res.content.length ≤ s.length)
    (n : Nat) : ∀ rem acc,
    (∀ x ∈ acc, ∃ m ms i, x.results = some (m :: ms) ∧ m.index = .ok i ∧ i ≤ m.input.length ∧ ∀ y ∈ ms, y.index = .ok 0) →
    M.Inv np (fun s => s.canPrefix = false) (ruleLoop rule card cp len n rem acc)
      (fun l => ∀ x ∈ l, ∃ m ms i, x.results = some (m :: ms) ∧ m.index = .ok i ∧ i ≤ m.input.length ∧
        ∀ y ∈ ms, y.index = .ok 0) := by
  induction n with
  | zero => intro rem acc _; exact .outOfFuel
  | succ n ih =>
    intro rem acc h
    unfold ruleLoop
    cases hres : toResult rule rem with
    | panic => exact .lift (fun hn => absurd hres ((hnp hn).1 rem)) (by simp)
    | err => exact .pure h
    | ok res =>
      dsimp only
      cases hrr : res.results with
      | none => exact .pure h
      | some l =>
        obtain ⟨m, ms, i, rfl, h1, h2, h3⟩ := toResult_index hres hrr
        have hacc : ∀ x ∈ acc ++ [res], ∃ m ms i, x.results = some (m :: ms) ∧ m.index = .ok i ∧ i ≤ m.input.length ∧
            ∀ y ∈ ms, y.index = .ok 0 := by
          intro x hx
          rcases List.mem_append.mp hx with hx | hx
          · exact h x hx
          · simp at hx; subst hx; exact ⟨m, ms, i, hrr, h1, h2, h3⟩
        dsimp only
        refine M.Inv.bind (.lift (Q := fun _ => True) (by simp [h1]) (fun _ _ => trivial)) ?_
        intro j _
        refine M.Inv.bind (P := fun _ => True) ?_ ?_
        · intro s r s' hI hr
          unfold notePrefix at hr
          simp at hr
          obtain ⟨rfl, rfl⟩ := hr
          refine ⟨by simp, fun _ _ => ⟨?_, trivial⟩⟩
          split <;> simp [hI]
        · intro _ _
          split
          · exact .pure hacc
          · split
            · exact .pure hacc
            · split
              · rename_i hlen
                refine .lift ?_ (by simp)
                intro hn
                have := (hnp hn).2 _ _ hres
                omega
              · split
                · exact .pure hacc
                · exact ih _ _ hacc

theorem ruleToRuleMatch_inv {np : Prop} (n : Nat) (r : Rule) (k : Card) (s : Str) (ch : Bool)
    (hnp : np → (∀ s, toResult r s ≠ .panic) ∧ ∀ s res, toResult r s = .ok res → res.content.length ≤ s.length) :
    M.Inv np (fun s => s.canPrefix = false) (ruleToRuleMatch n r k s ch) (fun x => RuleTame x ∧ x.rule = r ∧ x.card = k) := by
  unfold ruleToRuleMatch
  refine M.Inv.bind (.get (Q := fun s => s.canPrefix = false) (fun s h => h)) ?_
  intro s0 _
  refine M.Inv.bind (ruleLoop_inv r k _ _ hnp n s [] (by simp)) ?_
  intro l hl
  refine M.Inv.bind (.get (Q := fun s => s.canPrefix = false) (fun s h => h)) ?_
  intro s1 h1
  exact .pure ⟨⟨by simp [h1], hl⟩, rfl, rfl⟩

/-! ## Tokens of a matcher without prefixes, for grammars without groups and `not` parts -/

mutual
def Token.Tame : Token → Prop
  | .mk _ none => True
  | .mk _ (some (.mk (.mk _ l) n)) => n = none ∧ BlocksTame l ∧ l ≠ [] ∧ (blocksValid l = false → ∃ b, l = [b])
def BlocksTame : List BlockMatch → Prop
  | [] => True
  | b :: bs => b.Tame ∧ BlocksTame bs
def BlockMatch.Tame : BlockMatch → Prop
  | .mk none c => c.Tame
  | .mk (some (.mk _ p)) c => BlocksTame p ∧ blocksValid p = true ∧ c.Tame
def BlockContent.Tame : BlockContent → Prop
  | .container m => m.Tame
  | .block b => b.Tame
  | .next _ => True
def Match.Tame : Match → Prop
  | .token t => t.Tame
  | .rule r => RuleTame r
  | .skipToken _ => True
  | .skipRule _ => True
  | .line _ => False
def TokenMatch.Tame : TokenMatch → Prop
  | .mk _ (.mk _ _ l) _ => TokensTame l
def TokensTame : List Token → Prop
  | [] => True
  | t :: ts => t.Tame ∧ t.isValid = true ∧ TokensTame ts
end

theorem BlocksTame_iff (l : List BlockMatch) : BlocksTame l ↔ ∀ b ∈ l, b.Tame := by
  induction l with
  | nil => simp [BlocksTame]
  | cons b bs ih => simp [BlocksTame, ih]

theorem TokensTame_iff (l : List Token) : TokensTame l ↔ ∀ t ∈ l, t.Tame ∧ t.isValid = true := by
  induction l with
  | nil => simp [TokensTame]
  | cons b bs ih => simp [TokensTame, ih, and_assoc]

theorem LineInv.tame {B : PContainer → BlockMatch → Prop} {lines : List Line} {i : Nat} {l : List BlockMatch}
    (h : LineInv B lines (.mk i l)) (hB : ∀ c b, B c b → b.Tame) :
    BlocksTame l ∧ l ≠ [] ∧ (blocksValid l = false → ∃ b, l = [b]) := by
  obtain ⟨line, _, h1, h2, _, h3⟩ := h
  refine ⟨(BlocksTame_iff l).mpr ?_, h1, h3⟩
  intro b hb
  obtain ⟨c, _, h⟩ := h2 b hb
  exact hB c b h

/-- A block which does not begin with channels (when there are none) and has no specifiers (when there are none). -/
def Direct (nochan nospecs : Prop) (b : BlockMatch) : Prop :=
  (nochan → ∃ c, b = .mk none c ∧ ∀ x, c ≠ .block x) ∧
  (nospecs → ∀ p nm r sp, b = .mk p (.container (.token (.mk nm r sp))) → sp = [])

def Token.Direct (nochan nospecs : Prop) (t : Token) : Prop :=
  ∀ nm i l n, t = .mk nm (some (.mk (.mk i l) n)) → ∀ b ∈ l, Lexer.Direct nochan nospecs b

/-- Every token is tame, and no panic (when `np`) if the rules do not panic and the next elements can be found. -/
def tameInv (env : Env) (np : Prop) (specs : Prop) (R : Rule → Prop) (hg : GrammarShape False specs R env)
    (hR : np → ∀ r, R r → (∀ s, toResult r s ≠ .panic) ∧ ∀ s res, toResult r s = .ok res → res.content.length ≤ s.length)
    (hN : np → ∀ deps n c s r s', (∀ e ∈ deps, Shape False specs R e) → ShapeC False specs R c →
      buildNextElement deps n c s = some (r, s') → r ≠ .panic) : MatcherInv env np where
  GE := Shape False specs R
  GC := ShapeC False specs R
  T := fun e t => t.Tame ∧ t.name = e.name ∧ t.Direct (∀ k, env.channels k = []) (¬ specs)
  B := fun c b => b.Tame ∧ Direct (∀ k, env.channels k = []) (¬ specs) b
  I := fun s => s.canPrefix = false
  ge := by
    intro e he
    cases he with
    | mk _ h => exact h
  gt := by
    intro e sp k h
    cases h with
    | token h _ => exact h
  gl := by
    intro ls h
    cases h
  gch := hg.channels
  I_rec := fun _ _ h => h
  I_ranges := fun _ _ h => h
  ok_none := fun e _ => ⟨by simp [Token.Tame], rfl, by simp [Token.Direct]⟩
  ok_tok := by
    intro e m n he hm _ hn
    have hn0 : e.not = [] := by
      cases he with
      | mk h _ => exact h (fun h => h)
    match m with
    | .mk i l =>
      refine ⟨⟨hn hn0, hm.tame (fun _ _ h => h.1)⟩, rfl, ?_⟩
      intro nm i' l' n' ht b hb
      simp at ht
      obtain ⟨_, ⟨_, rfl⟩, _⟩ := ht
      obtain ⟨line, _, _, h2, _⟩ := hm
      obtain ⟨c, _, h⟩ := h2 b hb
      exact h.2
  ok_next := by intros; simp [BlockMatch.Tame, BlockContent.Tame, Direct]
  ok_chan := by
    intro ch t tc c b _ hch ht hv hc hb
    match t, tc with
    | .mk nm none, _ => simp [Token.content] at hc
    | .mk nm (some (.mk (.mk i l) n)), tc =>
      simp [Token.content] at hc
      subst hc
      obtain ⟨⟨rfl, h1, _⟩, _⟩ := ht
      refine ⟨⟨h1, by simpa [Token.isValid, TokenContent.isValid, LineMatch.isValid] using hv, hb.1⟩, ?_, ?_⟩
      · intro hn
        obtain ⟨k, p, hp, _⟩ := hch
        rw [hn k] at hp
        simp at hp
      · intro _ p nm r sp h
        simp at h
  ok_rule := by
    intro n r k s ch hc
    have hr : R r := by
      cases hc with
      | rule h => exact h
    refine (ruleToRuleMatch_inv n r k s ch (fun hn => hR hn r hr)).mono ?_
    rintro x ⟨hx, _⟩
    unfold wrapRule
    split
    · exact ⟨trivial, by simp [Direct]⟩
    · exact ⟨hx, by simp [Direct]⟩
  ok_token := by
    intro e sp k s l hc hl _
    have hl : TokensTame l := (TokensTame_iff l).mpr (fun t ht => ⟨(hl t ht).1.1, (hl t ht).2⟩)
    have hsp : ¬ specs → sp = [] := by
      cases hc with
      | token _ h => exact h
    unfold wrapToken
    split
    · exact ⟨trivial, by simp [Direct]⟩
    · exact ⟨hl, by simp, by intro hn p nm r sp' h; simp at h; rw [← h.2.2.2]; exact hsp hn⟩
  ok_recursive := by
    intro e sp k s l hc _ hl _
    have hl : TokensTame l := (TokensTame_iff l).mpr (fun t ht => ⟨(hl t ht).1.1, (hl t ht).2⟩)
    have hsp : ¬ specs → sp = [] := by
      cases hc with
      | recursive h => exact h
    unfold wrapToken
    split
    · exact ⟨trivial, by simp [Direct]⟩
    · exact ⟨hl, by simp, by intro hn p nm r sp' h; simp at h; rw [← h.2.2.2]; exact hsp hn⟩
  ok_line := by intro ls l h; cases h
  np_card := by
    intro _ c hc
    cases hc <;> simp [PContainer.cardinality]
  np_next := hN

end Verif.Lexer
