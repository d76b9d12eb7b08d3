import Verif.Spec.LexerSafe
import Verif.Lemmas.Ast

namespace Verif.Lexer
open Verif.Patterns Verif.Cardinality

theorem toResult_safe {r : Rule} (hw : RuleWF r) (s : Str) : toResult r s ≠ .panic ∧
    ∀ res, toResult r s = .ok res → res.content.length ≤ s.length := by
  cases hc : r.content with
  | constant c =>
    by_cases he : c = []
    · subst he
      rw [C37_empty_rule r hc]
      exact ⟨by simp, by intro res h; simp at h; subst h; simp [RuleResult.content]⟩
    · rcases C37_constant_rule r c hc he s with ⟨_, h'⟩ | ⟨a, b, x, hs, _, h', hx, _⟩
      · rw [h']
        exact ⟨by simp, by intro res h; simp at h; subst h; simp [RuleResult.content]⟩
      · rw [h']
        exact ⟨by simp, by intro res h; simp at h; subst h; rw [hs]; simp [RuleResult.content, hx]; omega⟩
  | pattern ps card =>
    unfold RuleWF at hw
    rw [hc] at hw
    unfold toResult
    rw [hc]
    obtain ⟨new, rest, h1, h2, _⟩ := resultLoop_spec ps hw card.delimiter.2 s.length [] s (le_refl _)
    simp only [h1, List.nil_append, Out.bind_ok]
    split
    · exact ⟨by simp, by intro res h; simp at h; subst h; simp [RuleResult.content]⟩
    · refine ⟨by simp, ?_⟩
      intro res h
      simp at h
      subst h
      conv_rhs => rw [h2]
      simp [RuleResult.content]

theorem ruleLoop_safe {rule : Rule} (hw : RuleWF rule) (card : Card) (cp : Bool) (len : Nat) (n : Nat) : ∀ rem acc,
    M.Inv True (fun _ => True) (ruleLoop rule card cp len n rem acc) (fun _ => True) := by
  induction n with
  | zero => intro rem acc; exact .outOfFuel
  | succ n ih =>
    intro rem acc
    unfold ruleLoop
    cases hres : toResult rule rem with
    | panic => exact absurd hres (toResult_safe hw rem).1
    | err => exact .pure trivial
    | ok res =>
      dsimp only
      cases hrr : res.results with
      | none => exact .pure trivial
      | some l =>
        obtain ⟨m, ms, i, rfl, h1, h2, h3⟩ := toResult_index hres hrr
        dsimp only
        refine M.Inv.bind (.lift (Q := fun _ => True) (by simp [h1]) (fun _ _ => trivial)) ?_
        intro j _
        refine M.Inv.bind (P := fun _ => True) ?_ ?_
        · intro s r s' hI hr
          unfold notePrefix at hr
          simp at hr
          obtain ⟨rfl, rfl⟩ := hr
          exact ⟨by simp, fun _ _ => ⟨trivial, trivial⟩⟩
        · intro _ _
          split
          · exact .pure trivial
          · split
            · exact .pure trivial
            · split
              · rename_i hlen
                have := (toResult_safe hw rem).2 _ hres
                omega
              · split
                · exact .pure trivial
                · exact ih _ _

theorem firstContainer_mem {l : Line} {c : PContainer} (h : firstContainer l = some c) : Instruction.container c ∈ l := by
  induction l with
  | nil => simp [firstContainer] at h
  | cons i is ih =>
    cases i with
    | channelSwitch => simp [firstContainer] at h; simp [ih h]
    | container c' => simp [firstContainer] at h; simp [h]

theorem firstContainer_some {l : Line} {c : PContainer} (h : Instruction.container c ∈ l) : ∃ c', firstContainer l = some c' := by
  induction l with
  | nil => simp at h
  | cons i is ih =>
    cases i with
    | channelSwitch => simp at h; simpa [firstContainer] using ih h
    | container c' => exact ⟨c', rfl⟩

theorem nextFromRule_safe {r : Rule} (h : ∀ k, r.content ≠ .pattern [] k) : nextFromRule r ≠ .panic := by
  unfold nextFromRule
  cases hc : r.content with
  | constant s => dsimp only; split <;> simp
  | pattern ps k =>
    cases ps with
    | nil => exact absurd hc (h k)
    | cons p ps => simp

theorem fetchFirstRule_safe {deps : List Element} (hd : ∀ e ∈ deps, Safe e) (n : Nat) : ∀ name,
    M.Inv True (fun _ => True) (fetchFirstRule deps n name) (fun r => ∀ k, r.content ≠ .pattern [] k) := by
  induction n with
  | zero => intro name; exact .outOfFuel
  | succ n ih =>
    intro name
    simp only [fetchFirstRule]
    refine M.Inv.bind (.lift (Q := fun e => Safe e) (fun _ => fetch_ne_panic) (fun e he => hd e (fetch_mem he).1)) ?_
    intro e he
    cases he with
    | @mk nm must not h1 h2 =>
      obtain ⟨l, ls, c, rfl, hc⟩ := h1
      obtain ⟨c', hc'⟩ := firstContainer_some hc
      have := h2 l (by simp) c' (firstContainer_mem hc')
      simp only [Element.must, hc']
      cases this with
      | token h => exact ih _
      | rule _ h => exact .pure h
      | recursive => exact ih _

theorem buildNext_safe {deps : List Element} (hd : ∀ e ∈ deps, Safe e) (n : Nat) {c : PContainer} (hc : SafeC c) :
    M.Inv True (fun _ => True) (buildNextElement deps n c) (fun _ => True) := by
  cases hc with
  | rule _ h => exact .lift (fun _ => nextFromRule_safe h) (fun _ _ => trivial)
  | token h =>
    exact M.Inv.bind (fetchFirstRule_safe hd n _) (fun r hr => .lift (fun _ => nextFromRule_safe hr) (fun _ _ => trivial))
  | recursive =>
    exact M.Inv.bind (fetchFirstRule_safe hd n _) (fun r hr => .lift (fun _ => nextFromRule_safe hr) (fun _ _ => trivial))

/-- No panics. -/
def safeInv (env : Env) (hg : GrammarSafe env) : MatcherInv env True where
  GE := Safe
  GC := SafeC
  T := fun _ _ => True
  B := fun _ _ => True
  I := fun _ => True
  ge := by
    intro e he
    cases he with
    | mk _ h => exact h
  gt := by
    intro e sp k h
    cases h with
    | token h => exact h
  gl := by intro ls h; cases h
  gch := hg.channels
  I_rec := fun _ _ _ => trivial
  I_ranges := fun _ _ _ => trivial
  ok_none := fun _ _ => trivial
  ok_tok := by intros; trivial
  ok_next := by intros; trivial
  ok_chan := by intros; trivial
  ok_rule := by
    intro n r k s ch hc
    have hr : RuleWF r := by
      cases hc with
      | rule h _ => exact h
    unfold ruleToRuleMatch
    refine M.Inv.bind (.get (Q := fun _ => True) (fun _ _ => trivial)) ?_
    intro s0 _
    refine M.Inv.bind (ruleLoop_safe hr k _ _ n s []) ?_
    intro l _
    refine M.Inv.bind (.get (Q := fun _ => True) (fun _ _ => trivial)) ?_
    intro s1 _
    exact .pure trivial
  ok_token := by intros; trivial
  ok_recursive := by intros; trivial
  ok_line := by intros; trivial
  np_card := by
    intro _ c hc
    cases hc <;> simp [PContainer.cardinality]
  np_next := by
    intro _ deps n c s r s' hd hc h
    exact (buildNext_safe hd n hc s r s' trivial h).1 trivial

end Verif.Lexer
