import Verif.Lemmas.LexerAnswers
import Verif.Props.Derivation
import Verif.Props.LexerTotal

/-!
# Property C98: the lexer answers with a tree or a mistake
-/

namespace Verif.Lexer
open Verif.Patterns Verif.Cardinality

/-- C98: `ToAST` with the compiled matcher of a grammar whose tokens and channels are made as they should be (`TokenMade`: no `not` lines, rules with
name, code and content, an element in the first line) never returns an error and never panics, whatever the script, the order of the channels, the number of
steps and the state without prefixes: if it ends it gives a syntax tree or a mistake. Nothing is assumed about recursion, specifiers or cardinalities. -/
theorem C98_answers (g : PathEnv) (ts : List GToken) (h : tokensNow ts = .ok g.tokens) (hclosed : GClosed g) (root : GToken) (hroot : root ∈ ts)
    (channels : Option TokenSet) (hmade : ∀ t, t ∈ ts ∨ t ∈ chanList channels → TokenMade t) (hfits : ∀ c ∈ chanList channels, GFits ts c)
    (d : Nat) (p : Path) (ps : List Path) (hm : matcherNow g d root channels = .ok (p, ps)) (order : Nat → List Path) (hperm : ∀ k, (order k).Perm ps)
    (fuel : Nat) (script : Str) (st st' : St) (hst : st.canPrefix = false) (r : Out AST) (hrun : toAST ⟨p, order⟩ false fuel script st = some (r, st')) :
    (∃ a, r = .ok (.success a)) ∨ ∃ m, r = .ok (.mistake m) := by
  obtain ⟨hg, hl⟩ := TokensOk.of h
  subst hl
  have hfit : GFits g.tokens.list root := by
    intro u hu hname
    have e1 := (hg.find root.name u).mpr ⟨hu, hname⟩
    have e2 := (hg.find root.name root).mpr ⟨hroot, rfl⟩
    rw [e1] at e2
    simpa using e2
  have hmade' : ∀ t ∈ g.tokens.list, TokenMade t := fun t ht => hmade t (.inl ht)
  have hshape := matcher_shape h hclosed (fun u hu => (hmade' u hu).noNot) hroot (fun c hc => ⟨(hmade c (.inr hc)).noNot, hfits c hc⟩) hm order hperm
  obtain ⟨u1, u2, u3, _⟩ := matcher_unf hg hclosed hfit hfits hm
  have hnil : StackOk g [] := by simp [StackOk]
  obtain ⟨a, rfl⟩ := toAST_total (env := ⟨p, order⟩) (N := IsToken g) (fun k q hq => by
      obtain ⟨t, t1, t2, t3⟩ := u3 q ((hperm k).mem_iff.mp hq)
      exact ⟨unf_fine hg hclosed hmade' t2 (hmade t (.inr t1)) hnil, resolves_fine hg hclosed hmade' t3⟩)
    (unf_fine hg hclosed hmade' u1 (hmade' root hroot) hnil) (resolves_fine hg hclosed hmade' u2) hshape fuel script st hst r st' hrun
  cases a with
  | success a => exact .inl ⟨a, rfl⟩
  | mistake m => exact .inr ⟨m, rfl⟩

/-! The hypotheses are met by the grammar `sum: num | sum PLUS num` with two channels; there are trees and mistakes. -/

theorem exC_made (n s : String) (hn : lit n ≠ []) (hs : lit s ≠ []) : RuleMade (exC n s) := ⟨hn, by simp [exC, hs, hn], by simpa [exC] using hs⟩

theorem exSum_made : ∀ t, t ∈ [exSum, exNum] ∨ t ∈ chanList (some (exChans [exOne "open" "{", exOne "close" "}"])) → TokenMade t := by
  have hl : chanList (some (exChans [exOne "open" "{", exOne "close" "}"])) = [exOne "open" "{", exOne "close" "}"] := rfl
  intro t ht
  rw [hl] at ht
  simp only [List.mem_cons, List.not_mem_nil, or_false] at ht
  have one : ∀ n s, lit n ≠ [] → lit s ≠ [] → TokenMade (exOne n s) := by
    intro n s hn hs
    refine ⟨rfl, ?_, ?_⟩
    · intro l hl e he r hr
      simp [exOne, exGe, exGr] at hl
      subst hl
      simp at he
      subst he
      simp at hr
      subst hr
      exact exC_made _ _ hn hs
    · intro l ls h
      simp [exOne, exGe, exGr] at h
      obtain ⟨rfl, _⟩ := h
      exact ⟨_, List.mem_cons_self ..⟩
  rcases ht with (rfl | rfl) | rfl | rfl
  · refine ⟨rfl, ?_, ?_⟩
    · intro l hl e he r hr
      simp [exSum, exGe, exGr] at hl
      rcases hl with rfl | rfl <;> simp at he
      · subst he; simp at hr
      · rcases he with rfl | rfl | rfl <;> simp at hr
        subst hr; exact exC_made _ _ (by decide) (by decide)
    · intro l ls h
      simp [exSum, exGe, exGr] at h
      obtain ⟨rfl, _⟩ := h
      exact ⟨_, List.mem_cons_self ..⟩
  · refine ⟨rfl, ?_, ?_⟩
    · intro l hl e he r hr
      simp [exNum, exGe, exGr] at hl
      rcases hl with rfl | rfl <;> simp at he <;> subst he <;> simp at hr <;> subst hr <;> exact exC_made _ _ (by decide) (by decide)
    · intro l ls h
      simp [exNum, exGe, exGr] at h
      obtain ⟨rfl, _⟩ := h
      exact ⟨_, List.mem_cons_self ..⟩
  · exact one _ _ (by decide) (by decide)
  · exact one _ _ (by decide) (by decide)

/-- All the hypotheses are met, and with C97: for every script there is a tree or a mistake. -/
example : ∃ p ps, matcherNow (exGenv [exSum, exNum]) 3 exSum (some (exChans [exOne "open" "{", exOne "close" "}"])) = .ok (p, ps) ∧
    ∀ script, ∃ fuel a st, toAST ⟨p, fun _ => ps⟩ false fuel script exSt = some (.ok a, st) := by
  refine ⟨_, _, rfl, fun script => ?_⟩
  obtain ⟨fuel, ⟨r, st⟩, h⟩ := C97_guarded_ends (exGenv [exSum, exNum]) [exSum, exNum] rfl ⟨fun _ => rfl, fun _ => rfl⟩ _ _ exSum_guarded exSum (by simp) _
    exOrder_apart 3 _ _ rfl (fun _ => _) (fun _ => List.Perm.refl _) script exSt rfl
  have h := h fuel (le_refl _)
  rcases C98_answers (exGenv [exSum, exNum]) [exSum, exNum] rfl ⟨fun _ => rfl, fun _ => rfl⟩ exSum (by simp) _ exSum_made (by
      intro c hc u hu hn
      have hl : chanList (some (exChans [exOne "open" "{", exOne "close" "}"])) = [exOne "open" "{", exOne "close" "}"] := rfl
      rw [hl] at hc
      simp at hc hu
      rcases hc with rfl | rfl <;> rcases hu with rfl | rfl <;> exact absurd hn (by decide)) 3 _ _ rfl _ (fun _ => List.Perm.refl _) fuel script exSt st rfl r h
    with ⟨a, rfl⟩ | ⟨m, rfl⟩
  · exact ⟨fuel, _, st, h⟩
  · exact ⟨fuel, _, st, h⟩

end Verif.Lexer
