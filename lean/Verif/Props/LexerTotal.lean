import Verif.Lemmas.LexerTotal4
import Verif.Props.LexerOrder

/-!
# Property C97: grammars whose left recursion is guarded always end
-/

namespace Verif.Lexer
open Verif.Patterns Verif.Cardinality

/-- C97: if the left recursion of a grammar is guarded (`WellGuarded`: tokens which begin with each other are reached by one way only, in front of which
nothing can touch the memory of the matcher), and its channels cannot be confused, the matcher ends on every script, from every state without prefixes and
for every order of the channels: from a number of steps on the outcome is always the same. -/
theorem C97_guarded_ends (g : PathEnv) (ts : List GToken) (hts : tokensNow ts = .ok g.tokens) (hclosed : GClosed g) (rank first : Str → Nat)
    (hW : WellGuarded ts rank first) (root : GToken) (hroot : root ∈ ts) (cs : TokenSet) (hcs : ApartChannels cs.list) (d : Nat) (p : Path) (ps : List Path)
    (hm : matcherNow g d root (some cs) = .ok (p, ps)) (order : Nat → List Path) (ho : ∀ k, (order k).Perm ps) (script : Str) (st : St)
    (hst : st.canPrefix = false) :
    ∃ fuel r, ∀ fuel', fuel ≤ fuel' → toAST ⟨p, order⟩ false fuel' script st = some r := by
  obtain ⟨h1, v, H⟩ := guarded_of hts hclosed hW hroot hcs hm ho
  obtain ⟨_, rfl⟩ := TokensOk.of hts
  obtain ⟨n, r, h⟩ := toAST_ends (b := false) (H.toToken_ends hroot h1 rfl script st hst)
  exact ⟨n, r, fun m hm => M.Le.bind (toToken_mono _ n m hm script) (fun _ => M.Le.refl _) st r h⟩

/-- `sum: num | sum PLUS num`, `num: ONE | TWO` -/
def exSum : GToken := ⟨lit "sum", [[exGe (.token (lit "num") [])],
  [exGe (.token (lit "sum") []), exGe (exGr "PLUS" "+"), exGe (.token (lit "num") [])]], none, none⟩
def exNum : GToken := ⟨lit "num", [[exGe (exGr "ONE" "1")], [exGe (exGr "TWO" "2")]], none, none⟩

theorem exSum_guarded : WellGuarded [exSum, exNum] (fun n => if n = lit "sum" then 1 else 0) (fun n => if n = lit "sum" then 1 else 0) := by
  have hreach : ∀ v w, ReachesName [exSum, exNum] v w → v = lit "num" → w = lit "num" := by
    intro v w h hv
    induction h with
    | refl => exact hv
    | tail _ h ih =>
      subst ih
      obtain ⟨t, ht, hn, l, hl, e, he, specs, hc⟩ := h
      simp only [List.mem_cons, List.not_mem_nil, or_false] at ht
      rcases ht with rfl | rfl
      · exact absurd hn (by decide)
      · simp [exNum, exGe, exGr] at hl
        rcases hl with rfl | rfl <;> simp at he <;> subst he <;> simp at hc
  refine ⟨?_, ?_, ?_⟩
  · intro t ht
    simp only [List.mem_cons, List.not_mem_nil, or_false] at ht
    rcases ht with rfl | rfl
    · refine ⟨rfl, ?_⟩
      intro l hl e he r hr
      simp [exSum, exGe, exGr] at hl
      rcases hl with rfl | rfl <;> simp at he
      · subst he; simp at hr
      · rcases he with rfl | rfl | rfl <;> simp at hr
        subst hr; simp [RuleWF, exC]
    · refine ⟨rfl, ?_⟩
      intro l hl e he r hr
      simp [exNum, exGe, exGr] at hl
      rcases hl with rfl | rfl <;> simp at he <;> subst he <;> simp at hr <;> subst hr <;> simp [RuleWF, exC]
  · intro t ht pre e post after hm hpre u specs hu
    simp only [List.mem_cons, List.not_mem_nil, or_false] at ht
    rcases ht with rfl | rfl
    · simp only [exSum, exGe, List.cons.injEq] at hm
      cases pre with
      | nil =>
        simp only [List.nil_append, List.cons.injEq] at hm
        obtain ⟨⟨h1, _⟩, _⟩ := hm
        cases h1
        cases hu
        decide
      | cons x pre =>
        simp at hm
    · simp only [exNum, exGe, exGr, List.cons.injEq] at hm
      cases pre with
      | nil =>
        simp only [List.nil_append, List.cons.injEq] at hm
        obtain ⟨⟨h1, _⟩, _⟩ := hm
        cases h1
        cases hu
      | cons x pre =>
        simp at hm
  · rintro t ht before pre e ⟨⟨post, after, hm⟩, hopt⟩ u specs hu
    have hmem : pre ++ .element e :: post ∈ t.must := by rw [hm]; simp
    have he : GInstr.element e ∈ pre ++ .element e :: post := by simp
    simp only [List.mem_cons, List.not_mem_nil, or_false] at ht
    rcases ht with rfl | rfl
    · by_cases hu' : u = lit "num"
      · left; subst hu'; decide
      · right
        have hu2 : u = lit "sum" := by
          generalize pre ++ .element e :: post = l at hmem he
          simp [exSum, exGe, exGr] at hmem
          rcases hmem with rfl | rfl <;> simp at he
          · subst he; simp at hu; exact absurd hu.1.symm hu'
          · rcases he with rfl | rfl | rfl <;> simp at hu
            · exact hu.1.symm
            · exact absurd hu.1.symm hu'
        have hpre : pre = [] := by
          cases pre with
          | nil => rfl
          | cons x pre =>
            exfalso
            simp [exSum, exGe, exGr] at hmem
            obtain ⟨rfl, h⟩ := hmem
            have := hopt _ (List.mem_cons_self ..)
            simp [GElement.times, SpecAllows] at this
        subst hpre
        refine ⟨by subst hu2; rfl, by simp, ?_⟩
        rintro l (rfl | hl) v hv w hw
        · obtain ⟨x, hx, _⟩ := hv
          simp at hx
        · have hl' : l = [exGe (.token (lit "num") [])] := by
            cases before with
            | nil => simp at hl
            | cons b before =>
              simp only [exSum, List.cons_append, List.cons.injEq] at hm
              obtain ⟨rfl, hm⟩ := hm
              cases before with
              | nil => simpa using hl
              | cons b before => simp at hm
          subst hl'
          obtain ⟨x, hx, sp, hc⟩ := hv
          simp [exGe] at hx
          subst hx
          simp at hc
          rw [hreach v w hw hc.1.symm]
          decide
    · exfalso
      generalize pre ++ .element e :: post = l at hmem he
      simp [exNum, exGe, exGr] at hmem
      rcases hmem with rfl | rfl <;> simp at he <;> subst he <;> simp at hu

/-- All the hypotheses are met by this grammar with two channels: there is an outcome on every script. -/
example : ∃ p ps, matcherNow (exGenv [exSum, exNum]) 3 exSum (some (exChans [exOne "open" "{", exOne "close" "}"])) = .ok (p, ps) ∧
    ∀ script, ∃ fuel r, ∀ fuel', fuel ≤ fuel' → toAST ⟨p, fun _ => ps⟩ false fuel' script exSt = some r :=
  ⟨_, _, rfl, fun script => C97_guarded_ends (exGenv [exSum, exNum]) [exSum, exNum] rfl ⟨fun _ => rfl, fun _ => rfl⟩ _ _ exSum_guarded exSum (by simp) _
    exOrder_apart 3 _ _ rfl _ (fun _ => List.Perm.refl _) script exSt rfl⟩

end Verif.Lexer
