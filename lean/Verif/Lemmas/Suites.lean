import Verif.Spec.Suites
import Verif.Props.Containers
import Verif.Props.Ast
import Verif.Props.Grammar
import Verif.Lemmas.AstChannels

namespace Verif.Lexer
open Verif.Patterns Verif.Cardinality

theorem toSLine_ok {g : PathEnv} {channels : Option TokenSet} {d : Nat} {order : List Path → Nat → List Path} {fuel : Nat}
    {t : GToken} (hf : g.tokens.find t.name = .ok t) {i : Nat} {l : Str} {x : SLine} :
    toSLine g channels d order fuel t.name i l = some (.ok x) ↔ x.index = i ∧ LineOutcome g channels d order fuel t l x.isSuccess := by
  unfold toSLine LineOutcome
  simp only [hf]
  cases hm : matcherNow g d t channels with
  | err => simp
  | panic => simp
  | ok pp =>
    obtain ⟨p, ps⟩ := pp
    simp only [Out.ok.injEq, Prod.mk.injEq]
    cases ha : toAST ⟨p, order ps⟩ false fuel l freshSt with
    | none =>
      simp only [reduceCtorEq, false_iff, not_and, not_exists]
      rintro _ p' ps' ast st ⟨rfl, rfl⟩ h
      unfold freshSt at ha
      rw [ha] at h; simp at h
    | some r =>
      obtain ⟨o, st⟩ := r
      cases o with
      | err =>
        simp only [Option.some.injEq, reduceCtorEq, false_iff, not_and, not_exists]
        rintro _ p' ps' ast st ⟨rfl, rfl⟩ h
        unfold freshSt at ha
        rw [ha] at h; simp at h
      | panic =>
        simp only [Option.some.injEq, reduceCtorEq, false_iff, not_and, not_exists]
        rintro _ p' ps' ast st ⟨rfl, rfl⟩ h
        unfold freshSt at ha
        rw [ha] at h; simp at h
      | ok ast =>
        simp only [slineNow, Option.some.injEq, Out.ok.injEq]
        constructor
        · rintro rfl
          refine ⟨rfl, p, ps, ast, st, ⟨rfl, rfl⟩, ha, ?_⟩
          cases ast <;> simp [AST.isSuccess]
        · rintro ⟨h1, p', ps', ast', st', ⟨rfl, rfl⟩, h2, h3⟩
          unfold freshSt at ha
          rw [ha] at h2
          simp at h2
          obtain ⟨rfl, rfl⟩ := h2
          obtain ⟨i', b⟩ := x
          simp only at h1 h3
          subst h1
          cases ast <;> cases b <;> simp_all [AST.isSuccess]

theorem toSLines_ok {f : Nat → Str → Option (Out SLine)} : ∀ {ls : List Str} {k : Nat} {xs : List SLine},
    toSLines f k ls = some (.ok xs) ↔ xs.length = ls.length ∧
      ∀ i x l, xs[i]? = some x → ls[i]? = some l → f (k + i) l = some (.ok x) := by
  intro ls
  induction ls with
  | nil =>
    intro k xs
    simp only [toSLines, Option.some.injEq, Out.ok.injEq, List.length_nil, List.length_eq_zero_iff]
    constructor
    · rintro rfl; simp
    · rintro ⟨h, _⟩; exact h.symm
  | cons l ls ih =>
    intro k xs
    have aux : ∀ x, f k l = some (.ok x) → (toSLines f k (l :: ls) = some (.ok xs) ↔ ∃ xs', toSLines f (k + 1) ls = some (.ok xs') ∧ xs = x :: xs') := by
      intro x hx
      simp only [toSLines, hx]
      cases h : toSLines f (k + 1) ls with
      | none => simp
      | some o => cases o <;> simp [eq_comm]
    constructor
    · intro h
      have hx : ∃ x, f k l = some (.ok x) := by
        unfold toSLines at h
        cases hf : f k l with
        | none => simp [hf] at h
        | some o => cases o with
          | ok x => exact ⟨x, rfl⟩
          | err => simp [hf] at h
          | panic => simp [hf] at h
      obtain ⟨x, hx⟩ := hx
      obtain ⟨xs', h1, rfl⟩ := (aux x hx).mp h
      obtain ⟨h2, h3⟩ := ih.mp h1
      refine ⟨by simp [h2], ?_⟩
      intro i y l' hy hl'
      cases i with
      | zero => simp at hy hl'; subst hy hl'; simpa using hx
      | succ i =>
        simp at hy hl'
        have := h3 i y l' hy hl'
        rwa [show k + (i + 1) = k + 1 + i by omega]
    · rintro ⟨h1, h2⟩
      cases xs with
      | nil => simp at h1
      | cons x xs =>
        refine (aux x (by simpa using h2 0 x l rfl rfl)).mpr ⟨xs, ih.mpr ⟨by simpa using h1, ?_⟩, rfl⟩
        intro i y l' hy hl'
        have := h2 (i + 1) y l' (by simpa using hy) (by simpa using hl')
        rwa [show k + 1 + i = k + (i + 1) by omega]

theorem suiteNow_ok {name : Str} {lines : List SLine} {s : Suite} :
    suiteNow name lines = .ok s ↔ name ≠ [] ∧ lines ≠ [] ∧ s = ⟨name, lines⟩ := by
  unfold suiteNow
  split
  · simp_all
  · split <;> simp_all [eq_comm]

theorem toSuite_ok {f : Nat → Str → Option (Out SLine)} {name : Str} {tests : List Str} {s : Suite} :
    toSuite f name tests = some (.ok s) ↔ name ≠ [] ∧ s.lines ≠ [] ∧ s.name = name ∧ toSLines f 0 tests = some (.ok s.lines) := by
  unfold toSuite
  cases h : toSLines f 0 tests with
  | none => simp
  | some o =>
    cases o with
    | err => simp
    | panic => simp
    | ok xs =>
      simp only [Option.some.injEq, suiteNow_ok, Out.ok.injEq]
      constructor
      · rintro ⟨a, b, rfl⟩; exact ⟨a, b, rfl, rfl⟩
      · rintro ⟨a, b, rfl, rfl⟩; exact ⟨a, b, rfl⟩

theorem executeLoop_ok {f : Str → Nat → Str → Option (Out SLine)} : ∀ {ts : List GToken} {ss : List Suite},
    executeLoop f ts = some (.ok ss) ↔
      List.Forall₂ (fun t s => toSuite (f t.name) t.name (t.tests.getD []) = some (.ok s)) (ts.filter (fun t => t.tests.isSome)) ss := by
  intro ts
  induction ts with
  | nil => intro ss; simp [executeLoop, eq_comm]
  | cons t ts ih =>
    intro ss
    unfold executeLoop
    cases ht : t.tests with
    | none => simp [ht, ih]
    | some tests =>
      rw [List.filter_cons_of_pos (by simp [ht])]
      simp only
      cases hs : toSuite (f t.name) t.name tests with
      | none => simp [List.forall₂_cons_left_iff, ht, hs]
      | some o =>
        cases o with
        | err => simp [List.forall₂_cons_left_iff, ht, hs]
        | panic => simp [List.forall₂_cons_left_iff, ht, hs]
        | ok s =>
          simp only [List.forall₂_cons_left_iff, ht, Option.getD_some, hs, Option.some.injEq, Out.ok.injEq]
          cases hr : executeLoop f ts with
          | none =>
            simp only [reduceCtorEq, false_iff, not_exists, not_and]
            intro b u _ h
            have := ih.mpr h
            simp [hr] at this
          | some o =>
            cases o with
            | err =>
              simp only [Option.some.injEq, reduceCtorEq, false_iff, not_exists, not_and]
              intro b u _ h
              have := ih.mpr h
              simp [hr] at this
            | panic =>
              simp only [Option.some.injEq, reduceCtorEq, false_iff, not_exists, not_and]
              intro b u _ h
              have := ih.mpr h
              simp [hr] at this
            | ok ss' =>
              simp only [Option.some.injEq, Out.ok.injEq]
              constructor
              · rintro rfl
                exact ⟨s, ss', rfl, ih.mp hr, rfl⟩
              · rintro ⟨b, u, rfl, h, rfl⟩
                have := ih.mpr h
                rw [hr] at this
                simp at this
                rw [this]

/-! ## The shape of compiled grammars without `not` lines -/

theorem unf_shape {g : PathEnv} (hclosed : GClosed g) (hn : ∀ n u, g.tokens.find n = .ok u → u.not = none)
    {stack : List Str} {t : GToken} {e : Element} (h : Unf g stack t e) : t.not = none → Shape False True (fun _ => True) e := by
  refine Unf.rec (g := g) (motive_1 := fun _ t e _ => t.not = none → Shape False True (fun _ => True) e)
    (motive_2 := fun _ _ _ xs _ => ∀ x ∈ xs, ∀ c, Instruction.container c ∈ x → ShapeC False True (fun _ => True) c)
    (motive_3 := fun _ _ _ _ x _ => ∀ c, Instruction.container c ∈ x → ShapeC False True (fun _ => True) c)
    (motive_4 := fun _ _ _ _ c _ => ShapeC False True (fun _ => True) c) ?_ ?_ ?_ ?_ ?_ ?_ ?_ ?_ ?_ ?_ ?_ h
  · intro stack t must not h1 h2 h3 h4 h5 ih1 ih2 h0
    have := h4 h0
    subst this
    exact .mk (fun _ => rfl) (by simpa using ih1)
  · intros; simp_all
  · intro stack parent l ls x xs h0 h1 h2 ih1 ih2 y hy
    rcases List.mem_cons.mp hy with rfl | hy
    · exact ih1
    · exact ih2 y hy
  · intros; simp_all
  · intro stack parent n is xs h ih c hc
    simp at hc
    exact ih c hc
  · intro stack parent n e c is xs h1 h2 ih1 ih2 c' hc
    simp at hc
    rcases hc with rfl | hc
    · exact ih1
    · exact ih2 c' hc
  · intros; exact .recursive (by simp)
  · intro _ _ _ _ _ _ _ _ _ _ _ _ h
    rw [hclosed.1] at h; simp at h
  · intro _ _ _ _ _ _ _ _ u _ _ _ _ f _ ih
    exact .token (ih (hn _ _ f)) (by simp)
  · intro _ _ _ _ _ _ _ _ _ _ _ _ _ h
    rw [hclosed.2] at h; simp at h
  · intros; exact .rule trivial

/-- The matcher of a closed grammar without `not` lines has the shape that is asked for by `C44_ast`. -/
theorem matcher_shape {g : PathEnv} {ts : List GToken} (h : tokensNow ts = .ok g.tokens) (hclosed : GClosed g)
    (hn : ∀ u ∈ ts, u.not = none) {root : GToken} (hr : root ∈ ts) {channels : Option TokenSet}
    (hc : ∀ c ∈ chanList channels, c.not = none ∧ ∀ u ∈ ts, u.name = c.name → u = c) {d : Nat} {p : Path} {ps : List Path}
    (hm : matcherNow g d root channels = .ok (p, ps)) (orders : Nat → List Path) (hperm : ∀ k, (orders k).Perm ps) :
    GrammarShape False True (fun _ => True) ⟨p, orders⟩ := by
  obtain ⟨hg, hl⟩ := TokensOk.of h
  subst hl
  have hn' : ∀ n u, g.tokens.find n = .ok u → u.not = none := fun n u hu => hn u ((hg.find _ _).mp hu).1
  have one : ∀ (t : GToken) (q : Path), t.not = none → (∀ u ∈ g.tokens.list, u.name = t.name → u = t) → toPath g d t = .ok q →
      Shape False True (fun _ => True) q.element ∧ ∀ e ∈ q.deps, Shape False True (fun _ => True) e := by
    intro t q h0 hf hq
    obtain ⟨a1, _, a3⟩ := toPath_unf hg hclosed hq hf
    refine ⟨unf_shape hclosed hn' a1 h0, ?_⟩
    intro e he
    obtain ⟨u, hu, hue⟩ := a3 e he
    refine unf_shape hclosed hn' hue ?_
    rcases hu with hu | rfl
    · exact hn u hu
    · exact h0
  have uniq : ∀ u ∈ g.tokens.list, u.name = root.name → u = root := by
    intro u hu hname
    have e1 := (hg.find root.name u).mpr ⟨hu, hname⟩
    have e2 := (hg.find root.name root).mpr ⟨hr, rfl⟩
    rw [e1] at e2
    simpa using e2
  simp only [matcherNow, Out.bind_eq_ok] at hm
  obtain ⟨p', h1, h2⟩ := hm
  cases channels with
  | none =>
    simp at h2
    obtain ⟨rfl, rfl⟩ := h2
    obtain ⟨b1, b2⟩ := one root p' (hn root hr) uniq h1
    refine ⟨b1, b2, ?_⟩
    intro k q hq
    exact absurd ((hperm k).mem_iff.mp hq) (by simp)
  | some cs =>
    simp only [Out.bind_eq_ok] at h2
    obtain ⟨ps', h3, h4⟩ := h2
    simp at h4
    obtain ⟨rfl, rfl⟩ := h4
    obtain ⟨b1, b2⟩ := one root p' (hn root hr) uniq h1
    refine ⟨b1, b2, ?_⟩
    intro k q hq
    obtain ⟨c, hcc, hcp⟩ := (forall2_mem (channelPaths_each h3)).2 q ((hperm k).mem_iff.mp hq)
    exact one c q (hc c hcc).1 (hc c hcc).2 hcp

theorem forall2_imp_mem {α β : Type} {R S : α → β → Prop} {l : List α} {l' : List β} (h : List.Forall₂ R l l') :
    (∀ a ∈ l, ∀ b, R a b → S a b) → List.Forall₂ S l l' := by
  induction h with
  | nil => intro _; exact .nil
  | cons h _ ih =>
    intro H
    exact .cons (H _ (by simp) _ h) (ih (fun a ha => H a (by simp [ha])))

theorem executeLoop_err {f : Str → Nat → Str → Option (Out SLine)} : ∀ {ts : List GToken},
    (∀ t ∈ ts, ∀ i l, f t.name i l = some .err) → (∃ t ∈ ts, t.tests.isSome) → executeLoop f ts = some .err := by
  intro ts
  induction ts with
  | nil => simp
  | cons t ts ih =>
    intro hf hex
    unfold executeLoop
    cases ht : t.tests with
    | none =>
      obtain ⟨u, hu, hs⟩ := hex
      refine ih (fun t ht => hf t (by simp [ht])) ⟨u, ?_, hs⟩
      rcases List.mem_cons.mp hu with rfl | hu
      · simp [ht] at hs
      · exact hu
    | some tests =>
      have : toSuite (f t.name) t.name tests = some .err := by
        unfold toSuite
        cases tests with
        | nil => simp [toSLines, suiteNow]
        | cons l ls => simp [toSLines, hf t (by simp)]
      simp [this]

/-- A token with the single line `r`. -/
def constToken (name : Str) (r : Rule) (code : Str) (tests : List Str) : GToken := ⟨name, [[.element ⟨.rule r, code, none⟩]], none, some tests⟩

theorem compile_const {name : Str} (h0 : name ≠ []) (r : Rule) (code : Str) (tests : List Str) (set : TokenSet)
    (hset : tokensNow [constToken name r code tests] = .ok set) (d : Nat) :
    ∃ deps, toPath { tokens := set } (d + 1) (constToken name r code tests) = .ok ⟨.mk name [[.container (.rule r .mandatory)]] [], deps⟩ := by
  obtain ⟨h1, h2, _⟩ := C38_unique_find _ set hset
  unfold constToken at h1 ⊢
  simp [toPath, buildDependencies, h1, toElement, processLines, processLine, processInstructions, elementToContainer,
    h0, elementNow, elementsIn]

theorem toAST_front {env : Env} (hch : ∀ k, env.channels k = []) {name : Str} (hname : name ≠ []) {r : Rule} {c : Str}
    (hc : r.content = .constant c) (h0 : c ≠ []) (hrn : r.name ≠ []) (hcode : r.code ≠ [])
    (hroot : env.root.element = .mk name [[.container (.rule r .mandatory)]] []) {s : Str} (hs : c <+: s) (n : Nat) (st : St) :
    ∃ a st', toAST env false (n + 7) s st = some (.ok (.success a), st') := by
  obtain ⟨x, p, st', h1, h2, h3, h4, h5⟩ := block_front hch hc h0 n env.root.deps hs true true { st with recursive := fun _ => none }
  have e1 := lineToMatches_one h1 (by
    intro _
    simpa [BlockMatch.discoveries, BlockContent.discoveries, Match.discoveries, h5] using hs)
  have ht := token_single e1 (by
    simp [blocksDiscoveries, BlockMatch.discoveries, BlockContent.discoveries, Match.discoveries, h5, h0]) hname
  have htt : toToken env (n + 7) s st =
      some (.ok (.mk name (some (.mk (.mk 0 [.mk none (.container (.rule ⟨r, .mandatory, [⟨r, some [x]⟩], p⟩))]) none))), st') := by
    unfold toToken
    rw [M.bind_some_ok (M.get_run _), M.bind_some_ok (M.set_run _ _), hroot]
    exact ht
  have hxd : x.discoveries ≠ [] := by
    intro h
    simp [Result.content, h] at h2
    exact h0 h2
  have hA : ∃ a, Token.toA (.mk name (some (.mk (.mk 0 [.mk none (.container (.rule ⟨r, .mandatory, [⟨r, some [x]⟩], p⟩))]) none))) = .ok a := by
    simp [Token.toA, blocksToA, BlockMatch.toA, BlockContent.toA, Match.toA, aRuleMatch, aRuleResult, resultsLoop, h3, hxd, hrn,
      hcode, hname]
  obtain ⟨a, hA⟩ := hA
  refine ⟨a, st', ?_⟩
  unfold toAST
  rw [M.bind_some_ok htt, M.bind_some_ok (a := none) (s1 := st')]
  · dsimp only
    rw [M.bind_some_ok (s1 := st') (a := a)]
    · rfl
    · simp [M.lift, hA]
  · simp [M.lift, toMistake, Token.mistake, TokenContent.mistake, LineMatch.mistake, blocksMistake, BlockMatch.mistake,
      BlockContent.mistake, Match.mistake, ruleMistake, RuleMatch.amount, Card.isValid, isValidDelim, Card.delimiter,
      patternsMistake, patternMistake, h3]

end Verif.Lexer
