import Verif.Lemmas.Suites
import Verif.Props.AstMore
import Verif.Lemmas.GrammarWord

/-!
# Properties of the test suites of a grammar
-/

namespace Verif.Lexer
open Verif.Patterns Verif.Cardinality

/-- C50: `Execute` returns exactly one suite for each token with tests, in the order of the tokens, and each suite reports
every test line in order, with its index and with the outcome of a run of its own: the token itself is the root, and no line
has an influence on another one. In the same way, it returns suites only if all the lines of all the tokens have an outcome. -/
theorem C50_reports (g : PathEnv) (ts : List GToken) (h : tokensNow ts = .ok g.tokens) (channels : Option TokenSet) (d : Nat)
    (order : Str → Nat → List Path → Nat → List Path) (fuel : Nat) (suites : List Suite) :
    execute g channels d order fuel = some (.ok suites) ↔
      List.Forall₂ (Reports g channels d order fuel) (ts.filter (fun t => t.tests.isSome)) suites := by
  obtain ⟨hl, hf, _, _⟩ := C38_unique_find ts g.tokens h
  unfold execute
  rw [executeLoop_ok, hl]
  have key : ∀ t ∈ ts, ∀ s, toSuite (fun i l => toSLine g channels d (order t.name i) fuel t.name i l) t.name (t.tests.getD []) = some (.ok s) ↔
      Reports g channels d order fuel t s := by
    intro t ht s
    have hft : g.tokens.find t.name = .ok t := (hf _ _).mpr ⟨ht, rfl⟩
    rw [toSuite_ok, toSLines_ok]
    constructor
    · rintro ⟨h1, h2, h3, h4, h5⟩
      refine ⟨⟨h3, h1⟩, ⟨h4, h2⟩, ?_, ?_⟩
      · intro i x hx
        have hi : i < (t.tests.getD []).length := by
          rw [← h4]; exact (List.getElem?_eq_some_iff.mp hx).1
        have := h5 i x _ hx (List.getElem?_eq_getElem hi)
        have := ((toSLine_ok hft).mp this).1
        omega
      · intro i x line hx hli
        have := h5 i x line hx hli
        rw [Nat.zero_add] at this
        exact ((toSLine_ok hft).mp this).2
    · rintro ⟨⟨h3, h1⟩, ⟨h4, h2⟩, h5, h6⟩
      refine ⟨h1, h2, h3, h4, ?_⟩
      intro i x line hx hli
      rw [Nat.zero_add]
      exact (toSLine_ok hft).mpr ⟨h5 i x hx, h6 i x line hx hli⟩
  constructor
  · intro hh
    exact forall2_imp_mem hh (fun a ha b hab => (key a (List.mem_of_mem_filter ha) b).mp hab)
  · intro hh
    exact forall2_imp_mem hh (fun a ha b hab => (key a (List.mem_of_mem_filter ha) b).mpr hab)

/-- The grammar `S := D D*`, `D := a | b` with the channel `W := _`, where `S` has three tests and `D` has one. -/
def exTS : GToken := { exGS with tests := some [lit "a_b!", lit "x", lit "ab"] }
def exTD : GToken := { exGD with tests := some [lit "c"] }
def exTW : Option TokenSet := match tokensNow [exGW] with
  | .ok cs => some cs
  | _ => none

example : tokensNow [exTS, exTD] = .ok (exGenv [exTS, exTD]).tokens ∧
    execute (exGenv [exTS, exTD]) exTW 3 (fun _ _ ps _ => ps) 30 = some (.ok
      [⟨lit "S", [⟨0, true⟩, ⟨1, false⟩, ⟨2, true⟩]⟩, ⟨lit "D", [⟨0, false⟩]⟩]) := ⟨rfl, by decide +kernel⟩

/-- C50 (violation): one token that cannot be compiled (an incomplete one, one with an undeclared reference, or one that has
itself as the only element of a line) is enough to lose the suites of all the tokens, also of those which do not mention it:
`Execute` returns an error as soon as there is any token with tests. -/
theorem C50_one_bad_token (g : PathEnv) (ts : List GToken) (h : tokensNow ts = .ok g.tokens) (channels : Option TokenSet) (d : Nat)
    (hd : ts.length < d) (order : Str → Nat → List Path → Nat → List Path) (fuel : Nat) (bad : GToken) (hbad : bad ∈ ts)
    (hb : ¬ (GComplete bad ∧ GDeclared g bad ∧ GProgress g bad)) (t : GToken) (ht : t ∈ ts) (htests : t.tests.isSome) :
    execute g channels d order fuel = some .err := by
  obtain ⟨hl, hf, _, _⟩ := C38_unique_find ts g.tokens h
  unfold execute
  rw [hl]
  refine executeLoop_err ?_ ⟨t, ht, htests⟩
  intro u hu i l
  have hfu : g.tokens.find u.name = .ok u := (hf _ _).mpr ⟨hu, rfl⟩
  have h1 : ¬ ∃ p, toPath g d u = .ok p := fun hp => hb ((C66_compiles_iff g ts h u d hd).mp hp |>.1 bad hbad)
  have h2 := (C66_ends g ts h u d hd).1
  have h3 : toPath g d u = .err := by
    cases hp : toPath g d u with
    | ok p => exact absurd ⟨p, hp⟩ h1
    | err => rfl
    | panic => exact absurd hp h2
  unfold toSLine
  simp [hfu, matcherNow, h3]

theorem exGenv_closed (l : List GToken) : GClosed (exGenv l) := by
  unfold exGenv
  split <;> exact ⟨fun _ => rfl, fun _ => rfl⟩

/-- `D` cannot be compiled when it has a reference to an undeclared token, and `S` does not mention it. -/
example : let bad : GToken := ⟨lit "bad", [[exGe (.token (lit "nowhere") [])]], none, none⟩
    let g := exGenv [exTD, bad]
    tokensNow [exTD, bad] = .ok g.tokens ∧ ¬ GDeclared g bad ∧ execute g none 3 (fun _ _ ps _ => ps) 30 = some .err ∧
    execute (exGenv [exTD]) none 3 (fun _ _ ps _ => ps) 30 = some (.ok [⟨lit "D", [⟨0, false⟩]⟩]) := by
  refine ⟨rfl, ?_, by decide +kernel, by decide +kernel⟩
  intro h
  rcases h [exGe (.token (lit "nowhere") [])] (by simp [GToken.lines]) ⟨.token (lit "nowhere") [], lit "x", none⟩ (by simp [exGe]) _ _ rfl with
    ⟨r, hr⟩ | ⟨u, hu, hn⟩ | ⟨r, hr⟩
  · rw [(exGenv_closed _).1] at hr; simp at hr
  · have hu' : u = exTD ∨ u = ⟨lit "bad", [[exGe (.token (lit "nowhere") [])]], none, none⟩ := by
      have : (exGenv [exTD, ⟨lit "bad", [[exGe (.token (lit "nowhere") [])]], none, none⟩]).tokens.list =
        [exTD, ⟨lit "bad", [[exGe (.token (lit "nowhere") [])]], none, none⟩] := rfl
      rw [this] at hu
      simpa using hu
    rcases hu' with rfl | rfl <;> exact absurd hn (by decide)
  · rw [(exGenv_closed _).2] at hr; simp at hr

/-- C50: in a grammar without `not` lines the flag of a test line says whether the token which the matcher makes of the line
is valid; the recognised text is a prefix of the line. -/
theorem C50_flag (g : PathEnv) (ts : List GToken) (h : tokensNow ts = .ok g.tokens) (hclosed : GClosed g)
    (hn : ∀ u ∈ ts, u.not = none) (t : GToken) (ht : t ∈ ts) (channels : Option TokenSet)
    (hc : ∀ c ∈ chanList channels, c.not = none ∧ ∀ u ∈ ts, u.name = c.name → u = c) (d : Nat)
    (order : List Path → Nat → List Path) (hperm : ∀ ps k, (order ps k).Perm ps) (fuel : Nat) (line : Str) (b : Bool)
    (ho : LineOutcome g channels d order fuel t line b) :
    ∃ p ps tok st, matcherNow g d t channels = .ok (p, ps) ∧ toToken ⟨p, order ps⟩ fuel line freshSt = some (.ok tok, st) ∧
      b = tok.isValid ∧ (b = true → tok.discoveries <+: line) := by
  obtain ⟨p, ps, ast, st, h1, h2, h3⟩ := ho
  have hs := matcher_shape h hclosed hn ht hc h1 (order ps) (hperm ps)
  obtain ⟨tok, h4, h5⟩ := C44_ast ⟨p, order ps⟩ hs ps (fun k q hq => (hperm ps k).mem_iff.mp hq) fuel line _ st rfl ast h2
  refine ⟨p, ps, tok, st, h1, h4, ?_⟩
  cases ast with
  | mistake m =>
    simp at h3 h5
    simp [h3, h5]
  | success a =>
    simp at h3 h5
    simp [h3, h5.1, ← h5.2.2.1, h5.2.2.2]

/-- C50: in a grammar without recursion and `not` lines, whose optional parts stand at the ends of the lines, a line which is
reported as successful begins with a word of its token. -/
theorem C50_success_word (g : PathEnv) (ts : List GToken) (h : tokensNow ts = .ok g.tokens) (hclosed : GClosed g)
    (hn : ∀ u ∈ ts, u.not = none) (t : GToken) (ht : t ∈ ts) (hs : GSimple ts t) (channels : Option TokenSet)
    (hc : ∀ c ∈ chanList channels, GSimple ts c ∧ ∀ u ∈ ts, u.name = c.name → u = c) (d : Nat)
    (order : List Path → Nat → List Path) (hperm : ∀ ps k, (order ps k).Perm ps) (fuel : Nat) (line : Str)
    (hlen : line.length < 2 ^ 63) (ho : LineOutcome g channels d order fuel t line true) :
    ∃ w, w <+: line ∧ GWord ts (chanList channels) (.tok t) w := by
  have hc' : ∀ c ∈ chanList channels, c.not = none ∧ ∀ u ∈ ts, u.name = c.name → u = c := by
    intro c hcc
    refine ⟨?_, (hc c hcc).2⟩
    cases (hc c hcc).1 with
    | mk h _ _ _ => exact h
  obtain ⟨p, ps, tok, st, h1, h2, h3, h4⟩ := C50_flag g ts h hclosed hn t ht channels hc' d order hperm fuel line true ho
  refine ⟨tok.discoveries, h4 rfl, ?_⟩
  have hfit : GFits ts t := by
    obtain ⟨_, hf, _, _⟩ := C38_unique_find ts g.tokens h
    intro u hu hname
    have e1 := (hf t.name u).mpr ⟨hu, hname⟩
    have e2 := (hf t.name t).mpr ⟨ht, rfl⟩
    rw [e1] at e2
    simpa using e2
  cases channels with
  | some cs =>
    exact C67_valid_is_word g ts h hclosed t cs hfit (fun c hcc => (hc c hcc).2) hs (fun c hcc => (hc c hcc).1) d p ps h1
      ⟨p, order ps⟩ rfl (hperm ps) fuel line hlen _ st tok h2 h3.symm
  | none =>
    obtain ⟨hps, hlang⟩ := C67_language_no_channels g ts h hclosed t hfit d p ps h1 tok.discoveries
    subst hps
    refine hlang.mp ?_
    obtain ⟨hg, hl⟩ := TokensOk.of h
    subst hl
    have htp : toPath g d t = .ok p := by
      simp only [matcherNow, Out.bind_eq_ok] at h1
      obtain ⟨p', h1, h3⟩ := h1
      simp at h3
      subst h3
      exact h1
    obtain ⟨a1, _, _⟩ := toPath_unf hg hclosed htp hfit
    have hpr := unf_plain hg hclosed hs (by simp [Leads]) a1
    exact C55_language_sound ⟨p, order []⟩ [] (fun k q hq => (hperm [] k).mem_iff.mp hq) (by simp) (by simp) hpr.1 hpr.2 fuel line
      hlen _ st tok h2 h3.symm

/-- A test line of `D := a | b` that meets the hypotheses. -/
example : tokensNow [exTD] = .ok (exGenv [exTD]).tokens ∧ GClosed (exGenv [exTD]) ∧ GSimple [exTD] exTD ∧
    LineOutcome (exGenv [exTD]) none 3 (fun ps _ => ps) 30 exTD (lit "bx") true ∧
    LineOutcome (exGenv [exTD]) none 3 (fun ps _ => ps) 30 exTD (lit "x") false := by
  refine ⟨rfl, exGenv_closed _, ?_, ?_, ?_⟩
  · refine .mk rfl ?_ ?_ ?_
    · intro l hl; simp [exTD, exGD] at hl; rcases hl with rfl | rfl <;> simp [GOptionalTail, exGe]
    · intro l hl e he r hr; simp [exTD, exGD] at hl; rcases hl with rfl | rfl <;> simp [exGe] at he <;> subst he <;> simp [exGr] at hr <;>
        subst hr <;> simp [RuleWF, exC]
    · intro l hl e he n s hc; simp [exTD, exGD] at hl; rcases hl with rfl | rfl <;> simp [exGe] at he <;> subst he <;> simp [exGr] at hc
  · exact ((toSLine_ok (order := fun ps _ => ps) (i := 0) (x := ⟨0, true⟩) rfl).mp (by decide +kernel)).2
  · exact ((toSLine_ok (order := fun ps _ => ps) (i := 0) (x := ⟨0, false⟩) rfl).mp (by decide +kernel)).2

/-- C50 (violation): a test line is reported as successful although only its beginning is a word of the token. For the token
with a constant as its single line, exactly the lines which begin with the constant are successful, whatever follows. -/
theorem C50_trailing_text (name : Str) (h0 : name ≠ []) (r : Rule) (c code : Str) (hc : r.content = .constant c) (hc0 : c ≠ [])
    (hrn : r.name ≠ []) (hcode : r.code ≠ []) (rests : List Str) (hrests : rests ≠ []) (d n : Nat)
    (order : Str → Nat → List Path → Nat → List Path) (hperm : ∀ s i ps k, (order s i ps k).Perm ps) (t : GToken)
    (ht : t = ⟨name, [[.element ⟨.rule r, code, none⟩]], none, some (rests.map (fun x => c ++ x))⟩) :
    ∃ set suite, tokensNow [t] = .ok set ∧ execute { tokens := set } none (d + 1) order (n + 7) = some (.ok [suite]) ∧
      (∀ x ∈ suite.lines, x.isSuccess = true) ∧ suite.lines.length = rests.length ∧
      ∀ w, GWord [t] [] (.tok t) w ↔ w = c := by
  have hset : ∃ set, tokensNow [t] = .ok set := (C38_unique_iff [t]).1.mpr (by simp)
  obtain ⟨set, hset⟩ := hset
  obtain ⟨deps, hp⟩ := compile_const h0 r code (rests.map (fun x => c ++ x)) set (by rw [← hset, ht]; rfl) d
  rw [show constToken name r code (rests.map (fun x => c ++ x)) = t from ht.symm] at hp
  refine ⟨set, ⟨name, rests.mapIdx (fun i _ => ⟨i, true⟩)⟩, hset, ?_, ?_, by simp, ?_⟩
  · refine (C50_reports { tokens := set } [t] hset none (d + 1) order (n + 7) _).mpr ?_
    rw [show [t].filter (fun t => t.tests.isSome) = [t] by subst ht; rfl]
    refine .cons ⟨⟨?_, ?_⟩, ⟨?_, ?_⟩, ?_, ?_⟩ .nil
    · subst ht; rfl
    · subst ht; exact h0
    · subst ht; simp
    · simpa using hrests
    · intro i x hx
      simp at hx
      obtain ⟨_, _, rfl⟩ := hx
      rfl
    · intro i x line hx hline
      simp at hx
      obtain ⟨_, _, rfl⟩ := hx
      have hpre : c <+: line := by
        subst ht
        simp at hline
        obtain ⟨y, _, rfl⟩ := hline
        exact List.prefix_append _ _
      have hch : ∀ k, (Env.mk ⟨.mk name [[.container (.rule r .mandatory)]] [], deps⟩ (order t.name i [])).channels k = [] := by
        intro k
        exact List.perm_nil.mp (hperm t.name i [] k)
      obtain ⟨a, st', h2⟩ := toAST_front hch h0 hc hc0 hrn hcode rfl hpre n ⟨false, fun _ => none, 0⟩
      exact ⟨_, [], _, st', by simp [matcherNow, hp], h2, by simp⟩
  · intro x hx
    simp [List.mem_mapIdx] at hx
    obtain ⟨_, _, rfl⟩ := hx
    rfl
  · intro w
    subst ht
    rw [gword_tok]
    simp only [List.mem_singleton, exists_eq_left]
    rw [gword_cons]
    simp only [gword_rule hc hc0, gword_nil]
    constructor
    · rintro ⟨u, v, rfl, rfl, rfl⟩; simp
    · rintro rfl; exact ⟨_, [], by simp, rfl, rfl⟩

example : execute (exGenv [⟨lit "T", [[.element ⟨.rule (exC "A" "a"), lit "A", none⟩]], none, some [lit "a", lit "a?!"]⟩]) none 1
    (fun _ _ ps _ => ps) 7 = some (.ok [⟨lit "T", [⟨0, true⟩, ⟨1, true⟩]⟩]) := by decide +kernel

end Verif.Lexer
