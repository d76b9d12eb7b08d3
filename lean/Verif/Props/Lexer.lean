import Verif.Lemmas.LexerLang
import Verif.Lemmas.LexerReps
import Verif.Lemmas.LexerLost
import Verif.Lemmas.LexerEnds
import Verif.Props.Cardinality

/-!
# Properties of the token matcher

`toToken env fuel script` is `ToToken(script)` of an adapter with the grammar `env` (root path and channels, with an
arbitrary order for each `range` over the channels), started in an arbitrary state of the adapter; `fuel` bounds the depth
of the calls and the rounds of the loops (a run which is completed does not depend on it: `C39_fuel`).
-/

namespace Verif.Lexer
open Verif.Patterns Verif.Cardinality

/-- A run which is completed has the same outcome and the same final state with more fuel. -/
theorem C39_fuel (env : Env) (n m : Nat) (hnm : n ≤ m) (script : Str) (st : St) (r : Out Token × St)
    (h : toToken env n script st = some r) : toToken env m script st = some r :=
  toToken_mono env n m hnm script st r h

/-- C39: every token which the matcher returns is a parse tree of the grammar which tiles the beginning of the script
(`Token.Conforms`, see `Verif/Spec/Lexer.lean`), and its text is a prefix of the script: what remains is what was not
consumed. Prefixes in front of the text are not possible, whatever the adapter was told about prefixes. -/
theorem C39_prefix (env : Env) (chans : List Path) (hch : ∀ k, ∀ p ∈ env.channels k, p ∈ chans) (fuel : Nat) (script : Str)
    (st st' : St) (t : Token) (h : toToken env fuel script st = some (.ok t, st')) :
    t.Conforms chans env.root.deps env.root.element script ∧ t.name = env.root.element.name ∧
    ∃ rest, script = t.discoveries ++ rest := by
  unfold toToken at h
  obtain ⟨s0, s1, _, h⟩ := M.bind_ok.mp h
  obtain ⟨_, s2, _, h⟩ := M.bind_ok.mp h
  have := (sound env chans hch fuel).elem _ _ _ _ _ _ _ h
  refine ⟨this, ?_, ?_⟩
  · match t, this with
    | .mk n none, h => exact h
    | .mk n (some (.mk m none)), h => exact h.1
    | .mk n (some (.mk m (some x))), h => exact h.1
  · obtain ⟨r, hr⟩ := token_prefix this
    exact ⟨r, hr.symm⟩

/-! A small grammar: `list` is at least one `item` (an `a` and at most two `b`), with blanks between the parts. -/

def exC (n s : String) : Rule := ⟨lit n, lit n, .constant (lit s), lit s⟩
def exItem : Element := .mk (lit "item") [[.container (.rule (exC "A" "a") .mandatory),
  .container (.rule (exC "B" "b") (.specific (.range ⟨0, some 2⟩)))]] []
def exList : Element := .mk (lit "list") [[.container (.token exItem [] .nonZeroMultiple)]] []
def exBlank : Element := .mk (lit "blank") [[.container (.rule (exC "S" " ") .mandatory)]] []
def exEnv : Env := ⟨⟨exList, [exItem, exList]⟩, fun _ => [⟨exBlank, [exBlank]⟩]⟩
def exSt : St := ⟨false, fun _ => none, 0⟩

/-- The hypotheses of `C39_prefix`, `C40_repetitions` and `C55_language_sound` are met by a run with repetitions, channels,
and a rest which is not consumed. -/
example : ∃ t st', toToken exEnv 30 (lit "abba bz") exSt = some (.ok t, st') ∧ t.isValid = true ∧
    t.discoveries = lit "abba b" ∧ t.reps.map Rep.amount = [2, 1, 2, 1, 1, 1] := by
  obtain ⟨t, st', h, hv⟩ := of_shows (f := fun t => (t.isValid, t.discoveries, t.reps.map Rep.amount))
    (x := toToken exEnv 30 (lit "abba bz") exSt) (v := (true, lit "abba b", [2, 1, 2, 1, 1, 1])) (by decide +kernel)
  simp at hv
  exact ⟨t, st', h, hv⟩

example : Plain exEnv.root.element ∧ AllLines OptionalTail exEnv.root.element ∧ Plain exBlank ∧
    AllLines OptionalTail exBlank := by
  have hA : ∀ n s, RuleWF (exC n s) := fun _ _ => trivial
  refine ⟨?_, ?_, ?_, ?_⟩
  · refine .mk ?_
    simp only [List.mem_singleton, forall_eq, Instruction.container.injEq]
    refine .token (.mk ?_)
    simp only [List.mem_singleton, forall_eq, List.mem_cons, Instruction.container.injEq, List.not_mem_nil, or_false,
      forall_eq_or_imp]
    exact ⟨.rule (hA _ _), .rule (hA _ _)⟩
  · refine .mk (by simp [OptionalTail]) ?_
    simp only [List.mem_singleton, forall_eq, Instruction.container.injEq]
    refine .token (.mk (by simp [OptionalTail, PContainer.cardinality, Card.isValid, isValidDelim, Card.delimiter]) ?_)
    simp only [List.mem_singleton, forall_eq, List.mem_cons, Instruction.container.injEq, List.not_mem_nil, or_false,
      forall_eq_or_imp]
    exact ⟨.rule, .rule⟩
  · refine .mk ?_
    simp only [List.mem_singleton, forall_eq, Instruction.container.injEq]
    exact .rule (hA _ _)
  · refine .mk (by simp [OptionalTail]) ?_
    simp only [List.mem_singleton, forall_eq, Instruction.container.injEq]
    exact .rule

/-- C40: every part of the token at every depth (in valid and in rejected parts) is repeated at most as often as the
maximum of its cardinality (a maximum of 0 is noticed after the first repetition only: this part is then not valid), and in
every valid part the number of repetitions is allowed by the cardinality. -/
theorem C40_repetitions (env : Env) (fuel : Nat) (script : Str) (st st' : St) (t : Token)
    (h : toToken env fuel script st = some (.ok t, st')) (r : Rep) (hr : r ∈ t.reps) :
    (∀ m, r.card.delimiter.2 = some m → r.amount ≤ max 1 m.toNat) ∧
    (r.valid = true → r.amount < 2 ^ 64 → SpecAllows r.card r.amount) := by
  unfold toToken at h
  obtain ⟨s0, s1, _, h⟩ := M.bind_ok.mp h
  obtain ⟨_, s2, _, h⟩ := M.bind_ok.mp h
  refine ⟨(repsSound env fuel).elem _ _ _ _ _ _ _ h r hr, ?_⟩
  intro hv hb
  have := (C30_isValid_iff _ _).mp (t.reps_valid r hr hv)
  rwa [UInt64.toNat_ofNat_of_lt' (by simpa [UInt64.size] using hb)] at this

/-- A grammar with a maximum of 0: an `a` and no `b`. -/
def exZero : Env := ⟨⟨.mk (lit "root") [[.container (.rule (exC "A" "a") .mandatory),
  .container (.rule (exC "B" "b") (.specific (.range ⟨0, some 0⟩)))]] [], []⟩, fun _ => []⟩

/-- C40, the limit of the maximum: with a maximum of 0 one repetition is found all the same; this part is not valid then, and not part of the text. -/
theorem C40_zero_maximum : ∃ t st', toToken exZero 30 (lit "abc") exSt = some (.ok t, st') ∧ t.isValid = true ∧ t.discoveries = lit "a" ∧
    ∃ r ∈ t.reps, r.card.delimiter.2 = some 0 ∧ r.amount = 1 ∧ r.valid = false := by
  obtain ⟨t, st', h, hv⟩ := of_shows (f := fun t => (t.isValid, t.discoveries, t.reps.any (fun r => r.card.delimiter.2 == some 0 && r.amount == 1 && !r.valid)))
    (x := toToken exZero 30 (lit "abc") exSt) (v := (true, lit "a", true)) (by decide +kernel)
  simp at hv
  obtain ⟨h1, h2, r, h3, h4⟩ := hv
  exact ⟨t, st', h, h1, h2, r, h3, h4.1.1, h4.1.2, h4.2⟩

/-! ## The best line -/

/-- C42: the lines of an element are tried one after the other on the same script, and the first of the longest valid
lines is taken (`BestSpec`). Lines which match without consuming anything are never taken; when no line is valid, the last
of the rejected lines is reported (not the one which came furthest). -/
theorem C42_best_line (env : Env) (fuel : Nat) (lines : List Line) (deps : List Element) (script : Str) (chans : Bool)
    (s s' : St) (r : Option LineMatch) (h : bestLineToMatches env (fuel + 1) lines deps script chans s = some (.ok r, s')) :
    ∃ ms, LineRuns env fuel deps script chans lines s ms s' ∧ BestSpec ms r := by
  simp only [bestLineToMatches] at h
  obtain ⟨b, s1, hb, h⟩ := M.bind_ok.mp h
  simp at h
  obtain ⟨rfl, rfl⟩ := h
  obtain ⟨ms, h1, h2⟩ := bestLoop_inv lines [] ⟨0, none, none⟩ s b s1
    ⟨by simp [GoodLine], by simp, by simp, by simp, by simp [BadLine]⟩ hb
  exact ⟨ms, h1, by simpa using h2.result⟩

/-- C42: the choice is determined by the results of the lines. -/
theorem C42_unique (ms : List (Option (List BlockMatch))) (r r' : Option LineMatch) (h : BestSpec ms r)
    (h' : BestSpec ms r') : r = r' := BestSpec_unique h h'

/-- Three lines on "ab": the second valid line is longer and wins; on "x" the last rejected line is reported. -/
example : let lines := [mandatoryLine [exC "A" "a"], mandatoryLine [exC "A" "a", exC "B" "b"], mandatoryLine [exC "C" "c"]]
    (∃ o st', bestLineToMatches exEnv 20 lines [] (lit "ab") false exSt = some (.ok o, st') ∧
      o.map (fun l => (l.index, l.isValid)) = some (1, true)) ∧
    (∃ o st', bestLineToMatches exEnv 20 lines [] (lit "x") false exSt = some (.ok o, st') ∧
      o.map (fun l => (l.index, l.isValid)) = some (2, false)) :=
  ⟨of_shows (by decide +kernel), of_shows (by decide +kernel)⟩

/-! ## The language -/

/-- C55: soundness with respect to the usual meaning of the grammar. For grammars without `not` parts and recursion, in
whose lines everything behind an optional part is optional, the text of a valid token is a word of the root element, with
texts of the channels between the parts. (The length of a Go string is below 2^63.) -/
theorem C55_language_sound (env : Env) (chans : List Path) (hch : ∀ k, ∀ p ∈ env.channels k, p ∈ chans)
    (hcp : ∀ ch ∈ chans, Plain ch.element) (hca : ∀ ch ∈ chans, AllLines OptionalTail ch.element)
    (hp : Plain env.root.element) (ha : AllLines OptionalTail env.root.element) (fuel : Nat) (script : Str)
    (hlen : script.length < 2 ^ 63) (st st' : St)
    (t : Token) (h : toToken env fuel script st = some (.ok t, st')) (hv : t.isValid = true) :
    InElement chans env.root.deps env.root.element t.discoveries := by
  obtain ⟨h1, _, rest, h2⟩ := C39_prefix env chans hch fuel script st st' t h
  refine token_lang hcp hca t h1 hv ?_ hp ha
  have := congrArg List.length h2
  simp at this
  omega

/-- C55 (violation): at the end of the text an optional part ends the line, whatever stands behind it. A line of mandatory
constants, an optional part and a tail accepts the constants alone, although the tail contains a mandatory constant. -/
theorem C55_mandatory_tail_ignored (env : Env) (hch : ∀ k, env.channels k = []) (name : Str) (hname : name ≠ [])
    (rs : List Rule) (cs : List Str) (hrs : rs ≠ [])
    (hcs : List.Forall₂ (fun r c => r.content = .constant c ∧ c ≠ []) rs cs)
    (opt : PContainer) (k : Card) (hopt : opt.cardinality = .ok k) (hk : k.isValid 0 = true) (tail : Line)
    (hroot : env.root.element = .mk name [mandatoryLine rs ++ .container opt :: tail] [])
    (r : Rule) (c : Str) (hr : r.content = .constant c) (hc : c ≠ []) (hmem : .container (.rule r .mandatory) ∈ tail)
    (st : St) :
    (∃ t st', toToken env 7 cs.flatten st = some (.ok t, st') ∧ t.isValid = true ∧ t.discoveries = cs.flatten) ∧
    ¬ InElement [] env.root.deps env.root.element cs.flatten := by
  constructor
  · obtain ⟨l, st', h1, h2, h3⟩ := line_early hch 0 env.root.deps hopt hk tail rs cs hcs true true []
      { st with recursive := fun _ => none } (by simp [blocksValid]) (fun h => absurd h hrs)
    obtain ⟨x, hx, hsp⟩ := bestLine_of_runs (fuel := 4) (ls := [mandatoryLine rs ++ .container opt :: tail])
      (LineRuns.cons (by simpa only [lineToMatches] using h1) (.nil _))
    have hne : cs.flatten ≠ [] := constants_ne hrs hcs
    simp only [blocksDiscoveries, List.nil_append] at h3
    have hspec : BestSpec [some l] (some (.mk 0 l)) := by
      refine .good ⟨rfl, h2, by rw [h3]; exact hne⟩ ?_ ?_
      · rintro j l' ⟨h, _⟩
        match j with
        | 0 => simp at h; subst h; rfl
        | j + 1 => simp at h
      · intro j l' _ h; omega
    rw [BestSpec_unique hsp hspec] at hx
    refine ⟨.mk name (some (.mk (.mk 0 l) none)), st', ?_, ?_, ?_⟩
    · unfold toToken
      rw [M.bind_some_ok (M.get_run _), M.bind_some_ok (M.set_run _ _), hroot]
      simp only [elementToToken, elementToTokenContent, Element.must, Element.not, Element.name, hname, if_false]
      rw [M.bind_some_ok (a := some (.mk (.mk 0 l) none)) (s1 := st')]
      · rfl
      · rw [M.bind_some_ok hx]; rfl
    · simp [Token.isValid, TokenContent.isValid, LineMatch.isValid, h2]
    · simp [Token.discoveries, TokenContent.discoveries, LineMatch.discoveries, h2, h3]
  · intro h
    rw [hroot] at h
    cases h with
    | mk hl h =>
      simp only [Element.must, List.mem_singleton] at hl
      subst hl
      obtain ⟨v, hv, hi⟩ := InLine_mandatory rs cs _ _ hcs h
      have := InLine_contains hr _ _ hi (List.mem_cons_of_mem _ hmem)
      have h1 := this.length_le
      have h2 := List.length_pos_iff.mpr hc
      have h3 := congrArg List.length hv
      simp at h3
      simp [h3] at h1
      exact hc h1

/-- `A B? C` accepts "a". -/
example : ∃ env : Env, (∀ k, env.channels k = []) ∧ env.root.element = .mk (lit "root")
      [mandatoryLine [exC "A" "a"] ++ .container (.rule (exC "B" "b") .optional) ::
        [.container (.rule (exC "C" "c") .mandatory)]] [] ∧
    List.Forall₂ (fun r c => r.content = .constant c ∧ c ≠ []) [exC "A" "a"] [lit "a"] ∧
    PContainer.cardinality (.rule (exC "B" "b") .optional) = .ok .optional ∧ Card.optional.isValid 0 = true :=
  ⟨⟨⟨_, []⟩, fun _ => []⟩, fun _ => rfl, rfl, .cons ⟨rfl, by decide⟩ .nil, rfl, by decide⟩

/-! ## Alternatives of constants: what is accepted -/

/-- C58: an element whose lines are sequences of mandatory constants is matched by a script exactly when the script begins
with the concatenation of one of the lines; the longest such line is recognised. Whatever follows it in the script is
ignored: there is no check that the script is used up. -/
theorem C58_constant_alternatives (env : Env) (hch : ∀ k, env.channels k = []) (name : Str) (hname : name ≠ [])
    (alts : List (List Rule)) (css : List (List Str))
    (h : List.Forall₂ (fun rs cs => rs ≠ [] ∧ List.Forall₂ (fun r c => r.content = .constant c ∧ c ≠ []) rs cs) alts css)
    (hroot : env.root.element = .mk name (alts.map mandatoryLine) []) (script : Str) (st : St) :
    ∃ t st', toToken env 7 script st = some (.ok t, st') ∧
      (t.isValid = true ↔ ∃ cs ∈ css, cs.flatten <+: script) ∧
      (t.isValid = true → ∃ cs ∈ css, t.discoveries = cs.flatten ∧
        ∀ cs' ∈ css, cs'.flatten <+: script → cs'.flatten.length ≤ cs.flatten.length) := by
  obtain ⟨ms, st', h1, h2⟩ := LineRuns_mandatory hch 0 env.root.deps script true alts css h
    { st with recursive := fun _ => none }
  obtain ⟨x, hx, hsp⟩ := bestLine_of_runs h1
  have hidx : ∀ {i : Nat} {l}, ms[i]? = some (some l) → ∃ cs : List Str, css[i]? = some cs ∧ (blocksValid l = true ↔ cs.flatten <+: script) ∧
      (blocksValid l = true → blocksDiscoveries l = cs.flatten) := by
    intro i l hi
    obtain ⟨hl, he⟩ := List.getElem?_eq_some_iff.mp hi
    have hl' : i < css.length := by rw [← h2.length_eq]; exact hl
    obtain ⟨l', e1, e2, e3⟩ := h2.get hl hl'
    simp only [List.get_eq_getElem] at e1 e2 e3
    rw [he] at e1; simp at e1; subst e1
    exact ⟨css[i], by simp [hl'], e2, e3⟩
  have hidx' : ∀ {cs : List Str}, cs ∈ css → ∃ (i : Nat) (l : _), ms[i]? = some (some l) ∧ (blocksValid l = true ↔ cs.flatten <+: script) ∧
      (blocksValid l = true → blocksDiscoveries l = cs.flatten) := by
    intro cs hcs
    obtain ⟨i, hl, rfl⟩ := List.mem_iff_getElem.mp hcs
    have hl' : i < ms.length := by rw [h2.length_eq]; exact hl
    obtain ⟨l', e1, e2, e3⟩ := h2.get hl' hl
    simp only [List.get_eq_getElem] at e1 e2 e3
    exact ⟨i, l', by rw [← e1]; simp [hl'], e2, e3⟩
  have hne : ∀ cs ∈ css, cs.flatten ≠ [] := by
    intro cs hcs
    obtain ⟨i, hl, rfl⟩ := List.mem_iff_getElem.mp hcs
    have hl' : i < alts.length := by rw [h.length_eq]; exact hl
    obtain ⟨e1, e2⟩ := h.get hl' hl
    simp only [List.get_eq_getElem] at e1 e2
    exact constants_ne e1 e2
  refine ⟨.mk name (x.map (fun l => .mk l none)), st', ?_, ?_⟩
  · unfold toToken
    rw [M.bind_some_ok (M.get_run _), M.bind_some_ok (M.set_run _ _), hroot]
    simp only [elementToToken, elementToTokenContent, Element.must, Element.not, Element.name, hname, if_false]
    rw [M.bind_some_ok (a := x.map (fun l => .mk l none)) (s1 := st')]
    · rfl
    · rw [M.bind_some_ok hx]; cases x <;> rfl
  · cases hsp with
    | @good i l hg hb _ =>
      obtain ⟨hg1, hg2, hg3⟩ := hg
      obtain ⟨cs, hcs, e1, e2⟩ := hidx hg1
      have hmem : cs ∈ css := List.mem_of_getElem? hcs
      refine ⟨?_, ?_⟩
      · simp only [Option.map_some, Token.isValid, TokenContent.isValid, LineMatch.isValid, hg2, true_iff]
        exact ⟨cs, hmem, e1.mp hg2⟩
      · intro _
        refine ⟨cs, hmem, ?_, ?_⟩
        · simp [Token.discoveries, TokenContent.discoveries, LineMatch.discoveries, hg2, e2 hg2]
        · intro cs' hcs' hp
          obtain ⟨j, l', hj, f1, f2⟩ := hidx' hcs'
          have hv := f1.mpr hp
          have := hb j l' ⟨hj, hv, by rw [f2 hv]; exact hne cs' hcs'⟩
          rwa [f2 hv, e2 hg2] at this
    | @bad i l hn hb _ =>
      have hno : ¬ ∃ cs ∈ css, cs.flatten <+: script := by
        rintro ⟨cs, hcs, hp⟩
        obtain ⟨j, l', hj, f1, f2⟩ := hidx' hcs
        have hv := f1.mpr hp
        exact hn j l' ⟨hj, hv, by rw [f2 hv]; exact hne cs hcs⟩
      have hb2 := hb.2
      simp [Token.isValid, TokenContent.isValid, LineMatch.isValid, hb2]
      simpa using hno
    | nothing hn _ =>
      have hno : ¬ ∃ cs ∈ css, cs.flatten <+: script := by
        rintro ⟨cs, hcs, hp⟩
        obtain ⟨j, l', hj, f1, f2⟩ := hidx' hcs
        have hv := f1.mpr hp
        exact hn j l' ⟨hj, hv, by rw [f2 hv]; exact hne cs hcs⟩
      simp [Token.isValid]
      simpa using hno

/-- The alternatives "a" and "a" "b" meet the hypotheses, and "abc" is accepted with the text "ab". -/
example : List.Forall₂ (fun rs cs => rs ≠ [] ∧ List.Forall₂ (fun r c => r.content = .constant c ∧ c ≠ []) rs cs)
    [[exC "A" "a"], [exC "A" "a", exC "B" "b"]] [[lit "a"], [lit "a", lit "b"]] :=
  .cons ⟨by simp, .cons ⟨rfl, by decide⟩ .nil⟩ (.cons ⟨by simp, .cons ⟨rfl, by decide⟩ (.cons ⟨rfl, by decide⟩ .nil)⟩ .nil)

example : ∃ t st', toToken ⟨⟨.mk (lit "root") ([[exC "A" "a"], [exC "A" "a", exC "B" "b"]].map mandatoryLine) [], []⟩,
    fun _ => []⟩ 7 (lit "abc") exSt = some (.ok t, st') ∧ (t.isValid, t.discoveries) = (true, lit "ab") :=
  of_shows (by decide +kernel)

/-! ## Divergence and lost matches -/

/-- C41 (violation): the matcher does not terminate. A token with a must part and a not part is considered valid when its
not part fails, even if its must part failed and nothing was consumed. When it is repeated without maximum the matcher
tries it again and again on the same text: `ToToken` returns for no number of steps. The family: the first line of the root
begins with such a token, and the (not empty) script begins neither with the constant of the must part nor with the
constant of the not part. -/
theorem C41_not_diverges (env : Env) (hch : ∀ k, env.channels k = []) (root name : Str) (hname : name ≠ []) (a b : Rule)
    (ca cb : Str) (ha : a.content = .constant ca) (ha0 : ca ≠ []) (hb : b.content = .constant cb) (hb0 : cb ≠ [])
    (is is' is'' : Line) (ls not : List Line) (specs : List Spec) (card : Card) (hcard : card.delimiter.2 = none)
    (hroot : env.root.element = .mk root ((.container (.token
      (.mk name [.container (.rule a .mandatory) :: is] [.container (.rule b .mandatory) :: is']) specs card) :: is'') :: ls)
      not)
    (script : Str) (hs : script ≠ []) (has : ¬ ca <+: script) (hbs : ¬ cb <+: script) (fuel : Nat) (st : St) :
    toToken env fuel script st = none := by
  unfold toToken
  rw [M.bind_some_ok (M.get_run _), M.bind_some_ok (M.set_run _ _), hroot]
  refine diverge_lift hch hs ?_ _ _ _ _ _ _ _
  intro n ch st
  match n with
  | 0 => simp [containerToMatch]
  | 1 => simp only [containerToMatch]; exact M.bind_none.mpr (.inl rfl)
  | n + 2 =>
    simp only [containerToMatch]
    refine M.bind_none.mpr (.inl ?_)
    simp only [tokenToTokenMatch]
    refine M.bind_none.mpr (.inl ?_)
    apply tokenLoop_diverges hcard
    intro st
    obtain ⟨t, c, st', h1, h2, h3, h4⟩ := elem_not hch ha ha0 hb hb0 n name hname env.root.deps is is' ch script has hbs st
    cases hx : elementToToken env n (.mk name [.container (.rule a .mandatory) :: is]
        [.container (.rule b .mandatory) :: is']) env.root.deps script ch st with
    | none => exact .inl rfl
    | some r =>
      have := (mono env n (n + 7) (by omega)).elem _ _ _ _ _ _ hx
      rw [h1] at this
      simp at this; subst this
      exact .inr ⟨t, c, st', rfl, h2, h3, h4⟩

/-- The hypotheses are met by the script "x" and the token with must part "a" and not part "b". -/
example : lit "x" ≠ [] ∧ ¬ lit "a" <+: lit "x" ∧ ¬ lit "b" <+: lit "x" ∧ Card.zeroMultiple.delimiter.2 = none ∧
    (exC "A" "a").content = .constant (lit "a") := by decide

/-- C57 (violation): a constant with an unbounded cardinality at the front of a line is lost when the constant occurs again
further behind in the script: the matcher counts this occurrence, although it is not adjacent, and then rejects the line.
The script begins with `k + 1` copies of the constant, so the copies are in the language of the container. -/
theorem C57_repetition_lost (env : Env) (hch : ∀ k, env.channels k = []) (name : Str) (hname : name ≠ []) (r : Rule)
    (c : Str) (hc : r.content = .constant c) (h0 : c ≠ []) (card : Card) (hcard : card.delimiter.2 = none) (is : Line)
    (hroot : env.root.element = .mk name [.container (.rule r card) :: is] []) (k : Nat) (rest : Str) (h1 : ¬ c <+: rest)
    (h2 : c <:+: rest) (st : St) (hst : st.canPrefix = false) :
    (∃ t st', toToken env (k + 8) (copies c (k + 1) ++ rest) st = some (.ok t, st') ∧ t.isValid = false) ∧
    (SpecAllows card (k + 1) → InContainer [] env.root.deps (.rule r card) (copies c (k + 1))) := by
  constructor
  · obtain ⟨m, st', k1, k2⟩ := line_lost hch hc h0 hcard h1 h2 0 k env.root.deps is true { st with recursive := fun _ => none }
      hst
    obtain ⟨x, hx, hsp⟩ := bestLine_of_runs (LineRuns.cons k1 (.nil _))
    rw [show (0 + k + 5 + 1) = k + 6 by omega] at hx
    refine ⟨.mk name (x.map (fun l => .mk l none)), st', ?_, ?_⟩
    · unfold toToken
      rw [M.bind_some_ok (M.get_run _), M.bind_some_ok (M.set_run _ _), hroot]
      simp only [elementToToken, elementToTokenContent, Element.must, Element.not, Element.name, hname, if_false]
      rw [M.bind_some_ok (a := x.map (fun l => .mk l none)) (s1 := st')]
      · rfl
      · rw [M.bind_some_ok hx]; cases x <;> rfl
    · cases hsp with
      | @good i l hg _ _ =>
        exfalso
        obtain ⟨hg1, hg2, _⟩ := hg
        match i with
        | 0 =>
          simp at hg1
          rw [k2 l hg1] at hg2
          simp at hg2
        | i + 1 => simp at hg1
      | @bad i l _ hb _ =>
        have := hb.2
        simp [Token.isValid, TokenContent.isValid, LineMatch.isValid, this]
      | nothing _ _ => simp [Token.isValid]
  · intro ha
    have := InContainer.rule (chans := []) (deps := env.root.deps) (r := r) (card := card) (ws := List.replicate (k + 1) c)
      (by intro w hw; rw [List.eq_of_mem_replicate hw]; simp [RuleText, hc, h0]) (by simpa using ha)
    exact this

/-- The hypotheses are met by "aaxa" (two copies and the rest "xa"); the same script without the last "a" is accepted. -/
example : copies (lit "a") 2 ++ lit "xa" = lit "aaxa" ∧ ¬ lit "a" <+: lit "xa" ∧ lit "a" <:+: lit "xa" ∧
    SpecAllows .nonZeroMultiple 2 := ⟨by decide, by decide, ⟨lit "x", [], by decide⟩, by simp [SpecAllows]⟩

example : let env : Env := ⟨⟨.mk (lit "root") [[.container (.rule (exC "A" "a") .nonZeroMultiple)]] [], []⟩, fun _ => []⟩
    (∃ t st', toToken env 10 (lit "aaxa") exSt = some (.ok t, st') ∧ t.isValid = false) ∧
    (∃ t st', toToken env 10 (lit "aax") exSt = some (.ok t, st') ∧ (t.isValid, t.discoveries) = (true, lit "aa")) :=
  ⟨of_shows (by decide +kernel), of_shows (by decide +kernel)⟩

/-! ## Termination -/

/-- C56: `ToToken` ends on every script, in every state and for every order of the channels, when the grammar has no
recursive tokens and no groups of lines, the patterns of its rules are well formed, tokens with a `not` part are repeated at
most a fixed number of times (`Ending true`), the channels are of the same kind, without `not` part and without channel
switches (`Ending false`), and the chains of first containers followed by name end (`FirstEnds`). -/
theorem C56_terminates (env : Env) (hroot : Ending true env.root.element) (hF : ∀ name, FirstEnds env.root.deps name)
    (hch : ∀ k, ∀ p ∈ env.channels k, p.element.not = [] ∧ Ending false p.element ∧ ∀ name, FirstEnds p.deps name)
    (script : Str) (st : St) : ∃ fuel r, toToken env fuel script st = some r := by
  have hCE : ChannelsEnd env := by
    intro k p hp
    obtain ⟨h1, h2, h3⟩ := hch k p hp
    exact ⟨h1, fun s st => ends_elem h2 h3 (.inr rfl) s false st (.inr rfl)⟩
  obtain ⟨n, r, h⟩ := ends_elem hroot hF (.inl hCE) script true { st with recursive := fun _ => none } (.inl hCE)
  exact ⟨n, r, h⟩

/-- The small grammar above meets the hypotheses, with its channel. -/
example : Ending true exEnv.root.element ∧ (∀ name, FirstEnds exEnv.root.deps name) ∧
    (∀ k, ∀ p ∈ exEnv.channels k, p.element.not = [] ∧ Ending false p.element ∧ ∀ name, FirstEnds p.deps name) := by
  have hA : ∀ n s, RuleWF (exC n s) := fun _ _ => trivial
  have hfetch : ∀ name e, fetch exEnv.root.deps name = .ok e → e = exItem ∨ e = exList := by
    intro name e h
    unfold fetch at h
    split at h
    · rename_i e' he
      simp at h; subst h
      have := List.mem_of_find?_eq_some he
      simpa [exEnv, or_comm] using this
    · simp at h
  have hitem : FirstEnds exEnv.root.deps (lit "item") := by
    refine .mk ?_ ?_
    · intro e l ls e' sp k he hm hf
      have : fetch exEnv.root.deps (lit "item") = .ok exItem := by rfl
      rw [he] at this; simp at this; subst this
      simp [exItem, Element.must] at hm
      obtain ⟨rfl, _⟩ := hm
      simp [firstContainer] at hf
    · intro e l ls n sp k he hm hf
      have : fetch exEnv.root.deps (lit "item") = .ok exItem := by rfl
      rw [he] at this; simp at this; subst this
      simp [exItem, Element.must] at hm
      obtain ⟨rfl, _⟩ := hm
      simp [firstContainer] at hf
  refine ⟨?_, ?_, ?_⟩
  · refine .mk (by simp) ?_
    simp only [List.append_nil, List.mem_singleton, forall_eq, Instruction.container.injEq]
    refine .token (.mk (by simp) ?_) (.inl rfl)
    simp only [List.append_nil, List.mem_singleton, forall_eq, List.mem_cons, Instruction.container.injEq, List.not_mem_nil,
      or_false, forall_eq_or_imp]
    exact ⟨.rule (hA _ _), .rule (hA _ _)⟩
  · intro name
    refine .mk ?_ ?_
    · intro e l ls e' sp k he hm hf
      rcases hfetch name e he with rfl | rfl
      · simp [exItem, Element.must] at hm
        obtain ⟨rfl, _⟩ := hm
        simp [firstContainer] at hf
      · simp [exList, Element.must] at hm
        obtain ⟨rfl, _⟩ := hm
        simp [firstContainer] at hf
        rw [← hf.1]
        exact hitem
    · intro e l ls n sp k he hm hf
      rcases hfetch name e he with rfl | rfl
      · simp [exItem, Element.must] at hm
        obtain ⟨rfl, _⟩ := hm
        simp [firstContainer] at hf
      · simp [exList, Element.must] at hm
        obtain ⟨rfl, _⟩ := hm
        simp [firstContainer] at hf
  · intro k p hp
    simp [exEnv] at hp
    subst hp
    refine ⟨rfl, ?_, ?_⟩
    · refine .mk (by simp) ?_
      simp only [List.append_nil, List.mem_singleton, forall_eq, Instruction.container.injEq]
      exact .rule (hA _ _)
    · intro name
      refine .mk ?_ ?_
      all_goals
        intro e l ls e' sp k he hm hf
        unfold fetch at he
        split at he
        · rename_i e' he'
          simp at he; subst he
          have := List.mem_of_find?_eq_some he'
          simp at this; subst this
          simp [exBlank, Element.must] at hm
          obtain ⟨rfl, _⟩ := hm
          simp [firstContainer] at hf
        · simp at he

end Verif.Lexer
