import Verif.Lemmas.GrammarLeft
import Verif.Lemmas.GrammarWord
import Verif.Props.LexerMore

/-!
# C69: recursive tokens

The grammars are those of `Spec/GrammarRec.lean`, compiled by the modelled adapter (`toPath`) and run by the modelled matcher
(`toToken`), without channels. Their words are the words in the usual sense (`GWord`).
-/

namespace Verif.Lexer
open Verif.Patterns Verif.Cardinality

/-- Every text begins with a maximal number of copies. -/
theorem copies_split (c : Str) (h0 : c ≠ []) (s : Str) : ∃ k u, s = copies c k ++ u ∧ ¬ c <+: u ∧ k ≤ s.length := by
  induction hn : s.length using Nat.strong_induction_on generalizing s with
  | _ n ih =>
    have hp : 0 < c.length := List.length_pos_iff.mpr h0
    by_cases h : c <+: s
    · obtain ⟨r, rfl⟩ := h
      obtain ⟨k, u, rfl, h1, h2⟩ := ih r.length (by simp at hn; omega) r rfl
      refine ⟨k + 1, u, by simp [copies_succ], h1, ?_⟩
      simp only [List.length_append] at hn h2 ⊢
      omega
    · exact ⟨0, s, by simp [copies], h, Nat.zero_le _⟩

/-- C69: the right-recursive grammar `R := a R | b` (constants of which neither begins with the other) is recognised completely:
for every script the matcher ends with a token, which is valid exactly if the script begins with a word of the grammar, and then
the recognised text is this word. -/
theorem C69_right (name : Str) (hname : name ≠ []) (a b : Rule) (ca cb : Str) (ha : a.content = .constant ca)
    (hb : b.content = .constant cb) (ha0 : ca ≠ []) (hb0 : cb ≠ []) (hab : ¬ ca <+: cb) (hba : ¬ cb <+: ca) (set : TokenSet)
    (hset : tokensNow [rightRec name a b] = .ok set) (d : Nat) (env : Env)
    (henv : toPath { tokens := set } (d + 2) (rightRec name a b) = .ok env.root) (hch : ∀ k, env.channels k = [])
    (script : Str) (st : St) (fuel : Nat) (hfuel : 7 * script.length + 7 ≤ fuel) :
    ∃ t st', toToken env fuel script st = some (.ok t, st') ∧
      (t.isValid = true ↔ ∃ w, GWord [rightRec name a b] [] (.tok (rightRec name a b)) w ∧ w <+: script) ∧
      (t.isValid = true → GWord [rightRec name a b] [] (.tok (rightRec name a b)) t.discoveries ∧ t.discoveries <+: script) := by
  rw [compile_right name hname a b set hset] at henv
  have hroot : env.root = ⟨right0 name a b, [right0 name a b, right0 name a b]⟩ := by simpa using henv.symm
  obtain ⟨k, u, rfl, hu, hk⟩ := copies_split ca ha0 script
  obtain ⟨n, rfl⟩ : ∃ n, fuel = 7 * k + 7 + n := ⟨fuel - (7 * k + 7), by omega⟩
  have hf : fetch env.root.deps name = .ok (right0 name a b) := by rw [hroot]; simp [fetch, right0, Element.name]
  obtain ⟨t, st', h1, ⟨h2, h3⟩, _⟩ := right_runs hch hname ha hb ha0 hb0 hab hba hf hu k n (right0 name a b) true (.inl rfl)
    { st with recursive := fun _ => none } (by simp)
  refine ⟨t, st', ?_, ?_, ?_⟩
  · unfold toToken
    rw [M.bind_some_ok (M.get_run _), M.bind_some_ok (M.set_run _ _)]
    rw [show env.root.element = right0 name a b by rw [hroot]]
    exact h1
  · rw [h2]
    constructor
    · intro h
      exact ⟨_, (right_word ha hb ha0 hb0).mpr ⟨k, rfl⟩, (List.prefix_append_right_inj _).mpr h⟩
    · rintro ⟨w, hw, hp⟩
      obtain ⟨j, rfl⟩ := (right_word ha hb ha0 hb0).mp hw
      clear hk hfuel h1 h2 h3 hw
      induction k generalizing j with
      | zero =>
        cases j with
        | zero => simpa [copies] using hp
        | succ j =>
          rw [copies_succ] at hp
          exact absurd ((List.prefix_append ca _).trans (by simpa [copies] using hp)) hu
      | succ k ih =>
        cases j with
        | zero =>
          rw [copies_succ, List.append_assoc] at hp
          have hp' : cb <+: ca ++ (copies ca k ++ u) := by simpa [copies] using hp
          rcases List.prefix_or_prefix_of_prefix hp' (List.prefix_append ca _) with h | h
          · exact absurd h hba
          · exact absurd h hab
        | succ j =>
          rw [copies_succ, copies_succ, List.append_assoc, List.append_assoc, List.prefix_append_right_inj] at hp
          exact ih j hp
  · intro hv
    rw [(h3 hv).1]
    exact ⟨(right_word ha hb ha0 hb0).mpr ⟨k, rfl⟩, (List.prefix_append_right_inj _).mpr (h2.mp hv)⟩

/-- C69 (violation): the left-recursive grammar `R := R a | b` has the words `b a … a`, but of a script `b`, `n` times `a`
(without a further `a`) the matcher recognises `b` for `n = 2`, and never more than three `a`. -/
theorem C69_left_cut (name : Str) (hname : name ≠ []) (a b : Rule) (ca cb : Str) (ha : a.content = .constant ca)
    (hb : b.content = .constant cb) (ha0 : ca ≠ []) (hb0 : cb ≠ []) (set : TokenSet)
    (hset : tokensNow [leftRec name a b] = .ok set) (d : Nat) (env : Env)
    (henv : toPath { tokens := set } (d + 2) (leftRec name a b) = .ok env.root) (hch : ∀ k, env.channels k = [])
    (n : Nat) (rest : Str) (hrest : ¬ ca <+: rest) (st : St) (fuel : Nat) (hfuel : 29 ≤ fuel) :
    GWord [leftRec name a b] [] (.tok (leftRec name a b)) (cb ++ (List.replicate n ca).flatten) ∧
    ∃ t st', toToken env fuel (cb ++ (List.replicate n ca).flatten ++ rest) st = some (.ok t, st') ∧ t.isValid = true ∧
      t.discoveries = cb ++ (List.replicate (if n = 1 then 1 else if 3 ≤ n then 3 else 0) ca).flatten := by
  refine ⟨(left_word ha hb ha0 hb0).mpr ⟨n, rfl⟩, ?_⟩
  rw [compile_left name hname a b set hset] at henv
  have hroot : env.root = ⟨left0 name a b, [left0 name a b, left0 name a b]⟩ := by simpa using henv.symm
  obtain ⟨m, rfl⟩ : ∃ m, fuel = m + 29 := ⟨fuel - 29, by omega⟩
  have hf : fetch env.root.deps name = .ok (left0 name a b) := by rw [hroot]; simp [fetch, left0, Element.name]
  obtain ⟨t, st', h1, ⟨h2, h3⟩, _⟩ := left_runs hch hname ha hb ha0 hb0 hf (s := cb ++ (copies ca n ++ rest)) (n := n)
    (by simp [hb0]) hrest (fun _ => rfl) m true { st with recursive := fun _ => none } rfl
  have hv : t.isValid = true := h2.mpr (List.prefix_append _ _)
  refine ⟨t, st', ?_, hv, ?_⟩
  · unfold toToken
    rw [M.bind_some_ok (M.get_run _), M.bind_some_ok (M.set_run _ _)]
    rw [show env.root.element = left0 name a b by rw [hroot]]
    simpa [copies] using h1
  · rw [(h3 hv).1]
    show cb ++ copies ca _ = cb ++ copies ca _
    have : leftStep n (leftStep n (leftStep n 0)) = if n = 1 then 1 else if 3 ≤ n then 3 else 0 := by
      match n with
      | 0 => decide
      | 1 => decide
      | 2 => decide
      | n + 3 => simp [leftStep]
    rw [this]

/-- C69 (violation): the same grammar does not end on the empty script (in the code: the stack overflows), since the first rule of
the token is looked for behind the token itself. -/
theorem C69_left_empty (name : Str) (hname : name ≠ []) (a b : Rule) (set : TokenSet)
    (hset : tokensNow [leftRec name a b] = .ok set) (d : Nat) (env : Env)
    (henv : toPath { tokens := set } (d + 2) (leftRec name a b) = .ok env.root) (st : St) (fuel : Nat) :
    toToken env fuel [] st = none := by
  rw [compile_left name hname a b set hset] at henv
  have hroot : env.root = ⟨left0 name a b, [left0 name a b, left0 name a b]⟩ := by simpa using henv.symm
  have hf : fetch env.root.deps name = .ok (left0 name a b) := by rw [hroot]; simp [fetch, left0, Element.name]
  unfold toToken
  rw [M.bind_some_ok (M.get_run _), M.bind_some_ok (M.set_run _ _)]
  rw [show env.root.element = left0 name a b by rw [hroot]]
  refine diverge_end (c := .token (left1 name a b) [] .mandatory) rfl ?_ ..
  intro n st
  simp only [buildNextElement]
  refine M.bind_none.mpr (.inl ?_)
  exact fetchFirstRule_left (e' := left1 name a b) rfl rfl hf n st

/-- C69 (violation): with two left-recursive alternatives, `R := R a | R c | b`, the matcher ends for no script (the guard against
endless recursion is opened again by the first alternative), although `b` is a word. -/
theorem C69_left_twice_diverges (name : Str) (hname : name ≠ []) (a b c : Rule) (ca cb cc : Str) (ha : a.content = .constant ca)
    (hb : b.content = .constant cb) (hc : c.content = .constant cc) (ha0 : ca ≠ []) (hb0 : cb ≠ []) (hc0 : cc ≠ []) (set : TokenSet)
    (hset : tokensNow [leftRec2 name a c b] = .ok set) (d : Nat) (env : Env)
    (henv : toPath { tokens := set } (d + 2) (leftRec2 name a c b) = .ok env.root) (hch : ∀ k, env.channels k = []) :
    GWord [leftRec2 name a c b] [] (.tok (leftRec2 name a c b)) cb ∧
    ∀ (script : Str) (st : St) (fuel : Nat), toToken env fuel script st = none := by
  refine ⟨two_word ha hb ha0 hb0 hc hc0, ?_⟩
  rw [compile_two name hname a c b set hset] at henv
  have hroot : env.root = ⟨two0 name a c b, [two0 name a c b, two0 name a c b]⟩ := by simpa using henv.symm
  have hf : fetch env.root.deps name = .ok (two0 name a c b) := by rw [hroot]; simp [fetch, two0, Element.name]
  intro script st fuel
  unfold toToken
  rw [M.bind_some_ok (M.get_run _), M.bind_some_ok (M.set_run _ _)]
  rw [show env.root.element = two0 name a c b by rw [hroot]]
  by_cases hs : script = []
  · subst hs
    refine diverge_end (c := .token (two1 name a c b) [] .mandatory) rfl ?_ ..
    intro n st
    simp only [buildNextElement]
    refine M.bind_none.mpr (.inl ?_)
    exact fetchFirstRule_left (e' := two1 name a c b) rfl rfl hf n st
  · exact two_runs hch hf hs fuel true _

/-- C69 (violation): the guard accepts texts which are no words. In `S := R`, `R := a R c | a R d | b` the text `a` is no word, but
of a script `a b d …` it is recognised: the second alternative is cut off behind `a`, since the guard remembers the place from the
first alternative. -/
theorem C69_guard_unsound (start name : Str) (hstart : start ≠ []) (hname : name ≠ []) (hne : start ≠ name) (a b c d : Rule)
    (ca cb cc cd rest : Str) (ha : a.content = .constant ca) (hb : b.content = .constant cb) (hc : c.content = .constant cc)
    (hd : d.content = .constant cd) (ha0 : ca ≠ []) (hb0 : cb ≠ []) (hc0 : cc ≠ []) (hd0 : cd ≠ [])
    (h1 : ¬ ca <+: cb ++ cd ++ rest) (h2 : ¬ cb <+: ca ++ cb ++ cd ++ rest) (h3 : ¬ cc <+: cd ++ rest) (set : TokenSet)
    (hset : tokensNow [startAt start name, nestedRec name a b c d] = .ok set) (n : Nat) (env : Env)
    (henv : toPath { tokens := set } (n + 2) (startAt start name) = .ok env.root) (hch : ∀ k, env.channels k = [])
    (st : St) (fuel : Nat) (hfuel : 25 ≤ fuel) :
    ¬ GWord [startAt start name, nestedRec name a b c d] [] (.tok (startAt start name)) ca ∧
    ∃ t st', toToken env fuel (ca ++ cb ++ cd ++ rest) st = some (.ok t, st') ∧ t.isValid = true ∧ t.discoveries = ca := by
  constructor
  · intro h
    rcases nested_word ha hb ha0 hb0 hne hc hc0 hd hd0 h with rfl | h
    · exact h2 ⟨ca ++ cd ++ rest, by simp⟩
    · exact absurd h (lt_irrefl _)
  · rw [compile_nested start name hstart hname hne a b c d set hset] at henv
    have hroot : env.root = ⟨nestedStart start name a b c d,
      [nestedStart start name a b c d, nested0 name a b c d, nestedStart start name a b c d]⟩ := by simpa using henv.symm
    obtain ⟨m, rfl⟩ : ∃ m, fuel = m + 25 := ⟨fuel - 25, by omega⟩
    have hf : fetch env.root.deps name = .ok (nested0 name a b c d) := by
      rw [hroot]; simp [fetch, nestedStart, nested0, Element.name, hne]
    obtain ⟨t, st', k1, ⟨k2, k3⟩, _⟩ := nested_runs hch hstart hname ha hb hc ha0 hb0 hc0 hf (by simpa using h1)
      (by simpa using h2) h3 m true { st with recursive := fun _ => none } rfl
    have hv : t.isValid = true := k2.mpr trivial
    refine ⟨t, st', ?_, hv, (k3 hv).1⟩
    unfold toToken
    rw [M.bind_some_ok (M.get_run _), M.bind_some_ok (M.set_run _ _)]
    rw [show env.root.element = nestedStart start name a b c d by rw [hroot]]
    simpa using k1

/-- The hypotheses are met: the grammars are built and compiled. -/
example : (∃ set, ∃ env : Env, tokensNow [rightRec (lit "R") (exC "A" "a") (exC "B" "b")] = .ok set ∧
      toPath { tokens := set } (0 + 2) (rightRec (lit "R") (exC "A" "a") (exC "B" "b")) = .ok env.root ∧ ∀ k, env.channels k = []) ∧
    (∃ set, ∃ env : Env, tokensNow [leftRec (lit "R") (exC "A" "a") (exC "B" "b")] = .ok set ∧
      toPath { tokens := set } (0 + 2) (leftRec (lit "R") (exC "A" "a") (exC "B" "b")) = .ok env.root ∧ ∀ k, env.channels k = []) ∧
    (∃ set, ∃ env : Env, tokensNow [leftRec2 (lit "R") (exC "A" "a") (exC "C" "c") (exC "B" "b")] = .ok set ∧
      toPath { tokens := set } (0 + 2) (leftRec2 (lit "R") (exC "A" "a") (exC "C" "c") (exC "B" "b")) = .ok env.root ∧
      ∀ k, env.channels k = []) ∧
    (∃ set, ∃ env : Env, tokensNow [startAt (lit "S") (lit "R"),
        nestedRec (lit "R") (exC "A" "a") (exC "B" "b") (exC "C" "c") (exC "D" "d")] = .ok set ∧
      toPath { tokens := set } (0 + 2) (startAt (lit "S") (lit "R")) = .ok env.root ∧ ∀ k, env.channels k = []) ∧
    ¬ lit "a" <+: lit "b" ∧ ¬ lit "b" <+: lit "a" ∧ ¬ lit "a" <+: lit "bd" ∧ ¬ lit "b" <+: lit "abd" ∧ ¬ lit "c" <+: lit "d" := by
  have hset : ∀ ts : List GToken, (∃ set, tokensNow ts = .ok set) ↔ _ := fun ts => (C38_unique_iff ts).1
  refine ⟨?_, ?_, ?_, ?_, by decide, by decide, by decide, by decide, by decide⟩
  · obtain ⟨set, h⟩ := (hset [rightRec (lit "R") (exC "A" "a") (exC "B" "b")]).mpr (by simp)
    exact ⟨set, ⟨_, fun _ => []⟩, h, compile_right _ (by decide) _ _ _ h 0, fun _ => rfl⟩
  · obtain ⟨set, h⟩ := (hset [leftRec (lit "R") (exC "A" "a") (exC "B" "b")]).mpr (by simp)
    exact ⟨set, ⟨_, fun _ => []⟩, h, compile_left _ (by decide) _ _ _ h 0, fun _ => rfl⟩
  · obtain ⟨set, h⟩ := (hset [leftRec2 (lit "R") (exC "A" "a") (exC "C" "c") (exC "B" "b")]).mpr (by simp)
    exact ⟨set, ⟨_, fun _ => []⟩, h, compile_two _ (by decide) _ _ _ _ h 0, fun _ => rfl⟩
  · obtain ⟨set, h⟩ := (hset [startAt (lit "S") (lit "R"),
        nestedRec (lit "R") (exC "A" "a") (exC "B" "b") (exC "C" "c") (exC "D" "d")]).mpr
      (by constructor
          · simp
          · simp [startAt, nestedRec]; decide)
    exact ⟨set, ⟨_, fun _ => []⟩, h, compile_nested _ _ (by decide) (by decide) (by decide) _ _ _ _ _ h 0, fun _ => rfl⟩

end Verif.Lexer
