import Verif.Lemmas.LexerOrder
import Verif.Lemmas.BaseCompiles
import Verif.Props.Grammar

/-!
# Property C94: the order of the channels
-/

namespace Verif.Lexer
open Verif.Patterns Verif.Cardinality

theorem ruleChannel_path {g : PathEnv} {d : Nat} {c : GToken} {r : Rule} (hc : RuleChannel c r) {q : Path} (h : toPath g d c = .ok q) :
    c.name ≠ [] ∧ q.element = ruleElement c.name r := by
  obtain ⟨h1, e, h2, h3, h4⟩ := hc
  simp only [toPath, Out.bind_eq_ok] at h
  obtain ⟨deps, _, ⟨el, ext⟩, h5, h6⟩ := h
  cases d with
  | zero => cases h5
  | succ d =>
    unfold GElement.times at h4
    simp [toElement, h2, h1, processLines, processLine, processInstructions, elementToContainer, h3, elementNow, h4] at h5
    by_cases hn : c.name = []
    · simp [hn] at h5
    · simp [hn] at h5
      obtain ⟨rfl, rfl⟩ := h5
      simp at h6
      subst h6
      exact ⟨hn, rfl⟩

/-- C94: if no two channels can begin at the same place, the order in which the matcher tries them (that of a Go map, chosen anew each time) is of
no consequence: the outcome for a script, a tree, a mistake, an error, a panic or a computation which does not end, is the same for all orders, and
whatever the adapter was called with before. -/
theorem C94_order (g : PathEnv) (d : Nat) (root : GToken) (cs : TokenSet) (hcs : ApartChannels cs.list) (p : Path) (ps : List Path)
    (hm : matcherNow g d root (some cs) = .ok (p, ps)) (order order' : Nat → List Path) (h : ∀ k, (order k).Perm ps)
    (h' : ∀ k, (order' k).Perm ps) (st st' : St) (hst : st.canPrefix = false) (hst' : st'.canPrefix = false) (fuel : Nat) (script : Str) :
    (toAST ⟨p, order⟩ false fuel script st).map Prod.fst = (toAST ⟨p, order'⟩ false fuel script st').map Prod.fst := by
  simp only [matcherNow, Out.bind_eq_ok] at hm
  obtain ⟨p', _, ps', hps, hx⟩ := hm
  simp at hx
  obtain ⟨rfl, rfl⟩ := hx
  have hpath := forall2_mem (channelPaths_each hps)
  refine toAST_same (env := ⟨p', order⟩) (env' := ⟨p', order'⟩) rfl (same_all2 (fun n _ k k' s hs => ?_) fuel) script hst hst'
  refine channels_same (ps := ps') ?_ ?_ (env := ⟨p', order⟩) (env' := ⟨p', order'⟩) h h' n k k' s hs
  · intro q hq
    obtain ⟨c, hc, hqc⟩ := hpath.2 q hq
    obtain ⟨r, hw, hr⟩ := hcs.1 c hc
    obtain ⟨h1, h2⟩ := ruleChannel_path hr hqc
    exact ⟨_, r, h1, hw, h2⟩
  · intro q hq q' hq' hne n1 n2 r1 r2 e1 e2
    obtain ⟨c, hc, hqc⟩ := hpath.2 q hq
    obtain ⟨c', hc', hqc'⟩ := hpath.2 q' hq'
    obtain ⟨r, hw, hr⟩ := hcs.1 c hc
    obtain ⟨r', hw', hr'⟩ := hcs.1 c' hc'
    obtain ⟨_, a2⟩ := ruleChannel_path hr hqc
    obtain ⟨_, b2⟩ := ruleChannel_path hr' hqc'
    rw [a2] at e1
    rw [b2] at e2
    simp [ruleElement] at e1 e2
    rw [← e1.2, ← e2.2]
    refine hcs.2 c hc c' hc' ?_ r r' hr hr'
    rintro rfl
    rw [hqc] at hqc'
    cases hqc'
    exact hne rfl

/-! The hypotheses are met by a grammar with two channels, `{` and `}`; a line which needs `ab` and then `c`. -/

def exOne (n : String) (s : String) : GToken := ⟨lit n, [[exGe (exGr n s)]], none, none⟩
def exOrderRoot : GToken := ⟨lit "root", [[exGe (exGr "rab" "ab"), exGe (exGr "rc" "c")]], none, none⟩
def exChans (l : List GToken) : TokenSet := (exGenv l).tokens

theorem constant_channel (n s : String) : RuleChannel (exOne n s) (exC n s) := ⟨rfl, _, rfl, rfl, rfl⟩

theorem exOrder_apart : ApartChannels (exChans [exOne "open" "{", exOne "close" "}"]).list := by
  have hl : (exChans [exOne "open" "{", exOne "close" "}"]).list = [exOne "open" "{", exOne "close" "}"] := rfl
  rw [hl]
  have hr : ∀ n s r, RuleChannel (exOne n s) r → r = exC n s := by
    rintro n s r ⟨_, e, h1, h2, _⟩
    simp [exOne, exGe] at h1
    subst h1
    simp [exGr] at h2
    exact h2.symm
  refine ⟨?_, ?_⟩
  · intro c hc
    simp only [List.mem_cons, List.not_mem_nil, or_false] at hc
    rcases hc with rfl | rfl <;> exact ⟨exC _ _, by simp [RuleWF, exC], constant_channel _ _⟩
  · intro c hc c' hc' hne r r' h1 h2 s w w' t1 t2 p1 p2
    simp only [List.mem_cons, List.not_mem_nil, or_false] at hc hc'
    rcases hc with rfl | rfl <;> rcases hc' with rfl | rfl <;> try exact hne rfl
    all_goals
      rw [hr _ _ _ h1] at t1
      rw [hr _ _ _ h2] at t2
      simp only [RuleText, exC] at t1 t2
      obtain ⟨rfl, _⟩ := t1
      obtain ⟨rfl, _⟩ := t2
      obtain ⟨u, rfl⟩ := p1
      revert p2
      simp [lit]

/-- The outcome in a given order of the channels: the text of a success, or a mistake. -/
def exOrderRun (root : GToken) (chans : List GToken) (f : List Path → List Path) (script : Str) : Option (Option Str) :=
  match matcherNow (exGenv [root]) 3 root (some (exChans chans)) with
  | .ok (p, ps) => match toAST ⟨p, fun _ => f ps⟩ false 30 script exSt with
    | some (.ok (.success a), _) => some (some a.discovery)
    | some (.ok (.mistake _), _) => some none
    | _ => none
  | _ => none

theorem exOrderRun_some {root : GToken} {chans : List GToken} {f : List Path → List Path} {script : Str} {o : Option Str}
    (h : exOrderRun root chans f script = some o) : ∃ p ps, matcherNow (exGenv [root]) 3 root (some (exChans chans)) = .ok (p, ps) ∧
      ∃ r st, toAST ⟨p, fun _ => f ps⟩ false 30 script exSt = some (.ok r, st) ∧ match r with
        | .success a => o = some a.discovery
        | .mistake _ => o = none := by
  unfold exOrderRun at h
  cases hm : matcherNow (exGenv [root]) 3 root (some (exChans chans)) with
  | err => rw [hm] at h; cases h
  | panic => rw [hm] at h; cases h
  | ok q =>
    obtain ⟨p, ps⟩ := q
    rw [hm] at h
    dsimp only at h
    refine ⟨p, ps, rfl, ?_⟩
    cases hr : toAST ⟨p, fun _ => f ps⟩ false 30 script exSt with
    | none => rw [hr] at h; cases h
    | some r =>
      obtain ⟨r, st⟩ := r
      rw [hr] at h
      cases r with
      | err => cases h
      | panic => cases h
      | ok r =>
        refine ⟨r, st, rfl, ?_⟩
        cases r with
        | success a => cases h; rfl
        | mistake m => cases h; rfl

example : ∃ p ps, matcherNow (exGenv [exOrderRoot]) 3 exOrderRoot (some (exChans [exOne "open" "{", exOne "close" "}"])) = .ok (p, ps) ∧
    ∃ a st, toAST ⟨p, fun _ => ps⟩ false 30 (lit "}{ab{{}c") exSt = some (.ok (.success a), st) ∧ a.discovery = lit "}{ab{{}c" := by
  obtain ⟨p, ps, h1, r, st, h2, h3⟩ := exOrderRun_some (show exOrderRun exOrderRoot [exOne "open" "{", exOne "close" "}"] id (lit "}{ab{{}c") = some (some (lit "}{ab{{}c"))
    by decide +kernel)
  cases r with
  | mistake m => cases h3
  | success a => exact ⟨p, ps, h1, a, st, h2, by simpa using h3.symm⟩

/-- C94, violation: with two channels of which one is a beginning of the other, `a` and `ab`, and a root which is `bc`, the text `abc` is recognised or
not, depending on the order in which the map of the channels happens to be read. -/
theorem C94_order_matters : ∃ p ps, matcherNow (exGenv [exOne "root" "bc"]) 3 (exOne "root" "bc") (some (exChans [exOne "a" "a", exOne "ab" "ab"])) = .ok (p, ps) ∧
    (∃ a st, toAST ⟨p, fun _ => ps⟩ false 30 (lit "abc") exSt = some (.ok (.success a), st) ∧ a.discovery = lit "abc") ∧
    ∃ m st, toAST ⟨p, fun _ => ps.reverse⟩ false 30 (lit "abc") exSt = some (.ok (.mistake m), st) := by
  obtain ⟨p, ps, h1, r, st, h2, h3⟩ := exOrderRun_some (show exOrderRun (exOne "root" "bc") [exOne "a" "a", exOne "ab" "ab"] id (lit "abc") = some (some (lit "abc"))
    by decide +kernel)
  obtain ⟨p', ps', k1, r', st', k2, k3⟩ := exOrderRun_some (show exOrderRun (exOne "root" "bc") [exOne "a" "a", exOne "ab" "ab"] List.reverse (lit "abc") = some none
    by decide +kernel)
  rw [h1] at k1
  cases k1
  refine ⟨p, ps, h1, ?_, ?_⟩
  · cases r with
    | mistake m => cases h3
    | success a => exact ⟨a, st, h2, by simpa using h3.symm⟩
  · cases r' with
    | success a => cases k3
    | mistake m => exact ⟨m, st', k2⟩

end Verif.Lexer
