import Verif.Lemmas.GrammarLeft
import Verif.Props.Derivation

/-!
# Two alternatives which begin with the own token
-/

namespace Verif.Lexer
open Verif.Patterns Verif.Cardinality

theorem bind_stuck {α β} {x : M α} {f : α → M β} {s : St} (h : x s = none) : (x >>= f) s = none := M.bind_none.mpr (.inl h)

/-- The element is stuck if its first line is, and a line is stuck if its first container is. -/
theorem element_stuck {env : Env} {n : Nat} {e : Element} {deps : List Element} {s : Str} {ch : Bool} {st : St} {c : PContainer} {is : Line} {ls : List Line}
    (hm : e.must = (.container c :: is) :: ls) (h : containerToBlockMatch env n c deps s ch ch st = none) :
    elementToToken env (n + 4) e deps s ch st = none := by
  unfold elementToToken
  refine bind_stuck ?_
  unfold elementToTokenContent
  refine bind_stuck ?_
  unfold bestLineToMatches
  refine bind_stuck ?_
  rw [hm]
  unfold bestLoop
  refine bind_stuck ?_
  unfold lineToMatches lineLoop
  exact bind_stuck h

/-- The same for the second line, if the first container of the first line is given up. -/
theorem element_stuck2 {env : Env} {n : Nat} {e : Element} {deps : List Element} {s : Str} {ch : Bool} {st st' : St} {c c' : PContainer} {is is' : Line}
    {ls : List Line} (hm : e.must = (.container c :: is) :: (.container c' :: is') :: ls)
    (h : containerToBlockMatch env n c deps s ch ch st = some (.ok none, st')) (h' : containerToBlockMatch env n c' deps s ch ch st' = none) :
    elementToToken env (n + 4) e deps s ch st = none := by
  unfold elementToToken
  refine bind_stuck ?_
  unfold elementToTokenContent
  refine bind_stuck ?_
  unfold bestLineToMatches
  refine bind_stuck ?_
  rw [hm]
  unfold bestLoop
  have h1 : lineToMatches env (n + 1) (.container c :: is) deps s ch st = some (.ok none, st') := by
    unfold lineToMatches lineLoop
    rw [M.bind_some_ok h]
    rfl
  rw [M.bind_some_ok h1]
  dsimp only
  unfold bestLoop
  refine bind_stuck ?_
  unfold lineToMatches lineLoop
  exact bind_stuck h'

section
variable {env : Env} (hch : ∀ k, env.channels k = []) {s : Str} (hs : s ≠ [])
include hch hs

/-- Without channels the match of a container is that of the container itself. -/
theorem block_of_match {n : Nat} {c : PContainer} {deps : List Element} {ch nx : Bool} {st : St} :
    ∃ st1 : St, st1.recursive = st.recursive ∧ ∀ r st2, containerToMatch env (n + 1) c deps s nx st1 = some (.ok r, st2) →
      containerToBlockMatch env (n + 2) c deps s ch nx st = some (.ok (r.map fun x => .mk none (.container x)), st2) := by
  cases ch with
  | false =>
    refine ⟨st, rfl, ?_⟩
    intro r st2 h
    unfold containerToBlockMatch
    rw [if_neg hs]
    rw [M.bind_some_ok (a := none) (s1 := st) rfl]
    dsimp only
    rw [M.bind_some_ok h]
    cases r <;> rfl
  | true =>
    refine ⟨{ st with ranges := st.ranges + 1 }, rfl, ?_⟩
    intro r st2 h
    unfold containerToBlockMatch
    rw [if_neg hs]
    have h1 : (if true = true then findChannelBlockMatch env (n + 1) c deps s nx else pure none) st = some (.ok none, { st with ranges := st.ranges + 1 }) := by
      simp only [if_true]
      unfold findChannelBlockMatch
      rw [M.bind_some_ok (M.get_run _), M.bind_some_ok (M.set_run _ _), hch]
      rw [M.bind_some_ok (a := none) (s1 := { st with ranges := st.ranges + 1 }) rfl]
      rfl
    rw [M.bind_some_ok h1]
    dsimp only
    rw [M.bind_some_ok h]
    cases r <;> rfl

theorem block_stuck {n : Nat} {c : PContainer} {deps : List Element} {ch nx : Bool} {st : St}
    (h : ∀ st1 : St, st1.recursive = st.recursive → containerToMatch env (n + 1) c deps s nx st1 = none) :
    containerToBlockMatch env (n + 2) c deps s ch nx st = none := by
  unfold containerToBlockMatch
  rw [if_neg hs]
  cases ch with
  | false =>
    rw [M.bind_some_ok (a := none) (s1 := st) rfl]
    exact bind_stuck (h st rfl)
  | true =>
    have h1 : (if true = true then findChannelBlockMatch env (n + 1) c deps s nx else pure none) st = some (.ok none, { st with ranges := st.ranges + 1 }) := by
      simp only [if_true]
      unfold findChannelBlockMatch
      rw [M.bind_some_ok (M.get_run _), M.bind_some_ok (M.set_run _ _), hch]
      rw [M.bind_some_ok (a := none) (s1 := { st with ranges := st.ranges + 1 }) rfl]
      rfl
    rw [M.bind_some_ok h1]
    exact bind_stuck (h _ rfl)

/-- A token is stuck if its first repetition is. -/
theorem tokenMatch_stuck {n : Nat} {e : Element} {sp : List Spec} {k : Card} {deps : List Element} {ch : Bool} {st : St}
    (h : elementToToken env n e deps s ch st = none) : tokenToTokenMatch env (n + 1) e sp k deps s ch st = none := by
  unfold tokenToTokenMatch
  refine bind_stuck ?_
  cases n with
  | zero => rfl
  | succ n => exact bind_stuck h

/-- The own token in front: given up, or tried again. -/
theorem recursive_stuck {n : Nat} {a : Str} {e : Element} {deps : List Element} (hf : fetch deps a = .ok e) {sp : List Spec} {k : Card} {ch : Bool} {st : St}
    (h : ∀ st1, elementToToken env n e deps s ch st1 = none) (hr : st.recursive a ≠ some s) :
    containerToMatch env (n + 2) (.recursive a sp k) deps s ch st = none := by
  unfold containerToMatch
  rw [M.bind_some_ok (M.get_run _)]
  rw [if_neg hr]
  rw [M.bind_some_ok (M.set_run _ _), M.bind_some_ok (by rw [M.lift_run, hf])]
  exact bind_stuck (tokenMatch_stuck hch hs (h _))

/-- An element whose first line begins with a token with two lines which begin with `a`. -/
structure TwiceLeft (a : Str) (e0 : Element) : Prop where
  shape : ∃ e1 sp k is ls sp1 sp2 k1 k2 is1 is2 ls1, e0.must = (.container (.token e1 sp k) :: is) :: ls ∧
    e1.must = (.container (.recursive a sp1 k1) :: is1) :: (.container (.recursive a sp2 k2) :: is2) :: ls1

theorem twiceLeft_step {a : Str} {e : Element} {deps : List Element} (hf : fetch deps a = .ok e) {e0 : Element} (h0 : TwiceLeft a e0) {n : Nat} {ch : Bool}
    (ih : ∀ st, elementToToken env n e deps s ch st = none) (st : St) : elementToToken env (n + 14) e0 deps s ch st = none := by
  obtain ⟨e1, sp, k, is, ls, sp1, sp2, k1, k2, is1, is2, ls1, h0, h1⟩ := h0.shape
  have inner : ∀ st, elementToToken env (n + 7) e1 deps s ch st = none := by
    intro st
    by_cases hr : st.recursive a = some s
    · obtain ⟨st1, q1, q2⟩ := block_of_match hch hs (n := n + 1) (c := .recursive a sp1 k1) (deps := deps) (ch := ch) (nx := ch) (st := st)
      have hm : containerToMatch env (n + 2) (.recursive a sp1 k1) deps s ch st1 =
          some (.ok none, { st1 with recursive := Function.update st1.recursive a none }) := by
        unfold containerToMatch
        rw [M.bind_some_ok (M.get_run _)]
        rw [if_pos (by rw [q1]; exact hr)]
        rw [M.bind_some_ok (M.set_run _ _)]
        rfl
      refine element_stuck2 (n := n + 3) h1 (q2 _ _ hm) ?_
      refine block_stuck hch hs (n := n + 1) ?_
      intro st2 hq
      refine recursive_stuck hch hs hf ih ?_
      rw [hq]
      simp
    · refine element_stuck (n := n + 3) h1 ?_
      refine block_stuck hch hs (n := n + 1) ?_
      intro st2 hq
      refine recursive_stuck hch hs hf ih ?_
      rw [hq]
      exact hr
  refine element_stuck (n := n + 10) h0 ?_
  refine block_stuck hch hs (n := n + 8) ?_
  intro st2 _
  show containerToMatch env (n + 9) (.token e1 sp k) deps s ch st2 = none
  unfold containerToMatch
  exact bind_stuck (tokenMatch_stuck hch hs (inner st2))

/-- Two lines which begin with the token `a`, whose element is of this kind again. -/
theorem twiceLeft_stuck {a : Str} {e : Element} {deps : List Element} (hf : fetch deps a = .ok e) (h0 : TwiceLeft a e) (ch : Bool) :
    ∀ (n : Nat) (st : St), elementToToken env (14 * n) e deps s ch st = none
  | 0, _ => rfl
  | n + 1, st => twiceLeft_step hch hs hf h0 (twiceLeft_stuck hf h0 ch n) st
end

theorem unf_twice {g : PathEnv} (hg : TokensOk g) (hclosed : GClosed g) {root : GToken} (hroot : root ∈ g.tokens.list) {x y : GElement} {l1 l2 : GLine}
    {rest : List GLine} (hm : root.must = (.element x :: l1) :: (.element y :: l2) :: rest) {sx sy : List GSpec}
    (hx : x.content = .token root.name sx) (hy : y.content = .token root.name sy) {e : Element} (h : Unf g [] root e) : TwiceLeft root.name e := by
  have two : ∀ {stack : List Str} {e : Element}, Unf g stack root e → ∃ c1 c2 is1 is2 ls, e.must = (.container c1 :: is1) :: (.container c2 :: is2) :: ls ∧
      UnfC g stack root.name (elementsIn (.element x :: l1)) x c1 ∧ UnfC g stack root.name (elementsIn (.element y :: l2)) y c2 := by
    intro stack e h
    cases h with
    | mk h1 h2 h3 h4 h5 =>
      rw [hm] at h3
      cases h3 with
      | cons _ a1 a2 =>
        cases a2 with
        | cons _ b1 b2 =>
          cases a1 with
          | elem c1 _ =>
            cases b1 with
            | elem c2 _ => exact ⟨_, _, _, _, _, rfl, c1, c2⟩
  have hfind := (hg.find root.name root).mpr ⟨hroot, rfl⟩
  have rec_ : ∀ {n : Nat} {z : GElement} {sz : List GSpec} {c : PContainer}, z.content = .token root.name sz → UnfC g [root.name] root.name n z c →
      ∃ sp k, c = .recursive root.name sp k := by
    intro n z sz c hz hc
    cases hc with
    | recur e1 _ _ _ _ => rw [hz] at e1; cases e1; exact ⟨_, _, rfl⟩
    | replaced e1 e2 _ _ => rw [hz] at e1; cases e1; simp at e2
    | declared e1 e2 _ _ _ _ => rw [hz] at e1; cases e1; simp at e2
    | missing e1 e2 _ _ _ _ => rw [hz] at e1; cases e1; simp at e2
    | rule e1 => rw [hz] at e1; cases e1
  obtain ⟨c1, c2, is1, is2, ls, h1, h2, h3⟩ := two h
  cases h2 with
  | recur e1 e2 _ _ _ => simp at e2
  | replaced e1 _ _ e4 => rw [hclosed.1] at e4; cases e4
  | missing e1 _ _ _ e5 _ => rw [hx] at e1; cases e1; rw [hfind] at e5; cases e5
  | rule e1 => rw [hx] at e1; cases e1
  | declared e1 _ _ _ e5 e6 =>
    rw [hx] at e1; cases e1
    rw [hfind] at e5; cases e5
    obtain ⟨c1', c2', is1', is2', ls', k1, k2, k3⟩ := two e6
    obtain ⟨_, _, rfl⟩ := rec_ hx k2
    obtain ⟨_, _, rfl⟩ := rec_ hy k3
    exact ⟨_, _, _, _, _, _, _, _, _, _, _, _, h1, k1⟩

/-- The element of a token whose first line begins with this token. -/
theorem unf_left {g : PathEnv} (hg : TokensOk g) (hclosed : GClosed g) {root : GToken} (hroot : root ∈ g.tokens.list) {x : GElement} {l1 : GLine}
    {rest : List GLine} (hm : root.must = (.element x :: l1) :: rest) {sx : List GSpec} (hx : x.content = .token root.name sx) {e : Element}
    (h : Unf g [] root e) :
    ∃ e1 sp is ls not, e = .mk root.name ((.container (.token e1 sp (x.card.getD .mandatory)) :: is) :: ls) not ∧ e1.name = root.name := by
  have hfind := (hg.find root.name root).mpr ⟨hroot, rfl⟩
  have nm : ∀ {stack : List Str} {e : Element}, Unf g stack root e → e.name = root.name := by
    intro stack e h
    cases h with
    | mk h1 h2 h3 h4 h5 => rfl
  cases h with
  | mk h1 h2 h3 h4 h5 =>
    rw [hm] at h3
    cases h3 with
    | cons _ a1 a2 =>
      cases a1 with
      | elem c1 _ =>
        cases c1 with
        | recur e1 e2 _ _ _ => simp at e2
        | replaced e1 _ _ e4 => rw [hclosed.1] at e4; cases e4
        | missing e1 _ _ _ e5 _ => rw [hx] at e1; cases e1; rw [hfind] at e5; cases e5
        | rule e1 => rw [hx] at e1; cases e1
        | declared e1 _ _ _ e5 e6 =>
          rw [hx] at e1; cases e1
          rw [hfind] at e5; cases e5
          exact ⟨_, _, _, _, _, rfl, nm e6⟩

theorem diverge_end_card {env : Env} {c : PContainer} {deps : List Element} {k : Card} (hc : c.cardinality = .ok k) (hk : k.isValid 0 = false)
    (h : ∀ n st, buildNextElement deps n c st = none) (name : Str) (is : Line) (ls not : List Line) (n : Nat) (ch : Bool) (st : St) :
    elementToToken env n (.mk name ((.container c :: is) :: ls) not) deps [] ch st = none := by
  by_cases hn : n < 4
  · exact diverge_small hn ..
  · obtain ⟨m, rfl⟩ : ∃ m, n = m + 4 := ⟨n - 4, by omega⟩
    refine diverge_first ?_ ..
    cases m with
    | zero => rfl
    | succ m =>
      simp only [containerToBlockMatch, if_true]
      rw [hc, M.bind_some_ok (M.lift_run _ _)]
      simp only [hk, Bool.false_eq_true, if_false]
      exact M.bind_none.mpr (.inl (h _ _))

end Verif.Lexer
