import Verif.Lemmas.GrammarRight

/-! # The runs of `R := R a | b`, and of two left-recursive lines -/

namespace Verif.Lexer
open Verif.Patterns Verif.Cardinality

section
variable {env : Env} (hch : ∀ k, env.channels k = []) {name : Str} (hname : name ≠ []) {a b : Rule} {ca cb : Str}
  (ha : a.content = .constant ca) (hb : b.content = .constant cb) (ha0 : ca ≠ []) (hb0 : cb ≠ []) {deps : List Element}

/-- One more `a`, if there is one; otherwise only `b`. -/
def leftStep (n j : Nat) : Nat := if j < n then j + 1 else 0

include hch hname ha hb ha0 hb0

theorem left_step {c1 : PContainer} {u s : Str} {n j : Nat} (hu : ¬ ca <+: u) (hs : cb <+: s → s = cb ++ (copies ca n ++ u))
    (hj : j ≤ n) {P : (Str → Option Str) → Prop} {Q : (Str → Option Str) → Prop} (m : Nat) (ch : Bool)
    (h : ∀ ch nx, Tot (fun st => P st.recursive) (containerToBlockMatch env (m + 3) c1 deps s ch nx)
      (fun o st => BlockIs (cb <+: s) (cb ++ copies ca j) o ∧ Q st.recursive)) :
    Tot (fun st => P st.recursive) (elementToToken env (m + 7) (.mk name [[.container c1, pRule a], [pRule b]] []) deps s ch)
      (fun t st => TokenIs (cb <+: s) (cb ++ copies ca (leftStep n j)) t ∧ Q st.recursive) := by
  have hcop : ∀ i, i ≤ n → copies ca n = copies ca i ++ copies ca (n - i) := by
    intro i hi
    rw [copies, copies, copies, ← List.flatten_append, ← List.replicate_add, Nat.add_sub_cancel' hi]
  have hl1 : Tot (fun st => P st.recursive) (lineToMatches env (m + 4) [.container c1, pRule a] deps s ch)
      (fun o st => OutIs (some (cb <+: s ∧ j < n ∧ True, cb ++ copies ca j ++ (ca ++ []))) o ∧ Q st.recursive) := by
    simp only [lineToMatches, pRule, OutIs]
    have hw : cb <+: s → cb ++ copies ca j <+: s := by
      intro hp
      rw [hs hp]
      rw [hcop j hj]
      exact ⟨copies ca (n - j) ++ u, by simp⟩
    refine tot_lineCons (R := fun st => Q st.recursive) (by simp [blocksValid]) (h ch ch) hw (fun _ _ h => h) ?_
    intro hp acc hacc hv
    have hd : s.drop (cb ++ copies ca j).length = copies ca (n - j) ++ u := by
      have : s = (cb ++ copies ca j) ++ (copies ca (n - j) ++ u) := by
        conv_lhs => rw [hs hp, hcop j hj]
        simp
      conv_lhs => rw [this]
      exact List.drop_left ..
    rw [hd]
    have hiff : ca <+: copies ca (n - j) ++ u ↔ j < n := by
      constructor
      · intro hp'
        by_contra hc
        rw [show n - j = 0 by omega] at hp'
        exact hu (by simpa [copies] using hp')
      · intro hlt
        rw [show n - j = (n - j - 1) + 1 by omega, copies_succ, List.append_assoc]
        exact List.prefix_append _ _
    refine tot_lineCons (R := fun st => Q st.recursive) (ok := j < n) (w := ca) hv ?_ hiff.mpr (fun _ _ h => h)
      (fun _ acc h1 h2 => tot_lineNil h1 h2)
    exact (tot_constP hch ha ha0 m deps _ _ _ Q).mono (fun _ h => h) (fun _ _ h => ⟨h.1.congr hiff, h.2⟩)
  refine tot_element (n := m + 4) (ls := [[.container c1, pRule a], [pRule b]])
    (.cons hl1 (.cons (tot_constLine hch hb hb0 m deps s ch Q) .nil)) hname ?_ ?_ ?_
  · simp only [List.mem_cons, Option.some.injEq, Prod.mk.injEq, List.not_mem_nil, or_false]
    constructor
    · intro h; exact ⟨_, _, .inr ⟨rfl, rfl⟩, h, trivial⟩
    · rintro ⟨p, w, ⟨rfl, _⟩ | ⟨rfl, _⟩, hp⟩
      · exact hp.1
      · exact hp.1
  · simp only [List.mem_cons, Option.some.injEq, Prod.mk.injEq, List.not_mem_nil, or_false]
    rintro p w (⟨_, rfl⟩ | ⟨_, rfl⟩) _ <;> simp [hb0]
  · simp only [List.mem_cons, Option.some.injEq, Prod.mk.injEq, List.not_mem_nil, or_false]
    rintro p w (⟨rfl, rfl⟩ | ⟨rfl, rfl⟩) hp hmax
    · have hlt : j < n := hp.2.1
      simp only [leftStep, hlt, if_true]
      have : copies ca (j + 1) = copies ca j ++ ca := by simp [copies, List.replicate_succ']
      rw [this]; simp
    · by_cases hlt : j < n
      · have := hmax _ _ (.inl ⟨rfl, rfl⟩) ⟨hp.1, hlt, trivial⟩
        have h1 : 0 < ca.length := List.length_pos_iff.mpr ha0
        simp at this
        omega
      · simp [leftStep, hlt, copies]

variable (hf : fetch deps name = .ok (left0 name a b))
include hf

/-- The guard works in the third round; every round but this one takes one `a`. -/
theorem left_runs {u s : Str} {n : Nat} (hs0 : s ≠ []) (hu : ¬ ca <+: u) (hs : cb <+: s → s = cb ++ (copies ca n ++ u)) (m : Nat)
    (ch : Bool) : Tot (fun st => st.recursive name = none) (elementToToken env (m + 29) (left0 name a b) deps s ch)
      (fun t _ => TokenIs (cb <+: s) (cb ++ copies ca (leftStep n (leftStep n (leftStep n 0)))) t ∧ True) := by
  have hle : ∀ j, leftStep n j ≤ n := by intro j; unfold leftStep; split <;> omega
  have hw : ∀ j, j ≤ n → cb <+: s → cb ++ copies ca j <+: s := by
    intro j hj hp
    rw [hs hp]
    refine ⟨copies ca (n - j) ++ u, ?_⟩
    have : copies ca n = copies ca j ++ copies ca (n - j) := by
      rw [copies, copies, copies, ← List.flatten_append, ← List.replicate_add, Nat.add_sub_cancel' hj]
    rw [this]; simp
  -- the inner token, where the guard holds the recursion back
  have h1 : ∀ ch, Tot (fun st => st.recursive name = some s) (elementToToken env (m + 8) (left1 name a b) deps s ch)
      (fun t st => TokenIs (cb <+: s) (cb ++ copies ca 0) t ∧ st.recursive name = none) := by
    intro ch
    have hg : Tot (fun st => st.recursive name = some s) (lineToMatches env (m + 5) [pRec name, pRule a] deps s ch)
        (fun o st => OutIs none o ∧ st.recursive name = none) := by
      simp only [lineToMatches, pRec, OutIs]
      refine tot_lineNone ?_
      refine (tot_recGuard (P := fun f => f name = some s) (n := m + 2) hch hs0 (fun _ h => h)).mono (fun _ h => h) ?_
      rintro o st ⟨h1, f, _, h2⟩
      exact ⟨h1, by rw [h2]; simp⟩
    refine tot_element (n := m + 5) (ls := [[pRec name, pRule a], [pRule b]])
      (.cons hg (.cons (tot_constLine hch hb hb0 (m + 1) deps s ch (fun f => f name = none)) .nil)) hname ?_ ?_ ?_
    · simp
      exact ⟨fun h => ⟨_, Iff.rfl, h⟩, fun ⟨_, h, hp⟩ => h.mp hp⟩
    · simp only [List.mem_cons, Option.some.injEq, Prod.mk.injEq, List.not_mem_nil, or_false, reduceCtorEq, false_or]
      rintro p w ⟨_, rfl⟩ _; simp [hb0]
    · simp only [List.mem_cons, Option.some.injEq, Prod.mk.injEq, List.not_mem_nil, or_false, reduceCtorEq, false_or]
      rintro p w ⟨_, rfl⟩ _ _; simp [copies]
  have h2 : ∀ ch, Tot (fun st => st.recursive name = some s) (elementToToken env (m + 15) (left0 name a b) deps s ch)
      (fun t st => TokenIs (cb <+: s) (cb ++ copies ca (leftStep n 0)) t ∧ st.recursive name = none) := by
    intro ch
    refine left_step hch hname ha hb ha0 hb0 hu hs (Nat.zero_le n) (P := fun f => f name = some s) (Q := fun f => f name = none)
      (m + 8) ch ?_
    intro ch nx
    exact tot_tokenBlock (P := fun f => f name = some s) (n := m + 7) hch hs0 (hw 0 (Nat.zero_le _)) (h1 _)
  have h3 : ∀ ch, Tot (fun st => st.recursive name = none) (elementToToken env (m + 22) (left1 name a b) deps s ch)
      (fun t st => TokenIs (cb <+: s) (cb ++ copies ca (leftStep n (leftStep n 0))) t ∧ st.recursive name = none) := by
    intro ch
    refine left_step hch hname ha hb ha0 hb0 hu hs (hle _) (P := fun f => f name = none) (Q := fun f => f name = none)
      (m + 15) ch ?_
    intro ch nx
    refine tot_recBlock (P := fun f => f name = none) (n := m + 14) hch hs0 hf (hw _ (hle _)) (by intro f h; simp [h]) ?_
    refine (h2 _).mono ?_ (fun _ _ h => h)
    rintro st ⟨f, _, h⟩
    rw [h]; simp
  refine (left_step hch hname ha hb ha0 hb0 hu hs (hle _) (P := fun f => f name = none) (Q := fun f => f name = none)
      (m + 22) ch ?_).mono (fun _ h => h) (fun _ _ h => ⟨h.1, trivial⟩)
  intro ch nx
  exact tot_tokenBlock (P := fun f => f name = none) (n := m + 21) hch hs0 (hw _ (hle _)) (h3 _)

end

/-- At the end of the script a left-recursive token looks for its first rule for ever. -/
theorem fetchFirstRule_left {deps : List Element} {name : Str} {e : Element} {sp : List Spec} {card : Card} {is : Line} {ls not : List Line}
    {e' : Element} (he' : e'.name = name) (he : e = .mk name ((.container (.token e' sp card) :: is) :: ls) not)
    (hf : fetch deps name = .ok e) (n : Nat) : ∀ st, fetchFirstRule deps n name st = none := by
  induction n with
  | zero => intro st; rfl
  | succ n ih =>
    intro st
    simp only [fetchFirstRule]
    rw [hf, M.bind_some_ok (M.lift_run _ _), he]
    simp only [Element.must, firstContainer, he']
    exact ih st

/-- An element whose first container does not end. -/
theorem diverge_first {env : Env} {c : PContainer} {deps : List Element} {s : Str} {n : Nat} {st : St} {ch : Bool}
    (h : containerToBlockMatch env n c deps s ch ch st = none) (name : Str) (is : Line) (ls not : List Line) :
    elementToToken env (n + 4) (.mk name ((.container c :: is) :: ls) not) deps s ch st = none := by
  simp only [elementToToken, elementToTokenContent, bestLineToMatches, Element.must, bestLoop, lineToMatches, lineLoop]
  exact M.bind_none.mpr (.inl (M.bind_none.mpr (.inl (M.bind_none.mpr (.inl (M.bind_none.mpr (.inl
      (M.bind_none.mpr (.inl h)))))))))

theorem diverge_small {env : Env} {c : PContainer} {deps : List Element} {s : Str} {n : Nat} {st : St} {ch : Bool}
    (hn : n < 4) (name : Str) (is : Line) (ls not : List Line) :
    elementToToken env n (.mk name ((.container c :: is) :: ls) not) deps s ch st = none := by
  match n with
  | 0 => rfl
  | 1 => rfl
  | 2 => rfl
  | 3 =>
    simp only [elementToToken, elementToTokenContent, bestLineToMatches, Element.must, bestLoop, lineToMatches]
    rfl

theorem diverge_end {env : Env} {c : PContainer} {deps : List Element} (hc : c.cardinality = .ok .mandatory)
    (h : ∀ n st, buildNextElement deps n c st = none) (name : Str) (is : Line) (ls not : List Line) (n : Nat) (ch : Bool) (st : St) :
    elementToToken env n (.mk name ((.container c :: is) :: ls) not) deps [] ch st = none := by
  by_cases hn : n < 4
  · exact diverge_small hn ..
  · obtain ⟨m, rfl⟩ : ∃ m, n = m + 4 := ⟨n - 4, by omega⟩
    refine diverge_first ?_ ..
    cases m with
    | zero => rfl
    | succ m =>
      simp only [containerToBlockMatch, if_true]
      rw [hc, M.bind_some_ok (M.lift_run _ _)]
      have : Card.mandatory.isValid 0 = false := by decide
      simp only [this, Bool.false_eq_true, if_false]
      exact M.bind_none.mpr (.inl (h _ _))

theorem diverge_token {env : Env} (hch : ∀ k, env.channels k = []) {e : Element} {sp : List Spec} {card : Card}
    {deps : List Element} {s : Str} (hs : s ≠ []) {n : Nat} {nx : Bool} {P : (Str → Option Str) → Prop}
    (h : ∀ st, P st.recursive → elementToToken env n e deps s nx st = none) (ch : Bool) (st : St) (hp : P st.recursive) :
    containerToBlockMatch env (n + 3) (.token e sp card) deps s ch nx st = none := by
  obtain ⟨k, hk⟩ := block_direct (n := n + 1) (c := .token e sp card) (deps := deps) hch hs ch nx st
  rw [hk]
  simp only [containerToMatch, tokenToTokenMatch]
  refine M.bind_none.mpr (.inl (M.bind_none.mpr (.inl (M.bind_none.mpr (.inl ?_)))))
  cases n with
  | zero => rfl
  | succ n => simp only [tokenLoop]; exact M.bind_none.mpr (.inl (h _ hp))

theorem diverge_rec {env : Env} (hch : ∀ k, env.channels k = []) {e : Element} {sp : List Spec} {card : Card} {name : Str}
    {deps : List Element} (hf : fetch deps name = .ok e) {s : Str} (hs : s ≠ []) {n : Nat} {nx : Bool}
    (h : ∀ st, st.recursive name = some s → elementToToken env n e deps s nx st = none) (ch : Bool) (st : St)
    (hp : st.recursive name ≠ some s) :
    containerToBlockMatch env (n + 3) (.recursive name sp card) deps s ch nx st = none := by
  obtain ⟨k, hk⟩ := block_direct (n := n + 1) (c := .recursive name sp card) (deps := deps) hch hs ch nx st
  rw [hk]
  simp only [containerToMatch, tokenToTokenMatch]
  refine M.bind_none.mpr (.inl ?_)
  rw [M.bind_some_ok (M.get_run _)]
  simp only [hp, if_false]
  rw [M.bind_some_ok (M.set_run _ _), hf, M.bind_some_ok (M.lift_run _ _)]
  refine M.bind_none.mpr (.inl (M.bind_none.mpr (.inl ?_)))
  cases n with
  | zero => rfl
  | succ n => simp only [tokenLoop]; exact M.bind_none.mpr (.inl (h _ (by simp)))

/-- Two left-recursive lines: the first one opens the guard for the second one. -/
theorem two_runs {env : Env} (hch : ∀ k, env.channels k = []) {name : Str} {a b c : Rule}
    {deps : List Element} (hf : fetch deps name = .ok (two0 name a c b)) {s : Str} (hs : s ≠ []) (n : Nat) (ch : Bool) (st : St) :
    elementToToken env n (two0 name a c b) deps s ch st = none := by
  have key : ∀ k, ∀ ch st, st.recursive name = some s → elementToToken env (14 * k) (two0 name a c b) deps s ch st = none := by
    intro k
    induction k with
    | zero => intro ch st _; rfl
    | succ k ih =>
      intro ch st hst
      rw [show 14 * (k + 1) = 14 * k + 7 + 3 + 4 by omega]
      refine diverge_first ?_ ..
      refine diverge_token (P := fun f => f name = some s) hch hs ?_ ch st hst
      intro st hst
      rw [show 14 * k + 7 = 14 * k + 3 + 4 by omega]
      have hg : Tot (fun st => st.recursive name = some s) (lineToMatches env (14 * k + 3 + 1) [pRec name, pRule a] deps s ch)
          (fun o st => o = none ∧ st.recursive name = none) := by
        simp only [lineToMatches, pRec]
        refine tot_lineNone ?_
        refine (tot_recGuard (P := fun f => f name = some s) (n := 14 * k + 1) hch hs (fun _ h => h)).mono (fun _ h => h) ?_
        rintro o st ⟨h1, f, _, h2⟩
        exact ⟨h1, by rw [h2]; simp⟩
      obtain ⟨o, st1, h1, rfl, h2⟩ := hg st hst
      simp only [elementToToken, elementToTokenContent, bestLineToMatches, Element.must, two1, bestLoop]
      refine M.bind_none.mpr (.inl (M.bind_none.mpr (.inl (M.bind_none.mpr (.inl ?_)))))
      rw [M.bind_some_ok h1]
      refine M.bind_none.mpr (.inl ?_)
      simp only [lineToMatches, pRec, lineLoop]
      refine M.bind_none.mpr (.inl ?_)
      exact diverge_rec hch hf hs (ih ch) ch st1 (by simp [h2])
  have big : ∀ k ch st, elementToToken env (14 * k + 14) (two0 name a c b) deps s ch st = none := by
    intro k ch st
    by_cases hst : st.recursive name = some s
    · exact key (k + 1) ch st hst
    · rw [show 14 * k + 14 = 14 * k + 7 + 3 + 4 by omega]
      refine diverge_first ?_ ..
      refine diverge_token (P := fun f => f name ≠ some s) hch hs ?_ ch st hst
      intro st hst
      rw [show 14 * k + 7 = 14 * k + 3 + 4 by omega]
      exact diverge_first (diverge_rec hch hf hs (key k ch) ch st hst) ..
  have hm := (mono env n (14 * n + 14) (by omega)).elem (two0 name a c b) deps s ch st
  rcases hx : elementToToken env n (two0 name a c b) deps s ch st with _ | x
  · rfl
  · have := hm x hx
    rw [big] at this
    simp at this

end Verif.Lexer

namespace Verif.Lexer
open Verif.Patterns Verif.Cardinality

/-- In the second alternative the guard ends the line behind `a`. -/
theorem nested_runs {env : Env} (hch : ∀ k, env.channels k = []) {start name : Str} (hstart : start ≠ []) (hname : name ≠ [])
    {a b c d : Rule} {ca cb cc cd rest : Str}
    (ha : a.content = .constant ca) (hb : b.content = .constant cb) (hc : c.content = .constant cc)
    (ha0 : ca ≠ []) (hb0 : cb ≠ []) (hc0 : cc ≠ []) {deps : List Element} (hf : fetch deps name = .ok (nested0 name a b c d))
    (h1 : ¬ ca <+: cb ++ (cd ++ rest)) (h2 : ¬ cb <+: ca ++ (cb ++ (cd ++ rest))) (h3 : ¬ cc <+: cd ++ rest) (m : Nat) (ch : Bool) :
    Tot (fun st => st.recursive name = none)
      (elementToToken env (m + 25) (nestedStart start name a b c d) deps (ca ++ (cb ++ (cd ++ rest))) ch)
      (fun t _ => TokenIs True ca t ∧ True) := by
  have hs1 : cb ++ (cd ++ rest) ≠ [] := by simp [hb0]
  have hs : ca ++ (cb ++ (cd ++ rest)) ≠ [] := by simp [ha0]
  -- `R` at `b d`, inside the first alternative
  have i1 : ∀ ch, Tot (fun st => st.recursive name = some (cb ++ (cd ++ rest)))
      (elementToToken env (m + 11) (nested0 name a b c d) deps (cb ++ (cd ++ rest)) ch)
      (fun t st => TokenIs True cb t ∧ st.recursive name = some (cb ++ (cd ++ rest))) := by
    intro ch
    refine tot_element (n := m + 8) (.cons (tot_missLine hch ha ha0 (m + 4) deps _ ch
        (fun f => f name = some (cb ++ (cd ++ rest))) _ h1 [])
      (.cons (tot_missLine hch ha ha0 (m + 4) deps _ ch (fun f => f name = some (cb ++ (cd ++ rest))) _ h1 [])
      (.cons (tot_constLine hch hb hb0 (m + 4) deps _ ch (fun f => f name = some (cb ++ (cd ++ rest)))) .nil))) hname ?_ ?_ ?_
    · simp only [List.mem_cons, Option.some.injEq, Prod.mk.injEq, List.not_mem_nil, or_false, true_iff]
      exact ⟨_, _, .inr (.inr ⟨rfl, rfl⟩), List.prefix_append _ _, trivial⟩
    · simp only [List.mem_cons, Option.some.injEq, Prod.mk.injEq, List.not_mem_nil, or_false]
      rintro p w (⟨rfl, rfl⟩ | ⟨rfl, rfl⟩ | ⟨rfl, rfl⟩) hp
      · exact hp.elim
      · exact hp.elim
      · simp [hb0]
    · simp only [List.mem_cons, Option.some.injEq, Prod.mk.injEq, List.not_mem_nil, or_false]
      rintro p w (⟨rfl, rfl⟩ | ⟨rfl, rfl⟩ | ⟨rfl, rfl⟩) hp
      · exact hp.elim
      · exact hp.elim
      · simp
  have i2 : ∀ ch, Tot (fun st => st.recursive name = none)
      (elementToToken env (m + 18) (nested1 name a b c d) deps (ca ++ (cb ++ (cd ++ rest))) ch)
      (fun t st => TokenIs True ca t ∧ True) := by
    intro ch
    have l1 : Tot (fun st => st.recursive name = none)
        (lineToMatches env (m + 15) [pRule a, pRec name, pRule c] deps (ca ++ (cb ++ (cd ++ rest))) ch)
        (fun o st => OutIs (some (ca <+: ca ++ (cb ++ (cd ++ rest)) ∧ True ∧ cc <+: cd ++ rest ∧ True,
          ca ++ (cb ++ (cc ++ [])))) o ∧ st.recursive name = some (cb ++ (cd ++ rest))) := by
      simp only [lineToMatches, pRule, pRec, OutIs]
      refine tot_lineCons (R := fun st => st.recursive name = some (cb ++ (cd ++ rest))) (by simp [blocksValid])
        (tot_constP hch ha ha0 (m + 11) deps (ca ++ (cb ++ (cd ++ rest))) ch ch (fun f => f name = none)) id
        (fun h => absurd (List.prefix_append _ _) h) ?_
      intro _ acc hacc hva
      rw [List.drop_left]
      refine tot_lineCons (R := fun st => st.recursive name = some (cb ++ (cd ++ rest))) hva
        (tot_recBlock (P := fun f => f name = none) (n := m + 10) (ok := True) (w := cb)
          (Q := fun st => st.recursive name = some (cb ++ (cd ++ rest))) hch hs1 hf
          (fun _ => List.prefix_append _ _) (by intro f h; simp [h]) ?_) (fun _ => List.prefix_append _ _) (fun _ _ h => h) ?_
      · refine (i1 _).mono ?_ (fun _ _ h => h)
        rintro st ⟨f, _, h⟩; rw [h]; simp
      · intro _ acc hacc hva
        rw [List.drop_left]
        exact tot_lineCons (R := fun st => st.recursive name = some (cb ++ (cd ++ rest))) hva
          (tot_constP hch hc hc0 (m + 11) deps _ _ _ (fun f => f name = some (cb ++ (cd ++ rest)))) id (fun _ _ h => h)
          (fun _ acc h1 h2 => tot_lineNil h1 h2)
    have l2 : Tot (fun st => st.recursive name = some (cb ++ (cd ++ rest)))
        (lineToMatches env (m + 15) [pRule a, pRec name, pRule d] deps (ca ++ (cb ++ (cd ++ rest))) ch)
        (fun o st => OutIs (some (ca <+: ca ++ (cb ++ (cd ++ rest)) ∧ True, ca ++ [])) o ∧ True) := by
      simp only [lineToMatches, pRule, pRec, OutIs]
      refine tot_lineCons (R := fun _ => True) (by simp [blocksValid])
        (tot_constP hch ha ha0 (m + 11) deps (ca ++ (cb ++ (cd ++ rest))) ch ch (fun f => f name = some (cb ++ (cd ++ rest)))) id
        (fun _ _ _ => trivial) ?_
      intro _ acc hacc hva
      rw [List.drop_left]
      refine tot_lineStop hva hacc ?_
      exact (tot_recGuard (P := fun f => f name = some (cb ++ (cd ++ rest))) (n := m + 12) hch hs1 (fun _ h => h)).mono
        (fun _ h => h) (fun _ _ h => ⟨h.1, trivial⟩)
    refine tot_element (n := m + 15) (.cons l1 (.cons l2
      (.cons (tot_constLine hch hb hb0 (m + 11) deps _ ch (fun _ => True)) .nil))) hname ?_ ?_ ?_
    · simp only [List.mem_cons, Option.some.injEq, Prod.mk.injEq, List.not_mem_nil, or_false, true_iff]
      exact ⟨_, _, .inr (.inl ⟨rfl, rfl⟩), List.prefix_append _ _, trivial⟩
    · simp only [List.mem_cons, Option.some.injEq, Prod.mk.injEq, List.not_mem_nil, or_false]
      rintro p w (⟨rfl, rfl⟩ | ⟨rfl, rfl⟩ | ⟨rfl, rfl⟩) hp <;> simp [ha0, hb0]
    · simp only [List.mem_cons, Option.some.injEq, Prod.mk.injEq, List.not_mem_nil, or_false]
      rintro p w (⟨rfl, rfl⟩ | ⟨rfl, rfl⟩ | ⟨rfl, rfl⟩) hp _
      · exact absurd hp.2.2.1 h3
      · simp
      · exact absurd hp.1 h2
  have l0 : Tot (fun st => st.recursive name = none)
      (lineToMatches env (m + 22) [pTok (nested1 name a b c d)] deps (ca ++ (cb ++ (cd ++ rest))) ch)
      (fun o st => OutIs (some (True ∧ True, ca ++ [])) o ∧ True) := by
    simp only [lineToMatches, pTok, OutIs]
    exact tot_lineCons (R := fun _ => True) (by simp [blocksValid])
      (tot_tokenBlock (P := fun f => f name = none) (n := m + 17) hch hs (fun _ => List.prefix_append _ _) (i2 _))
      (fun _ => List.prefix_append _ _) (fun _ _ _ => trivial) (fun _ acc h1 h2 => tot_lineNil h1 h2)
  refine tot_element (n := m + 22) (.cons l0 .nil) hstart ?_ ?_ ?_
  · simp; exact ⟨True, trivial⟩
  · simp [ha0]
  · simp
end Verif.Lexer
