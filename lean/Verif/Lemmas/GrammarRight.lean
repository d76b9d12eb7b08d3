import Verif.Lemmas.GrammarRec

/-! # The runs of `R := a R | b` -/

namespace Verif.Lexer
open Verif.Patterns Verif.Cardinality

theorem tot_constP {env : Env} (hch : ∀ k, env.channels k = []) {r : Rule} {c : Str} (hc : r.content = .constant c)
    (h0 : c ≠ []) (n : Nat) (deps : List Element) (s : Str) (ch nx : Bool) (P : (Str → Option Str) → Prop) :
    Tot (fun st => P st.recursive) (containerToBlockMatch env (n + 3) (.rule r .mandatory) deps s ch nx)
      (fun o st => BlockIs (c <+: s) c o ∧ P st.recursive) := by
  intro st hp
  obtain ⟨o, st', h1, h2, h3⟩ := tot_const hch hc h0 n deps s ch nx st.recursive st rfl
  refine ⟨o, st', h1, h3, ?_⟩
  unfold RecIs at h2
  rw [h2]; exact hp

/-- At the end of the script a mandatory part is missing. -/
theorem tot_end {env : Env} {c : PContainer} {deps : List Element} {ch nx : Bool} {n : Nat} {x : NextElement} {P : St → Prop}
    (hc : c.cardinality = .ok .mandatory) (hx : ∀ st, buildNextElement deps n c st = some (.ok x, st)) {w : Str} :
    Tot P (containerToBlockMatch env (n + 1) c deps [] ch nx) (fun o st => BlockIs False w o ∧ P st) := by
  intro st hp
  refine ⟨some (.mk none (.next x)), st, ?_, ⟨_, rfl, by simp [BlockMatch.isValid, BlockContent.isValid],
    by simp [BlockMatch.isValid, BlockContent.isValid]⟩, hp⟩
  simp only [containerToBlockMatch, if_true]
  rw [hc, M.bind_some_ok (M.lift_run _ _)]
  have : Card.mandatory.isValid 0 = false := by decide
  simp only [this, Bool.false_eq_true, if_false]
  rw [M.bind_some_ok (hx st)]
  rfl

theorem BlockIs.congr {p q : Prop} (h : p ↔ q) {w : Str} {o : Option BlockMatch} : BlockIs p w o → BlockIs q w o := by
  rintro ⟨b, h1, h2, h3⟩; exact ⟨b, h1, h2.trans h, h3⟩

/-- A line of one mandatory constant. -/
theorem tot_constLine {env : Env} (hch : ∀ k, env.channels k = []) {r : Rule} {c : Str} (hc : r.content = .constant c)
    (h0 : c ≠ []) (n : Nat) (deps : List Element) (s : Str) (ch : Bool) (P : (Str → Option Str) → Prop) :
    Tot (fun st => P st.recursive) (lineToMatches env (n + 4) [pRule r] deps s ch)
      (fun o st => OutIs (some (c <+: s ∧ True, c ++ [])) o ∧ P st.recursive) := by
  simp only [lineToMatches, pRule, OutIs]
  exact tot_lineCons (R := fun st => P st.recursive) (by simp [blocksValid]) (tot_constP hch hc h0 n deps s ch ch P) id
    (fun _ _ h => h) (fun _ acc h1 h2 => tot_lineNil h1 h2)

/-- A line whose first constant is not there. -/
theorem tot_missLine {env : Env} (hch : ∀ k, env.channels k = []) {r : Rule} {c : Str} (hc : r.content = .constant c)
    (h0 : c ≠ []) (n : Nat) (deps : List Element) (s : Str) (ch : Bool) (P : (Str → Option Str) → Prop) (is : Line) (hn : ¬ c <+: s)
    (w : Str) : Tot (fun st => P st.recursive) (lineToMatches env (n + 4) (pRule r :: is) deps s ch)
      (fun o st => OutIs (some (False, w)) o ∧ P st.recursive) := by
  simp only [lineToMatches, pRule, OutIs]
  refine (tot_lineCons (R := fun st => P st.recursive) (ok2 := True) (w2 := []) (by simp [blocksValid])
    (tot_constP hch hc h0 n deps s ch ch P) id (fun _ _ h => h) (fun h => absurd h hn)).mono (fun _ h => h) ?_
  rintro o st ⟨⟨l, h1, h2, h3⟩, h4⟩
  exact ⟨⟨l, h1, by simpa [hn] using h2, fun h => absurd (h2.mp h).1 hn⟩, h4⟩

theorem copies_not_prefix {a b u : Str} (hb : b ≠ []) (hab : ¬ a <+: b) (hba : ¬ b <+: a) (k : Nat) :
    ¬ b <+: copies a (k + 1) ++ u := by
  intro h
  rw [copies_succ, List.append_assoc] at h
  rcases List.prefix_or_prefix_of_prefix h (List.prefix_append a _) with h | h
  · exact hba h
  · exact hab h

section
variable {env : Env} (hch : ∀ k, env.channels k = []) {name : Str} (hname : name ≠ []) {a b : Rule} {ca cb : Str}
  (ha : a.content = .constant ca) (hb : b.content = .constant cb) (ha0 : ca ≠ []) (hb0 : cb ≠ []) (hab : ¬ ca <+: cb)
  (hba : ¬ cb <+: ca) {deps : List Element} (hf : fetch deps name = .ok (right0 name a b))
include hch hname ha hb ha0 hb0 hab hba hf

theorem right_runs {u : Str} (hu : ¬ ca <+: u) : ∀ k n e ch, (e = right0 name a b ∨ e = right1 name a b) →
    Tot (fun st => ∀ t, st.recursive name = some t → (copies ca k ++ u).length ≤ t.length)
      (elementToToken env (7 * k + 7 + n) e deps (copies ca k ++ u) ch)
      (fun t _ => TokenIs (cb <+: u) (copies ca k ++ cb) t ∧ True) := by
  intro k
  induction k with
  | zero =>
    intro n e ch he
    have h1 : ∀ is, Tot (fun st => ∀ t, st.recursive name = some t → (copies ca 0 ++ u).length ≤ t.length)
        (elementToToken env (7 * 0 + 7 + n) (.mk name [pRule a :: is, [pRule b]] []) deps (copies ca 0 ++ u) ch)
        (fun t _ => TokenIs (cb <+: u) (copies ca 0 ++ cb) t ∧ True) := by
      intro is
      have hs : copies ca 0 ++ u = u := by simp [copies]
      rw [hs, show 7 * 0 + 7 + n = n + 4 + 3 by omega]
      refine (tot_element (n := n + 4) (ls := [pRule a :: is, [pRule b]]) (ok := cb <+: u) (w := copies ca 0 ++ cb)
        (.cons (tot_missLine hch ha ha0 n deps u ch (fun f => ∀ t, f name = some t → u.length ≤ t.length) is hu [])
          (.cons (tot_constLine hch hb hb0 n deps u ch (fun f => ∀ t, f name = some t → u.length ≤ t.length)) .nil))
        hname ?_ ?_ ?_).mono (fun _ h => h) (fun _ _ h => ⟨h.1, trivial⟩)
      · simp only [List.mem_cons, Option.some.injEq, Prod.mk.injEq, List.not_mem_nil, or_false]
        constructor
        · intro h; exact ⟨_, _, .inr ⟨rfl, rfl⟩, h, trivial⟩
        · rintro ⟨p, w, ⟨rfl, _⟩ | ⟨rfl, _⟩, hp⟩
          · exact hp.elim
          · exact hp.1
      · simp; rintro p w (⟨h, rfl⟩ | ⟨h, rfl⟩)
        · simp [h]
        · intro _; exact hb0
      · simp; rintro p w (⟨h, rfl⟩ | ⟨h, rfl⟩)
        · simp [h]
        · intro _ _; simp [copies]
    rcases he with rfl | rfl
    · exact h1 _
    · exact h1 _
  | succ k ih =>
    intro n e ch he
    have hlen : (copies ca k ++ u).length < (copies ca (k + 1) ++ u).length := by
      rw [copies_succ]; simp; exact List.length_pos_iff.mpr ha0
    -- the part behind `a`
    have hrest : ∀ c2, (c2 = .token (right1 name a b) [] .mandatory ∨ c2 = .recursive name [] .mandatory) → ∀ ch nx,
        Tot (fun st => ∀ t, st.recursive name = some t → (copies ca (k + 1) ++ u).length ≤ t.length)
          (containerToBlockMatch env (7 * k + 6 + n + 4) c2 deps (copies ca k ++ u) ch nx)
          (fun o _ => BlockIs (cb <+: u) (copies ca k ++ cb) o ∧ True) := by
      intro c2 hc2 ch nx
      by_cases hs : copies ca k ++ u = []
      · have hu0 : u = [] := by simp at hs; exact hs.2
        have hcb : False ↔ cb <+: u := by simp [hu0, hb0]
        rw [hs, show 7 * k + 6 + n + 4 = 7 * k + 8 + n + 1 + 1 by omega]
        have hfr : ∀ st, fetchFirstRule deps (7 * k + 8 + n + 1) name st = some (.ok a, st) := by
          intro st
          simp only [fetchFirstRule]
          rw [hf, M.bind_some_ok (M.lift_run _ _)]
          rfl
        have hnx : nextFromRule a = .ok (.constant ca) := by simp [nextFromRule, ha, ha0]
        refine (tot_end (n := 7 * k + 8 + n + 1) (x := .constant ca) (P := fun _ => True) ?_ ?_).mono (fun _ _ => trivial)
          (fun _ _ h => ⟨h.1.congr hcb, trivial⟩)
        · rcases hc2 with rfl | rfl <;> rfl
        · intro st
          rcases hc2 with rfl | rfl
          · simp only [buildNextElement]
            rw [show (right1 name a b).name = name from rfl, M.bind_some_ok (hfr st), hnx]
            rfl
          · simp only [buildNextElement]
            rw [M.bind_some_ok (hfr st), hnx]
            rfl
      · have hw : cb <+: u → copies ca k ++ cb <+: copies ca k ++ u := (List.prefix_append_right_inj _).mpr
        rcases hc2 with rfl | rfl
        · refine tot_tokenBlock (P := fun f => ∀ t, f name = some t → (copies ca (k + 1) ++ u).length ≤ t.length) hch hs hw ?_
          rw [show 7 * k + 6 + n + 1 = 7 * k + 7 + n by omega]
          exact (ih n _ _ (.inr rfl)).mono (fun st h t ht => by have := h t ht; omega) (fun _ _ h => h)
        · refine tot_recBlock (P := fun f => ∀ t, f name = some t → (copies ca (k + 1) ++ u).length ≤ t.length) hch hs hf hw ?_ ?_
          · intro f h e
            have := h _ e
            omega
          · rw [show 7 * k + 6 + n + 1 = 7 * k + 7 + n by omega]
            refine (ih n _ _ (.inl rfl)).mono ?_ (fun _ _ h => h)
            rintro st ⟨f, _, h2⟩ t ht
            rw [h2] at ht
            simp at ht
            rw [← ht]
    have hpre : ca <+: copies ca (k + 1) ++ u := by rw [copies_succ, List.append_assoc]; exact List.prefix_append _ _
    have hdrop : (copies ca (k + 1) ++ u).drop ca.length = copies ca k ++ u := by
      rw [copies_succ, List.append_assoc, List.drop_left]
    have h1 : ∀ c2, (c2 = .token (right1 name a b) [] .mandatory ∨ c2 = .recursive name [] .mandatory) →
        Tot (fun st => ∀ t, st.recursive name = some t → (copies ca (k + 1) ++ u).length ≤ t.length)
        (elementToToken env (7 * (k + 1) + 7 + n) (.mk name [[pRule a, .container c2], [pRule b]] []) deps (copies ca (k + 1) ++ u) ch)
        (fun t _ => TokenIs (cb <+: u) (copies ca (k + 1) ++ cb) t ∧ True) := by
      intro c2 hc2
      have hl1 : Tot (fun st => ∀ t, st.recursive name = some t → (copies ca (k + 1) ++ u).length ≤ t.length)
          (lineToMatches env (7 * k + 6 + n + 5) [pRule a, .container c2] deps (copies ca (k + 1) ++ u) ch)
          (fun o _ => OutIs (some (ca <+: copies ca (k + 1) ++ u ∧ cb <+: u ∧ True, ca ++ (copies ca k ++ cb ++ []))) o ∧ True) := by
        simp only [lineToMatches, pRule, OutIs]
        refine tot_lineCons (R := fun _ => True) (by simp [blocksValid])
          (tot_constP hch ha ha0 (7 * k + 6 + n + 1) deps _ ch ch
            (fun f => ∀ t, f name = some t → (copies ca (k + 1) ++ u).length ≤ t.length)) id (fun _ _ _ => trivial) ?_
        intro _ acc hacc hv
        rw [hdrop]
        exact tot_lineCons (R := fun _ => True) hv (hrest c2 hc2 _ _) (List.prefix_append_right_inj _).mpr (fun _ _ _ => trivial)
          (fun _ acc h1 h2 => tot_lineNil h1 h2)
      rw [show 7 * (k + 1) + 7 + n = 7 * k + 6 + n + 5 + 3 by omega]
      refine (tot_element (n := 7 * k + 6 + n + 5) (ls := [[pRule a, .container c2], [pRule b]]) (ok := cb <+: u)
        (w := copies ca (k + 1) ++ cb)
        (.cons hl1 (.cons (tot_constLine hch hb hb0 (7 * k + 6 + n + 1) deps (copies ca (k + 1) ++ u) ch (fun _ => True)) .nil))
        hname ?_ ?_ ?_).mono (fun _ h => h) (fun _ _ h => ⟨h.1, trivial⟩)
      · have := copies_not_prefix (u := u) hb0 hab hba k
        simp only [List.mem_cons, Option.some.injEq, Prod.mk.injEq, List.not_mem_nil, or_false]
        constructor
        · intro h; exact ⟨_, _, .inl ⟨rfl, rfl⟩, hpre, h, trivial⟩
        · rintro ⟨p, w, ⟨rfl, _⟩ | ⟨rfl, _⟩, hp⟩
          · exact hp.2.1
          · exact absurd hp.1 this
      · simp; rintro p w (⟨h, rfl⟩ | ⟨h, rfl⟩)
        · simp [ha0]
        · simp [hb0]
      · have := copies_not_prefix (u := u) hb0 hab hba k
        simp; rintro p w (⟨h, rfl⟩ | ⟨h, rfl⟩)
        · intro _ _; simp [copies_succ]
        · intro hp; exact absurd (h.mp hp) this
    rcases he with rfl | rfl
    · exact h1 _ (.inl rfl)
    · exact h1 _ (.inr rfl)

end

end Verif.Lexer
