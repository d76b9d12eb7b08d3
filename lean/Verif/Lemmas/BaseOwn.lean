import Verif.Lemmas.BaseParser

/-! # Where the names of the grammar are found -/

namespace Verif.Base
open Verif.Patterns Verif.Lexer

variable {cfg : Cfg} {k : Kind} {r : Root} {line : List (Sym × Card)} {α : Type}

/-- The tokens in the lines of a token. -/
def children (k : Kind) : List Kind := (grammar k).flatMap fun line => line.filterMap fun p =>
  match p.1 with
  | .tok k' => some k'
  | .rule _ => none

def grow (l : List Kind) : List Kind := allKinds.filter fun k => l.contains k || l.any fun k' => (children k').contains k

/-- The tokens below a token, itself included. -/
def below (k : Kind) : List Kind := grow (grow (grow (grow (grow (grow (grow (grow (grow (grow (grow (grow (grow (grow [k])))))))))))))

theorem below_closed : ∀ k ∈ allKinds, k ∈ below k ∧ ∀ k1 ∈ below k, ∀ k2 ∈ children k1, k2 ∈ below k := by decide +kernel

theorem mem_children {k k' : Kind} {card : Card} (hl : line ∈ grammar k) (hp : (Sym.tok k', card) ∈ line) : k' ∈ children k := by
  simp only [children, List.mem_flatMap, List.mem_filterMap]
  exact ⟨line, hl, _, hp, rfl⟩

theorem reach_below {k k' : Kind} (h : Reach k k') : k' ∈ below k := by
  suffices ∀ k0, k ∈ below k0 → k' ∈ below k0 from this k (below_closed k (mem_all k)).1
  induction h with
  | refl => exact fun _ h => h
  | tail h1 h2 _ ih => exact fun k0 h0 => ih k0 ((below_closed k0 (mem_all k0)).2 _ h0 _ (mem_children h1 h2))

/-- A token of a line which is not below the other tokens of the line. -/
def own (k' : Kind) (line : List (Sym × Card)) : Bool := line.all fun p =>
  match p.1 with
  | .tok k1 => k1 = k' || (below k1).all fun k2 => !(children k2).contains k'
  | .rule _ => true

theorem own_found (h : Line cfg k r line) {k' : Kind} (ho : own k' line = true) (n : Node) (hn : n.name = k'.name)
    (hat : FoundAt cfg r line k'.name n) : n ∈ r.nodes := by
  rcases hat.2 with hat | ⟨k1, card, k2, u, line2, h1, h2, h3, h4, h5, h6⟩
  · exact hat
  · exfalso
    simp only [own, List.all_eq_true] at ho
    have := ho _ h1
    simp only [Bool.or_eq_true, decide_eq_true_eq, List.all_eq_true] at this
    rcases this with rfl | this
    · exact h2 rfl
    · have h7 := this k2 (reach_below h3)
      obtain ⟨-, ⟨s, card2⟩, h8, h9, -⟩ := h4.tokNode h6 hn
      cases s with
      | rule s => exact rule_ne_kind h4.mem h8 (h9.symm.trans hn)
      | tok k3 =>
        have : k3 = k' := name_inj (h9.symm.trans hn)
        subst this
        have h10 := mem_children h4.mem h8
        simp only [Bool.not_eq_true', ] at h7
        simp_all

theorem allInside (cfg : Cfg) (r : Root) : AllInside cfg r := fun k u _ hc => delivers cfg k u hc

/-- Execution of a conforming root. -/
theorem exec_iff (h : Conf cfg k r) (v : V) : ExecuteRun (baseEvents cfg) r (.ok [v]) ↔ Yields cfg k r v ∧ Good k v := by
  have hname : r.name = k.name := by obtain ⟨l, h⟩ := h.line; exact h.name
  constructor
  · intro hx
    generalize hy : Out.ok [v] = y at hx
    cases hx with
    | err => simp at hy
    | panic => simp at hy
    | ok he =>
      rw [hname] at he
      obtain ⟨w, h, hw, hw2⟩ := events_conf (delivers cfg k r h) he
      simp only [Out.ok.injEq] at h
      subst h
      rw [(good_plain hw.1).2] at hy
      simp only [Out.ok.injEq, List.cons.injEq, and_true] at hy
      subst hy
      exact ⟨hw2, hw.1⟩
  · rintro ⟨hy, hg⟩
    rw [← (good_plain hg).2]
    have he : EventsRun (baseEvents cfg) r.name r (.ok (none, v)) := by
      rw [hname]
      refine .some (get_evOf cfg k) ?_
      rcases hy with hy | hy
      · rw [← (good_plain hg).1]; exact .ok hy
      · exact .ok (v := .result [v]) hy
    exact .ok he

theorem yields_good (h : Conf cfg k r) {v : V} (hy : Yields cfg k r v) (hv : ∀ l, v ≠ .result l) : Good k v := by
  rcases hy with hy | hy
  · obtain ⟨w, hw, h | h⟩ := delivers cfg k r h _ hy
    · simp only [Out.ok.injEq] at h; exact h ▸ hw.1
    · simp only [Out.ok.injEq] at h; exact absurd h (hv _)
  · obtain ⟨w, hw, h | h⟩ := delivers cfg k r h _ hy
    · simp only [Out.ok.injEq] at h; subst h
      exact absurd (good_plain hw.1).1 (by simpa [unwrap] using hv _)
    · simp only [Out.ok.injEq, Val.result.injEq, List.cons.injEq, and_true] at h; exact h ▸ hw.1

/-- `Trigger` with a token of the line which is not below the others, inverted. -/
theorem run_call_own (h : Line cfg k r line) {k' : Kind}
    (ho : ∀ n, n.name = k'.name → FoundAt cfg r line k'.name n → n ∈ r.nodes) (he : r.exists k'.name = true)
    {p : List V → P} {o : Out V} (hr : ProgRun (baseEvents cfg) (call k'.name r p) o) :
    ∃ n ∈ r.nodes, n.name = k'.name ∧ ∃ l, l ≠ [] ∧ List.Forall₂ (TokValue cfg k') n.containers l ∧ ProgRun (baseEvents cfg) (p l) o := by
  cases hr with
  | triggerPanic hx => obtain ⟨n, l, h, _⟩ := trigger_tok h (allInside cfg r) he hx; simp at h
  | trigger hx _ hr =>
    obtain ⟨n, l, rfl, h1, h2, h3, h4, _⟩ := trigger_tok h (allInside cfg r) he hx
    exact ⟨n, ho n h2 h3, h2, l, h1, h4, hr⟩

theorem node_single (h : Line cfg k r line) {k' : Kind} (hs : singleKind k' = true) {n : Node} (hn : n ∈ r.nodes)
    (hname : n.name = k'.name) : ∃ c, n.containers = [c] := by
  obtain ⟨h1, ⟨s, card⟩, h2, h3, h4⟩ := h.tokNode hn hname
  cases s with
  | rule s => exact absurd (h3.symm.trans hname) (rule_ne_kind h.mem h2)
  | tok k3 =>
    have : k3 = k' := name_inj (h3.symm.trans hname)
    subst this
    have := single_card hs h.mem h2
    have hlen : n.containers.length ≤ 1 := by cases card <;> simp_all [Card.single, Card.Allows]
    match hc : n.containers, h1, hlen with
    | [c], _, _ => exact ⟨c, rfl⟩

/-- The values of a `Trigger` with a token, inverted without assumption about the place. -/
theorem run_need_any (h : Line cfg k r line) {k' : Kind} (he : r.exists k'.name = true) {f : V → Option α} {p : α → P} {o : Out V}
    (hr : ProgRun (baseEvents cfg) (need k'.name r f p) o) :
    ∃ v, Good k' v ∧ ProgRun (baseEvents cfg) (step (assert f v) p) o := by
  cases hr with
  | triggerPanic hx => obtain ⟨n, l, h, _⟩ := trigger_tok h (allInside cfg r) he hx; simp at h
  | trigger hx _ hr =>
    obtain ⟨n, l, rfl, h1, h2, h3, h4, _⟩ := trigger_tok h (allInside cfg r) he hx
    generalize n.containers = cs at h4
    cases h4 with
    | nil => exact absurd rfl h1
    | cons h5 _ => obtain ⟨u, _, _, hg, _⟩ := h5; exact ⟨_, hg.1, hr⟩

theorem run_need_own (h : Line cfg k r line) {k' : Kind}
    (ho : ∀ n, n.name = k'.name → FoundAt cfg r line k'.name n → n ∈ r.nodes) (hs : singleKind k' = true)
    (he : r.exists k'.name = true) {f : V → Option α} {p : α → P} {o : Out V}
    (hr : ProgRun (baseEvents cfg) (need k'.name r f p) o) :
    ∃ u v, Child r k'.name u ∧ Conf cfg k' u ∧ ExecuteRun (baseEvents cfg) u (.ok [v]) ∧ Good k' v ∧
      ProgRun (baseEvents cfg) (step (assert f v) p) o := by
  obtain ⟨n, hn, hname, l, hl, hf, hr⟩ := run_call_own h ho he hr
  obtain ⟨c, hc⟩ := node_single h hs hn hname
  rw [hc] at hf
  cases hf with
  | cons h1 h2 =>
    cases h2
    obtain ⟨u, hu, hconf, hg, hy⟩ := h1
    exact ⟨u, _, ⟨n, hn, hname, c, hc, hu⟩, hconf, (exec_iff hconf _).mpr ⟨hy, hg.1⟩, hg.1, hr⟩

theorem run_opt_own (h : Line cfg k r line) {k' : Kind}
    (ho : ∀ n, n.name = k'.name → FoundAt cfg r line k'.name n → n ∈ r.nodes) (hs : singleKind k' = true)
    {f : V → Option α} {p : Option α → P} {o : Out V} (hr : ProgRun (baseEvents cfg) (opt k'.name r f p) o) :
    (r.exists k'.name = false ∧ ProgRun (baseEvents cfg) (p none) o) ∨
    ∃ u v, Child r k'.name u ∧ Conf cfg k' u ∧ ExecuteRun (baseEvents cfg) u (.ok [v]) ∧ Good k' v ∧
      ProgRun (baseEvents cfg) (step (assert f v) fun a => p (some a)) o := by
  cases he : r.exists k'.name with
  | false => rw [opt, if_neg (by simp [he])] at hr; exact .inl ⟨rfl, hr⟩
  | true => rw [opt, if_pos he] at hr; exact .inr (run_need_own h ho hs he hr)

/-- An event which returns what `Trigger` returned. -/
theorem run_pass_own (h : Line cfg k r line) {k' : Kind}
    (ho : ∀ n, n.name = k'.name → FoundAt cfg r line k'.name n → n ∈ r.nodes) (hs : singleKind k' = true)
    (he : r.exists k'.name = true) {o : Out V} (hr : ProgRun (baseEvents cfg) (pass k'.name r) o) :
    ∃ u v, Child r k'.name u ∧ Conf cfg k' u ∧ ExecuteRun (baseEvents cfg) u (.ok [v]) ∧ Good k' v ∧ o = .ok (.result [v]) := by
  obtain ⟨n, hn, hname, l, hl, hf, hr⟩ := run_call_own h ho he hr
  obtain ⟨c, hc⟩ := node_single h hs hn hname
  rw [hc] at hf
  cases hf with
  | cons h1 h2 =>
    cases h2
    obtain ⟨u, hu, hconf, hg, hy⟩ := h1
    exact ⟨u, _, ⟨n, hn, hname, c, hc, hu⟩, hconf, (exec_iff hconf _).mpr ⟨hy, hg.1⟩, hg.1, (run_done _ _).mp hr⟩

end Verif.Base
