import Verif.Lemmas.BaseMeaning

/-! # Possible readings: runs of the events are constructed -/

namespace Verif.Base
open Verif.Patterns Verif.Lexer

variable {cfg : Cfg} {k : Kind} {r : Root} {α : Type}

theorem scan_mem {name : Str} {ns : List Node} {n : Node} {f : Found} (hn : n ∈ ns) (h : NodeScan name n (.ok (some f))) :
    NodesScan name ns (.ok (some f)) := by
  obtain ⟨a, b, rfl⟩ := List.append_of_mem hn
  exact .range (order := n :: (a ++ b)) List.perm_middle.symm (.found h)

/-- A node of a name which `Scan` may find: in the root, or in the first part of another node. -/
inductive Sees (name : Str) : Root → Node → Prop where
  | own {r : Root} {n : Node} : n ∈ r.nodes → n.name = name → Sees name r n
  | sub {r u : Root} {m n : Node} {c : RContainer} {cs : List RContainer} : m ∈ r.nodes → m.name ≠ name → m.containers = c :: cs →
      c.name = m.name → c.root = some u → Sees name u n → Sees name r n

theorem Sees.scan {name : Str} {r : Root} {n : Node} (h : Sees name r n) : NodesScan name r.nodes (.ok (some (.node n))) := by
  induction h with
  | own h1 h2 => exact scan_mem h1 (.self h2)
  | sub h1 h2 h3 h4 h5 _ ih =>
    refine scan_mem h1 (.sub h2 ?_)
    rw [h3]
    exact .found (.sub (h4 ▸ h2) h5 ih)

/-- The event of a conforming root, called by its name. -/
theorem events_of (h : Conf cfg k r) {v : V} (hx : ExecuteRun (baseEvents cfg) r (.ok [v])) :
    EventsRun (baseEvents cfg) k.name r (.ok (none, v)) := by
  obtain ⟨hy, hg⟩ := (exec_iff h _).mp hx
  refine .some (get_evOf cfg k) ?_
  rcases hy with hy | hy
  · rw [← (good_plain hg).1]; exact .ok hy
  · exact .ok (v := .result [v]) hy

theorem containers_of {k' : Kind} {us : List Root} {vs : List V} {cs : List RContainer} (hc : cs.map RContainer.root = us.map some)
    (h : List.Forall₂ (fun u v => Conf cfg k' u ∧ ExecuteRun (baseEvents cfg) u (.ok [v])) us vs) :
    ContainersRun (baseEvents cfg) k'.name cs (.ok vs) := by
  induction h generalizing cs with
  | nil =>
    have : cs = [] := by simpa using hc
    subst this
    exact .nil
  | cons h1 _ ih =>
    match cs, hc with
    | c :: cs, hc =>
      simp only [List.map_cons, List.cons.injEq] at hc
      exact .cons (.root hc.1 (events_of h1.1 h1.2)) (ih hc.2)

theorem trigger_sees {k' : Kind} {n : Node} (hs : Sees k'.name r n) {us : List Root} {vs : List V} (hn : vs ≠ [])
    (hc : n.containers.map RContainer.root = us.map some)
    (h : List.Forall₂ (fun u v => Conf cfg k' u ∧ ExecuteRun (baseEvents cfg) u (.ok [v])) us vs) :
    TriggerRun (baseEvents cfg) k'.name r (.ok vs) := by
  rw [← resultNow_list hn]
  exact .node hs.scan (containers_of hc h)

/-- A part of a name which `Scan` may find, and its reading. -/
def MayRead (cfg : Cfg) (k' : Kind) (r : Root) (v : V) : Prop :=
  ∃ n u c, Sees k'.name r n ∧ n.containers = [c] ∧ c.root = some u ∧ Conf cfg k' u ∧ ExecuteRun (baseEvents cfg) u (.ok [v])

theorem call_may {k' : Kind} {v : V} (h : MayRead cfg k' r v) {p : List V → P} {o : Out V} (hp : ProgRun (baseEvents cfg) (p [v]) o) :
    ProgRun (baseEvents cfg) (call k'.name r p) o := by
  obtain ⟨n, u, c, h1, h2, h3, h4, h5⟩ := h
  exact .trigger (trigger_sees h1 (us := [u]) (vs := [v]) (by simp) (by simp [h2, h3]) (.cons ⟨h4, h5⟩ .nil)) (by simp) hp

theorem need_may {k' : Kind} {v : V} (h : MayRead cfg k' r v) {f : V → Option α} {a : α} (hf : f v = some a) {p : α → P} {o : Out V}
    (hp : ProgRun (baseEvents cfg) (p a) o) : ProgRun (baseEvents cfg) (need k'.name r f p) o := by
  refine call_may h ?_
  simpa [assertFirst, assert, hf, step] using hp

theorem opt_may {k' : Kind} (he : r.exists k'.name = true) {v : V} (h : MayRead cfg k' r v) {f : V → Option α} {a : α} (hf : f v = some a)
    {p : Option α → P} {o : Out V} (hp : ProgRun (baseEvents cfg) (p (some a)) o) : ProgRun (baseEvents cfg) (opt k'.name r f p) o := by
  rw [opt, if_pos he]
  exact need_may h hf hp

theorem opt_none {name : Str} (he : r.exists name = false) {f : V → Option α} {p : Option α → P} {o : Out V}
    (hp : ProgRun (baseEvents cfg) (p none) o) : ProgRun (baseEvents cfg) (opt name r f p) o := by
  rwa [opt, if_neg (by simp [he])]

/-- What the event returns is a reading of the root. -/
theorem exec_of (h : Conf cfg k r) {v : V} (hp : ProgRun (baseEvents cfg) (evOf cfg k r) (.ok v)) (hv : ∀ l, v ≠ .result l) :
    ExecuteRun (baseEvents cfg) r (.ok [v]) :=
  (exec_iff h v).mpr ⟨.inl hp, yields_good h (.inl hp) hv⟩

theorem exec_of_result (h : Conf cfg k r) {v : V} (hp : ProgRun (baseEvents cfg) (evOf cfg k r) (.ok (.result [v]))) (hv : ∀ l, v ≠ .result l) :
    ExecuteRun (baseEvents cfg) r (.ok [v]) :=
  (exec_iff h v).mpr ⟨.inr hp, yields_good h (.inr hp) hv⟩

/-- The token of a part of a conforming root. -/
theorem part_kind (h : Conf cfg k r) {k' : Kind} {n : Node} (hn : n ∈ r.nodes) (hname : n.name = k'.name) :
    ∃ line card, Line cfg k r line ∧ (Sym.tok k', card) ∈ line := by
  obtain ⟨line, hl⟩ := h.line
  obtain ⟨_, ⟨s, card⟩, hp, hp2, _⟩ := hl.tokNode hn hname
  cases s with
  | rule s => exact absurd (hp2.symm.trans hname) (rule_ne_kind hl.mem hp)
  | tok k3 =>
    have : k3 = k' := name_inj (hp2.symm.trans hname)
    subst this
    exact ⟨line, card, hl, hp⟩

theorem part_conf (h : Conf cfg k r) {k' : Kind} {u : Root} (hu : Child r k'.name u) : Conf cfg k' u := by
  obtain ⟨n, hn, h1, c, hc, h2⟩ := hu
  obtain ⟨line, card, hl, hp⟩ := part_kind h hn h1
  exact hl.conf k' card hp n hn h1 c (by simp [hc]) u h2

theorem parts_conf (h : Conf cfg k r) {k' : Kind} {us : List Root} (hu : Children r k'.name us) : ∀ u ∈ us, Conf cfg k' u := by
  obtain ⟨n, hn, h1, hc⟩ := hu
  obtain ⟨line, card, hl, hp⟩ := part_kind h hn h1
  intro u hu
  have : some u ∈ n.containers.map RContainer.root := by rw [hc]; exact List.mem_map_of_mem hu
  obtain ⟨c, h2, h3⟩ := List.mem_map.mp this
  exact hl.conf k' card hp n hn h1 c h2 u h3

theorem may_own (k' : Kind) (h : Conf cfg k r) {u : Root} (hu : Child r k'.name u) {v : V} (hx : ExecuteRun (baseEvents cfg) u (.ok [v])) :
    MayRead cfg k' r v := by
  have hconf := part_conf h hu
  obtain ⟨n, hn, h1, c, hc, h2⟩ := hu
  exact ⟨n, u, c, .own hn h1, hc, h2, hconf, hx⟩

theorem may_sub (h : Conf cfg k r) {k' : Kind} {name : Str} {u : Root} {us : List Root} (hu : Children r name (u :: us)) (hne : name ≠ k'.name) {v : V}
    (hx : MayRead cfg k' u v) : MayRead cfg k' r v := by
  obtain ⟨m, hm, h1, hc⟩ := hu
  obtain ⟨line, hl⟩ := h.line
  obtain ⟨n, w, d, h2, h3, h4, h5⟩ := hx
  match hcs : m.containers, hc with
  | c :: cs, hc =>
    simp only [List.map_cons, List.cons.injEq] at hc
    exact ⟨n, w, d, .sub hm (h1 ▸ hne) hcs (hl.containers m hm c (by simp [hcs])).1 hc.1 h2, h3, h4, h5⟩

theorem child_children {name : Str} {u : Root} (h : Child r name u) : Children r name [u] := by
  obtain ⟨n, hn, h1, c, hc, h2⟩ := h
  exact ⟨n, hn, h1, by simp [hc, h2]⟩

theorem children_exists {name : Str} {us : List Root} (h : Children r name us) : r.exists name = true := by
  obtain ⟨n, hn, h1, _⟩ := h
  exact (exists_iff r name).mpr ⟨n, hn, h1⟩

theorem assertAll_of {f : V → Option α} {vs : List V} {l : List α} (h : List.Forall₂ (fun v a => f v = some a) vs l) : assertAll f vs = .ok l := by
  induction h with
  | nil => rfl
  | cons h1 _ ih => simp [assertAll, assert, h1, ih, bind, Out.bind, pure]

/-- A list with commas, read from a first value and the values after the commas. -/
theorem comma_may (h : Conf cfg k r) {item comma : Kind} {f : V → Option α} {v : V} {a : α} {us : List Root} {vs : List V} {l : List α}
    (h1 : MayRead cfg item r v) (h2 : f v = some a) (h3 : Children r comma.name us) (h4 : us ≠ [])
    (h5 : List.Forall₂ (fun u v => ExecuteRun (baseEvents cfg) u (.ok [v])) us vs) (h6 : List.Forall₂ (fun v a => f v = some a) vs l)
    {p : List α → P} {o : Out V} (hp : ProgRun (baseEvents cfg) (p (a :: l)) o) :
    ProgRun (baseEvents cfg) (commaList item.name comma.name f r p) o := by
  refine need_may h1 h2 ?_
  rw [if_pos (children_exists h3)]
  have hconf := parts_conf h h3
  obtain ⟨n, hn, h7, h8⟩ := h3
  have h9 : List.Forall₂ (fun u v => Conf cfg comma u ∧ ExecuteRun (baseEvents cfg) u (.ok [v])) us vs := by
    clear h8 h4 h6
    induction h5 with
    | nil => exact .nil
    | cons h _ ih => exact .cons ⟨hconf _ (by simp), h⟩ (ih fun u hu => hconf u (by simp [hu]))
  have h10 : vs ≠ [] := forall₂_ne_nil h5 h4
  refine .trigger (trigger_sees (.own hn h7) h10 h8 h9) (by simp) ?_
  simpa [step, assertAll_of h6] using hp

theorem pass_may {k' : Kind} {v : V} (h : MayRead cfg k' r v) : ProgRun (baseEvents cfg) (pass k'.name r) (.ok (.result [v])) :=
  call_may h ((run_done _ _).mpr rfl)

/-- Every conforming root has a reading. -/
theorem reading (h : Conf cfg k r) : ∃ v, ExecuteRun (baseEvents cfg) r (.ok [v]) ∧ Good k v := by
  obtain ⟨_, x, he⟩ := calls_end (ev := baseEvents cfg) (fun name l hl e he u => by
    obtain ⟨k, _, rfl⟩ := get_events cfg name l hl
    simp only [List.mem_cons, List.not_mem_nil, or_false] at he
    subst he
    exact stays cfg k u) r k.name
  obtain ⟨line, hl⟩ := h.line
  obtain ⟨v, rfl, hv, _⟩ := events_conf (delivers cfg k r h) he
  rw [← hl.name] at he
  exact ⟨v, by rw [← (good_plain hv.1).2]; exact .ok he, hv.1⟩

end Verif.Base
