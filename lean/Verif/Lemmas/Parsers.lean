import Verif.Spec.Parsers
import Verif.Lemmas.Scan

/-! # Lemmas about the parsers -/

namespace Verif.Lexer
open Verif.Patterns

variable {α : Type}

variable {ev : Events α}

theorem eventsLoop_ok {l : List (Event α)} {r : Root} {x : Option (List (Val α)) × Val α} :
    EventsLoop ev l r (.ok x) ↔ ∃ v, FirstGood ev l r v ∧ x = unwrap v := by
  constructor
  · intro h
    generalize hy : Out.ok x = y at h
    induction l generalizing y with
    | nil => cases h; simp at hy
    | cons e es ih =>
      cases h with
      | fail h1 h2 =>
        obtain ⟨v, ⟨pre, e', post, rfl, h3, h4⟩, h5⟩ := ih _ hy h2
        refine ⟨v, ⟨e :: pre, e', post, rfl, ?_, h4⟩, h5⟩
        intro p hp
        rcases List.mem_cons.mp hp with rfl | hp
        · exact h1
        · exact h3 p hp
      | panic h => simp at hy
      | ok h =>
        simp at hy
        exact ⟨_, ⟨[], e, es, rfl, by simp, h⟩, hy⟩
  · rintro ⟨v, ⟨pre, e, post, rfl, h1, h2⟩, rfl⟩
    induction pre with
    | nil => exact .ok h2
    | cons p pre ih => exact .fail (h1 p (by simp)) (ih (fun q hq => h1 q (by simp [hq])))

theorem eventsLoop_err {l : List (Event α)} {r : Root} : EventsLoop ev l r .err ↔ ∀ e ∈ l, ProgRun ev (e r) .err := by
  constructor
  · intro h
    generalize hy : Out.err = y at h
    induction l generalizing y with
    | nil => simp
    | cons e es ih =>
      cases h with
      | fail h1 h2 =>
        intro p hp
        rcases List.mem_cons.mp hp with rfl | hp
        · exact h1
        · exact ih _ hy h2 p hp
      | panic h => simp at hy
      | ok h => simp at hy
  · intro h
    induction l with
    | nil => exact .none
    | cons e es ih => exact .fail (h e (by simp)) (ih (fun q hq => h q (by simp [hq])))

theorem eventsRun_ok {name : Str} {r : Root} {x : Option (List (Val α)) × Val α} :
    EventsRun ev name r (.ok x) ↔ ∃ l v, ev.get name = some l ∧ FirstGood ev l r v ∧ x = unwrap v := by
  constructor
  · intro h
    generalize hy : Out.ok x = y at h
    cases h with
    | none => simp at hy
    | some h1 h2 =>
      subst hy
      obtain ⟨v, h3, h4⟩ := eventsLoop_ok.mp h2
      exact ⟨_, v, h1, h3, h4⟩
  · rintro ⟨l, v, h1, h2, h3⟩
    exact .some h1 (eventsLoop_ok.mpr ⟨v, h2, h3⟩)

theorem eventsRun_err {name : Str} {r : Root} :
    EventsRun ev name r .err ↔ ∀ l, ev.get name = some l → ∀ e ∈ l, ProgRun ev (e r) .err := by
  constructor
  · intro h
    generalize hy : Out.err = y at h
    cases h with
    | none h => intro l hl; rw [h] at hl; simp at hl
    | some h1 h2 =>
      subst hy
      intro l hl
      rw [h1] at hl; simp at hl; subst hl
      exact eventsLoop_err.mp h2
  · intro h
    cases hg : ev.get name with
    | none => exact .none hg
    | some l => exact .some hg (eventsLoop_err.mpr (h l hg))

theorem resultNow_unwrap {v : Val α} {res : List (Val α)} : resultNow (unwrap v).2 (unwrap v).1 = .ok res ↔ ResultOf v res := by
  constructor
  · intro h
    match v with
    | .nil => simp [unwrap, resultNow] at h
    | .text s => simp [unwrap, resultNow] at h; subst h; exact .plain (by simp) (by simp)
    | .list l => simp [unwrap, resultNow] at h; subst h; exact .plain (by simp) (by simp)
    | .other n => simp [unwrap, resultNow] at h; subst h; exact .plain (by simp) (by simp)
    | .result [] => simp [unwrap, resultNow] at h
    | .result [w] =>
      cases w <;> simp [unwrap, resultNow] at h
      all_goals (subst h; exact .single (by simp))
    | .result (a :: b :: l) => simp [unwrap, resultNow] at h; subst h; exact .many
  · intro h
    cases h with
    | plain h1 h2 =>
      cases v with
      | nil => exact absurd rfl h1
      | result l => exact absurd rfl (h2 l)
      | text _ => rfl
      | list _ => rfl
      | other _ => rfl
    | @single w h1 => cases w <;> first | rfl | exact absurd rfl h1
    | many => rfl

theorem resultNow_unwrap_err {v : Val α} : resultNow (unwrap v).2 (unwrap v).1 = .err ↔ LeadsToNothing v := by
  unfold LeadsToNothing
  match v with
  | .nil => simp [unwrap, resultNow]
  | .text s => simp [unwrap, resultNow]
  | .list l => simp [unwrap, resultNow]
  | .other n => simp [unwrap, resultNow]
  | .result [] => simp [unwrap, resultNow]
  | .result [w] => cases w <;> simp [unwrap, resultNow]
  | .result (a :: b :: l) => simp [unwrap, resultNow]

theorem resultNow_ne_panic (v : Val α) (l : Option (List (Val α))) : resultNow v l ≠ .panic := by
  rcases v with _ | _ | _ | _ | _ <;> rcases l with _ | _ | ⟨_, _⟩ <;> simp [resultNow]

theorem containerRun_ok {name : Str} {c : RContainer} {v : Val α} :
    (∃ x, ContainerRun ev name c (.ok x) ∧ listed x = v) ↔ ContainerValue ev name c v := by
  constructor
  · rintro ⟨x, h, rfl⟩
    generalize hy : Out.ok x = y at h
    cases h with
    | content h => simp at hy; subst hy; exact .text h
    | root h1 h2 =>
      subst hy
      obtain ⟨l, v, h3, h4, rfl⟩ := eventsRun_ok.mp h2
      match v with
      | .nil => exact .one h1 h3 h4 (by simp [listed, unwrap])
      | .text s => exact .one h1 h3 h4 (by simp [listed, unwrap])
      | .list l => exact .one h1 h3 h4 (by simp [listed, unwrap])
      | .other n => exact .one h1 h3 h4 (by simp [listed, unwrap])
      | .result [] => exact .empty h1 h3 h4
      | .result [w] => exact .single h1 h3 h4
      | .result (a :: b :: l) => exact .many h1 h3 h4
  · intro h
    cases h with
    | text h => exact ⟨_, .content h, rfl⟩
    | one h1 h2 h3 h4 =>
      refine ⟨unwrap v, .root h1 (eventsRun_ok.mpr ⟨_, _, h2, h3, rfl⟩), ?_⟩
      cases v with
      | result l => exact absurd rfl (h4 l)
      | nil => rfl
      | text _ => rfl
      | list _ => rfl
      | other _ => rfl
    | single h1 h2 h3 => exact ⟨_, .root h1 (eventsRun_ok.mpr ⟨_, _, h2, h3, rfl⟩), rfl⟩
    | many h1 h2 h3 => exact ⟨_, .root h1 (eventsRun_ok.mpr ⟨_, _, h2, h3, rfl⟩), rfl⟩
    | empty h1 h2 h3 => exact ⟨_, .root h1 (eventsRun_ok.mpr ⟨_, _, h2, h3, rfl⟩), rfl⟩

theorem containersRun_ok {name : Str} {cs : List RContainer} {l : List (Val α)} :
    ContainersRun ev name cs (.ok l) ↔ List.Forall₂ (ContainerValue ev name) cs l := by
  constructor
  · intro h
    generalize hy : Out.ok l = y at h
    induction cs generalizing y l with
    | nil => cases h; simp at hy; subst hy; exact .nil
    | cons c cs ih =>
      cases h with
      | cons h1 h2 => simp at hy; subst hy; exact .cons (containerRun_ok.mp ⟨_, h1, rfl⟩) (ih _ rfl h2)
      | err => simp at hy
      | panic => simp at hy
      | consErr => simp at hy
      | consPanic => simp at hy
  · intro h
    induction h with
    | nil => exact .nil
    | cons h1 _ ih =>
      obtain ⟨x, h2, rfl⟩ := containerRun_ok.mpr h1
      exact .cons h2 ih

/-! ## Ends -/

mutual
theorem sizeOf_reachNodes {ns : List Node} {f : Found} {c : RContainer} (hf : f = .container c) :
    ReachNodes ns f → sizeOf c < sizeOf ns
  | .mem hm h => by
    have := sizeOf_reachNode hf h
    have := List.sizeOf_lt_of_mem hm
    omega
theorem sizeOf_reachNode {n : Node} {f : Found} {c : RContainer} (hf : f = .container c) : ReachNode n f → sizeOf c < sizeOf n
  | .self n => by simp at hf
  | .sub (c := c') hm h => by
    have h1 := sizeOf_reachContainer hf h
    obtain ⟨name, l⟩ := n
    have := List.sizeOf_lt_of_mem hm
    simp [Node.containers] at this ⊢
    omega
theorem sizeOf_reachContainer {d : RContainer} {f : Found} {c : RContainer} (hf : f = .container c) :
    ReachContainer d f → sizeOf c ≤ sizeOf d
  | .self _ => by simp at hf; subst hf; omega
  | .sub (r := r) hr h => by
    have h1 := sizeOf_reachNodes hf h
    obtain ⟨x, y, z⟩ := d
    simp [RContainer.root] at hr
    subst hr
    obtain ⟨a, b, ns⟩ := r
    simp [Root.nodes] at h1 ⊢
    omega
end

theorem sizeOf_inside {r u : Root} (h : Inside r u) : sizeOf u < sizeOf r := by
  obtain ⟨c, h1, h2⟩ := h
  have := sizeOf_reachNodes rfl h1
  obtain ⟨x, y, z⟩ := c
  simp [RContainer.root] at h2
  subst h2
  obtain ⟨a, b, ns⟩ := r
  simp [Root.nodes] at this ⊢
  omega

/-! Everything that is found in the nodes of a root is a node or a container, reached from the nodes. -/
mutual
theorem reachNodes_sub {ns : List Node} {n : Node} {c : RContainer} (hc : c ∈ n.containers) {f : Found} (hf : f = .node n) :
    ReachNodes ns f → ReachNodes ns (.container c)
  | .mem hm h => .mem hm (reachNode_sub hc hf h)
theorem reachNode_sub {m : Node} {n : Node} {c : RContainer} (hc : c ∈ n.containers) {f : Found} (hf : f = .node n) :
    ReachNode m f → ReachNode m (.container c)
  | .self m => by simp at hf; subst hf; exact .sub hc (.self c)
  | .sub hm h => .sub hm (reachContainer_sub hc hf h)
theorem reachContainer_sub {d : RContainer} {n : Node} {c : RContainer} (hc : c ∈ n.containers) {f : Found} (hf : f = .node n) :
    ReachContainer d f → ReachContainer d (.container c)
  | .self _ => by simp at hf
  | .sub hr h => .sub hr (reachNodes_sub hc hf h)
end

mutual
theorem reachNodes_root {ns : List Node} {r : Root} {f : Found} (hf : f = .root r) : ReachNodes ns f → False
  | .mem _ h => reachNode_root hf h
theorem reachNode_root {n : Node} {r : Root} {f : Found} (hf : f = .root r) : ReachNode n f → False
  | .self m => by simp at hf
  | .sub _ h => reachContainer_root hf h
theorem reachContainer_root {d : RContainer} {r : Root} {f : Found} (hf : f = .root r) : ReachContainer d f → False
  | .self _ => by simp at hf
  | .sub _ h => reachNodes_root hf h
end

theorem rootOf_inside {name : Str} {r u : Root} {f : Found} (h : NodesScan name r.nodes (.ok (some f))) (hu : RootOf f u) :
    Inside r u := by
  have := h.scanOk.1.1
  cases hu with
  | root => exact (reachNodes_root rfl this).elim
  | node hm hr => exact ⟨_, reachNodes_sub hm rfl this, hr⟩
  | container hr => exact ⟨_, this, hr⟩

theorem nodesScan_total (name : Str) (r : Root) : ∃ x, NodesScan name r.nodes x ∧ x ≠ .panic := by
  obtain ⟨x, h, h'⟩ := nodesLoop_total name _ r.nodes (Nat.lt_succ_self _)
  exact ⟨x, .range (.refl _) h, h'⟩

theorem executeRun_of {r : Root} {x : Out (Option (List (Val α)) × Val α)} (h : EventsRun ev r.name r x) : ∃ y, ExecuteRun ev r y := by
  cases x with
  | ok x => exact ⟨_, .ok h⟩
  | err => exact ⟨_, .err h⟩
  | panic => exact ⟨_, .panic h⟩

theorem containerRun_total {name : Str} {c : RContainer} (h : ∀ u, c.root = some u → ∃ x, EventsRun ev name u x) :
    ∃ x, ContainerRun ev name c x := by
  cases hr : c.root with
  | none => exact ⟨_, .content hr⟩
  | some u =>
    obtain ⟨x, hx⟩ := h u hr
    exact ⟨x, .root hr hx⟩

theorem containersRun_total {name : Str} {cs : List RContainer} (h : ∀ c ∈ cs, ∀ u, c.root = some u → ∃ x, EventsRun ev name u x) :
    ∃ x, ContainersRun ev name cs x := by
  induction cs with
  | nil => exact ⟨_, .nil⟩
  | cons c cs ih =>
    obtain ⟨x, hx⟩ := containerRun_total (h c (by simp))
    obtain ⟨y, hy⟩ := ih (fun d hd => h d (by simp [hd]))
    cases x with
    | err => exact ⟨_, .err hx⟩
    | panic => exact ⟨_, .panic hx⟩
    | ok x =>
      cases y with
      | err => exact ⟨_, .consErr hx hy⟩
      | panic => exact ⟨_, .consPanic hx hy⟩
      | ok y => exact ⟨_, .cons hx hy⟩

theorem triggerRun_total {name : Str} {r : Root} (h : ∀ u, Inside r u → ∃ x, EventsRun ev name u x) : ∃ x, TriggerRun ev name r x := by
  obtain ⟨x, hx, hp⟩ := nodesScan_total name r
  have hi := fun f (hf : x = .ok (some f)) u => rootOf_inside (u := u) (hf ▸ hx)
  cases x with
  | panic => exact absurd rfl hp
  | err => exact ⟨_, .err hx⟩
  | ok o =>
    cases o with
    | none => exact ⟨_, .nothing hx⟩
    | some f =>
      cases f with
      | root u =>
        obtain ⟨y, hy⟩ := h u (hi _ rfl u (.root u))
        cases y with
        | ok y => exact ⟨_, .root hx hy⟩
        | err => exact ⟨_, .rootErr hx hy⟩
        | panic => exact ⟨_, .rootPanic hx hy⟩
      | node n =>
        obtain ⟨y, hy⟩ := containersRun_total (ev := ev) (name := name) (cs := n.containers)
          (fun c hc u hu => h u (hi _ rfl u (.node hc hu)))
        cases y with
        | ok y => exact ⟨_, .node hx hy⟩
        | err => exact ⟨_, .nodeErr hx hy⟩
        | panic => exact ⟨_, .nodePanic hx hy⟩
      | container c =>
        obtain ⟨y, hy⟩ := containerRun_total (ev := ev) (name := name) (c := c) (fun u hu => h u (hi _ rfl u (.container hu)))
        cases y with
        | ok y => exact ⟨_, .container hx hy⟩
        | err => exact ⟨_, .containerErr hx hy⟩
        | panic => exact ⟨_, .containerPanic hx hy⟩

theorem calls_end (hev : ∀ name l, ev.get name = some l → ∀ e ∈ l, ∀ r, StaysInside r (e r)) (r : Root) :
    ∀ name, CallEnds ev name r ∧ ∃ x, EventsRun ev name r x := by
  induction hn : sizeOf r using Nat.strongRecOn generalizing r with
  | _ n ih =>
    subst hn
    have hin : ∀ u, Inside r u → ∀ name, CallEnds ev name u ∧ ∃ x, EventsRun ev name u x :=
      fun u hu => ih _ (sizeOf_inside hu) u rfl
    have hin2 : ∀ u, u = r ∨ Inside r u → ∀ v, Inside u v → ∀ name, CallEnds ev name v ∧ ∃ x, EventsRun ev name v x := by
      rintro u (rfl | hu) v hv
      · exact hin v hv
      · exact ih _ (Nat.lt_trans (sizeOf_inside hv) (sizeOf_inside hu)) v rfl
    have hprog : ∀ p, StaysInside r p → ProgEnds ev p ∧ ∃ o, ProgRun ev p o := by
      intro p hp
      induction hp with
      | done o => exact ⟨.done o, o, .done o⟩
      | @execute u k hu hk ihk =>
        obtain ⟨h1, x, h2⟩ := hin u hu u.name
        refine ⟨.execute h1 (fun x _ => (ihk x).1), ?_⟩
        obtain ⟨y, hy⟩ := executeRun_of h2
        by_cases hp : y = .panic
        · subst hp; exact ⟨_, .executePanic hy⟩
        · obtain ⟨o, ho⟩ := (ihk y).2
          exact ⟨o, .execute hy hp ho⟩
      | @trigger name u k hu hk ihk =>
        refine ⟨.trigger (fun f hf v hv => (hin2 u hu v (rootOf_inside hf hv) name).1) (fun x _ => (ihk x).1), ?_⟩
        obtain ⟨y, hy⟩ := triggerRun_total (ev := ev) (name := name) (fun v hv => (hin2 u hu v hv name).2)
        by_cases hp : y = .panic
        · subst hp; exact ⟨_, .triggerPanic hy⟩
        · obtain ⟨o, ho⟩ := (ihk y).2
          exact ⟨o, .trigger hy hp ho⟩
    intro name
    refine ⟨.mk (fun l hl e he => (hprog _ (hev name l hl e he r)).1), ?_⟩
    cases hg : ev.get name with
    | none => exact ⟨_, .none hg⟩
    | some l =>
      have : ∀ l', l' ⊆ l → ∃ x, EventsLoop ev l' r x := by
        intro l' hl'
        induction l' with
        | nil => exact ⟨_, .none⟩
        | cons e es ihl =>
          obtain ⟨o, ho⟩ := (hprog _ (hev name l hg e (hl' (by simp)) r)).2
          cases o with
          | ok v => exact ⟨_, .ok ho⟩
          | panic => exact ⟨_, .panic ho⟩
          | err =>
            obtain ⟨x, hx⟩ := ihl (fun y hy => hl' (by simp [hy]))
            exact ⟨x, .fail ho hx⟩
      obtain ⟨x, hx⟩ := this l (fun _ h => h)
      exact ⟨x, .some hg hx⟩

end Verif.Lexer
