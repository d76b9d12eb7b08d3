import Verif.Model.Parsers

/-! # Running the manager: one of the possible outcomes, by computation -/

namespace Verif.Lexer
open Verif.Patterns

variable {α : Type}

/-! `Scan` with the nodes in the order of `o`. -/

def scanContainer (S : List Node → Option (Out (Option Found))) (name : Str) (c : RContainer) : Option (Out (Option Found)) :=
  if c.name = name then some (.ok (some (.container c)))
  else match c.root with
    | none => some (.ok none)
    | some r => S r.nodes

def scanContainers (S : List Node → Option (Out (Option Found))) (name : Str) : List RContainer → Option (Out (Option Found))
  | [] => some .err
  | c :: cs => match scanContainer S name c with
    | none => none
    | some (.ok (some f)) => some (.ok (some f))
    | some .panic => none
    | some _ => scanContainers S name cs

def scanNode (S : List Node → Option (Out (Option Found))) (name : Str) (n : Node) : Option (Out (Option Found)) :=
  if n.name = name then some (.ok (some (.node n))) else scanContainers S name n.containers

def scanNodes (S : List Node → Option (Out (Option Found))) (name : Str) : List Node → Option (Out (Option Found))
  | [] => some .err
  | n :: ns => match scanNode S name n with
    | none => none
    | some (.ok (some f)) => some (.ok (some f))
    | some .panic => none
    | some _ => scanNodes S name ns

def scanAt (o : List Node → List Node) (name : Str) : Nat → List Node → Option (Out (Option Found))
  | 0, _ => none
  | f + 1, ns => scanNodes (scanAt o name f) name (o ns)

abbrev Part (α : Type) := Option (List (Val α)) × Val α

/-! The manager; `run` executes the events of a name. -/

def executeOf (run : Str → Root → Option (Out (Part α))) (r : Root) : Option (Out (List (Val α))) :=
  match run r.name r with
  | none => none
  | some .err => some .err
  | some .panic => some .panic
  | some (.ok x) => some (resultNow x.2 x.1)

def containerOf (run : Str → Root → Option (Out (Part α))) (name : Str) (c : RContainer) : Option (Out (Part α)) :=
  match c.root with
  | none => some (.ok (none, .text c.content))
  | some r => run name r

def containersOf (run : Str → Root → Option (Out (Part α))) (name : Str) : List RContainer → Option (Out (List (Val α)))
  | [] => some (.ok [])
  | c :: cs => match containerOf run name c with
    | none => none
    | some .err => some .err
    | some .panic => some .panic
    | some (.ok v) => match containersOf run name cs with
      | none => none
      | some .err => some .err
      | some .panic => some .panic
      | some (.ok l) => some (.ok (listed v :: l))

def partOf : Option (Out (Part α)) → Option (Out (List (Val α)))
  | none => none
  | some .err => some .err
  | some .panic => some .panic
  | some (.ok x) => some (resultNow x.2 x.1)

def triggerOf (S : Str → List Node → Option (Out (Option Found))) (run : Str → Root → Option (Out (Part α))) (name : Str) (r : Root) :
    Option (Out (List (Val α))) :=
  match S name r.nodes with
  | none => none
  | some .panic => none
  | some .err => some .err
  | some (.ok none) => some .err
  | some (.ok (some (.root u))) => partOf (run name u)
  | some (.ok (some (.node n))) => match containersOf run name n.containers with
    | none => none
    | some .err => some .err
    | some .panic => some .panic
    | some (.ok l) => some (resultNow .nil (some l))
  | some (.ok (some (.container c))) => partOf (containerOf run name c)

def progOf (E : Root → Option (Out (List (Val α)))) (T : Str → Root → Option (Out (List (Val α)))) : Prog α → Option (Out (Val α))
  | .done o => some o
  | .execute r k => match E r with
    | none => none
    | some .panic => some .panic
    | some x => progOf E T (k x)
  | .trigger name r k => match T name r with
    | none => none
    | some .panic => some .panic
    | some x => progOf E T (k x)

def loopOf (E : Root → Option (Out (List (Val α)))) (T : Str → Root → Option (Out (List (Val α)))) (r : Root) :
    List (Event α) → Option (Out (Part α))
  | [] => some .err
  | e :: es => match progOf E T (e r) with
    | none => none
    | some .err => loopOf E T r es
    | some .panic => some .panic
    | some (.ok v) => some (.ok (unwrap v))

def eventsAt (ev : Events α) (o : List Node → List Node) : Nat → Str → Root → Option (Out (Part α))
  | 0, _, _ => none
  | f + 1, name, r => match ev.get name with
    | none => some .err
    | some l => loopOf (executeOf (eventsAt ev o f)) (triggerOf (fun s => scanAt o s f) (eventsAt ev o f)) r l

/-- One of the runs of `Execute`. -/
def executeAt (ev : Events α) (o : List Node → List Node) (f : Nat) (r : Root) : Option (Out (List (Val α))) := executeOf (eventsAt ev o f) r

/-! Every computed outcome is a possible one. -/

section
variable {o : List Node → List Node} (ho : ∀ l, (o l).Perm l)
include ho

omit ho in
theorem scanContainers_sound {S : List Node → Option (Out (Option Found))} {name : Str} (hS : ∀ ns x, S ns = some x → NodesScan name ns x)
    {cs : List RContainer} {x : Out (Option Found)} (h : scanContainers S name cs = some x) : ContainersLoop name cs x := by
  have hc : ∀ {c : RContainer} {x : Out (Option Found)}, scanContainer S name c = some x → ContainerScan name c x := by
    intro c x h
    unfold scanContainer at h
    by_cases hn : c.name = name
    · rw [if_pos hn] at h; cases h; exact .self hn
    · rw [if_neg hn] at h
      cases hr : c.root with
      | none => rw [hr] at h; cases h; exact .noRoot hn hr
      | some r => rw [hr] at h; exact .sub hn hr (hS _ _ h)
  induction cs with
  | nil => cases h; exact .none
  | cons c cs ih =>
    rw [scanContainers] at h
    cases h1 : scanContainer S name c with
    | none => rw [h1] at h; cases h
    | some y =>
      rw [h1] at h
      cases y with
      | err => exact .next (hc h1) (.inl rfl) (ih h)
      | panic => cases h
      | ok y =>
        cases y with
        | none => exact .next (hc h1) (.inr rfl) (ih h)
        | some f => cases h; exact .found (hc h1)

theorem scanAt_sound {name : Str} (f : Nat) : ∀ ns x, scanAt o name f ns = some x → NodesScan name ns x := by
  induction f with
  | zero => intro ns x h; cases h
  | succ f ih =>
    intro ns x h
    have hn : ∀ {n : Node} {x : Out (Option Found)}, scanNode (scanAt o name f) name n = some x → NodeScan name n x := by
      intro n x h
      unfold scanNode at h
      by_cases hn : n.name = name
      · rw [if_pos hn] at h; cases h; exact .self hn
      · rw [if_neg hn] at h; exact .sub hn (scanContainers_sound ih h)
    refine .range (ho ns) ?_
    rw [scanAt] at h
    generalize o ns = l at h
    induction l with
    | nil => cases h; exact .none
    | cons n l ihl =>
      rw [scanNodes] at h
      cases h1 : scanNode (scanAt o name f) name n with
      | none => rw [h1] at h; cases h
      | some y =>
        rw [h1] at h
        cases y with
        | err => exact .next (hn h1) (.inl rfl) (ihl h)
        | panic => cases h
        | ok y =>
          cases y with
          | none => exact .next (hn h1) (.inr rfl) (ihl h)
          | some f => cases h; exact .found (hn h1)

variable {ev : Events α}

omit ho in
theorem executeOf_sound {run : Str → Root → Option (Out (Part α))} (hr : ∀ s r x, run s r = some x → EventsRun ev s r x) {r : Root}
    {x : Out (List (Val α))} (h : executeOf run r = some x) : ExecuteRun ev r x := by
  unfold executeOf at h
  cases h1 : run r.name r with
  | none => rw [h1] at h; cases h
  | some y =>
    rw [h1] at h
    cases y with
    | err => cases h; exact .err (hr _ _ _ h1)
    | panic => cases h; exact .panic (hr _ _ _ h1)
    | ok y => cases h; exact .ok (hr _ _ _ h1)

omit ho in
theorem containersOf_sound {run : Str → Root → Option (Out (Part α))} (hr : ∀ s r x, run s r = some x → EventsRun ev s r x) {name : Str}
    (hc : ∀ c x, containerOf run name c = some x → ContainerRun ev name c x) {cs : List RContainer}
    {x : Out (List (Val α))} (h : containersOf run name cs = some x) : ContainersRun ev name cs x := by
  induction cs generalizing x with
  | nil => cases h; exact .nil
  | cons c cs ih =>
    rw [containersOf] at h
    cases h1 : containerOf run name c with
    | none => rw [h1] at h; cases h
    | some y =>
      rw [h1] at h
      cases y with
      | err => cases h; exact .err (hc _ _ h1)
      | panic => cases h; exact .panic (hc _ _ h1)
      | ok v =>
        dsimp only at h
        cases h2 : containersOf run name cs with
        | none => rw [h2] at h; cases h
        | some y =>
          rw [h2] at h
          cases y with
          | err => cases h; exact .consErr (hc _ _ h1) (ih h2)
          | panic => cases h; exact .consPanic (hc _ _ h1) (ih h2)
          | ok v => cases h; exact .cons (hc _ _ h1) (ih h2)

omit ho in
theorem triggerOf_sound {S : Str → List Node → Option (Out (Option Found))} (hS : ∀ s ns x, S s ns = some x → NodesScan s ns x)
    {run : Str → Root → Option (Out (Part α))} (hr : ∀ s r x, run s r = some x → EventsRun ev s r x) {name : Str} {r : Root}
    {x : Out (List (Val α))} (h : triggerOf S run name r = some x) : TriggerRun ev name r x := by
  have hc : ∀ c x, containerOf run name c = some x → ContainerRun ev name c x := by
    intro c x h
    unfold containerOf at h
    cases h1 : c.root with
    | none => rw [h1] at h; cases h; exact .content h1
    | some r => rw [h1] at h; exact .root h1 (hr _ _ _ h)
  unfold triggerOf at h
  cases h1 : S name r.nodes with
  | none => rw [h1] at h; cases h
  | some y =>
    rw [h1] at h
    have h1 := hS _ _ _ h1
    cases y with
    | err => cases h; exact .err h1
    | panic => cases h
    | ok y =>
      cases y with
      | none => cases h; exact .nothing h1
      | some y =>
        cases y with
        | root u =>
          dsimp only at h
          cases h2 : run name u with
          | none => rw [h2] at h; cases h
          | some z =>
            rw [h2] at h
            cases z with
            | err => cases h; exact .rootErr h1 (hr _ _ _ h2)
            | panic => cases h; exact .rootPanic h1 (hr _ _ _ h2)
            | ok z => cases h; exact .root h1 (hr _ _ _ h2)
        | node n =>
          dsimp only at h
          cases h2 : containersOf run name n.containers with
          | none => rw [h2] at h; cases h
          | some z =>
            rw [h2] at h
            cases z with
            | err => cases h; exact .nodeErr h1 (containersOf_sound hr hc h2)
            | panic => cases h; exact .nodePanic h1 (containersOf_sound hr hc h2)
            | ok z => cases h; exact .node h1 (containersOf_sound hr hc h2)
        | container c =>
          dsimp only at h
          cases h2 : containerOf run name c with
          | none => rw [h2] at h; cases h
          | some z =>
            rw [h2] at h
            cases z with
            | err => cases h; exact .containerErr h1 (hc _ _ h2)
            | panic => cases h; exact .containerPanic h1 (hc _ _ h2)
            | ok z => cases h; exact .container h1 (hc _ _ h2)

omit ho in
theorem progOf_sound {E : Root → Option (Out (List (Val α)))} {T : Str → Root → Option (Out (List (Val α)))}
    (hE : ∀ r x, E r = some x → ExecuteRun ev r x) (hT : ∀ s r x, T s r = some x → TriggerRun ev s r x) (p : Prog α) :
    ∀ x, progOf E T p = some x → ProgRun ev p x := by
  induction p with
  | done o => intro x h; cases h; exact .done o
  | execute r k ih =>
    intro x h
    rw [progOf] at h
    cases h1 : E r with
    | none => rw [h1] at h; cases h
    | some y =>
      rw [h1] at h
      have h1 := hE _ _ h1
      cases y with
      | panic => cases h; exact .executePanic h1
      | err => exact .execute h1 (by simp) (ih _ _ h)
      | ok y => exact .execute h1 (by simp) (ih _ _ h)
  | trigger s r k ih =>
    intro x h
    rw [progOf] at h
    cases h1 : T s r with
    | none => rw [h1] at h; cases h
    | some y =>
      rw [h1] at h
      have h1 := hT _ _ _ h1
      cases y with
      | panic => cases h; exact .triggerPanic h1
      | err => exact .trigger h1 (by simp) (ih _ _ h)
      | ok y => exact .trigger h1 (by simp) (ih _ _ h)

theorem eventsAt_sound (f : Nat) : ∀ s r x, eventsAt ev o f s r = some x → EventsRun ev s r x := by
  induction f with
  | zero => intro s r x h; cases h
  | succ f ih =>
    intro s r x h
    rw [eventsAt] at h
    cases hg : ev.get s with
    | none => rw [hg] at h; cases h; exact .none hg
    | some l =>
      rw [hg] at h
      refine .some hg ?_
      dsimp only at h
      clear hg
      have hp := progOf_sound (ev := ev) (fun r x => executeOf_sound (ev := ev) ih (r := r) (x := x))
        (fun s r x => triggerOf_sound (ev := ev) (fun s ns x => scanAt_sound ho f ns x) ih (name := s) (r := r) (x := x))
      induction l with
      | nil => cases h; exact .none
      | cons e es ihl =>
        rw [loopOf] at h
        cases h1 : progOf (executeOf (eventsAt ev o f)) (triggerOf (fun s => scanAt o s f) (eventsAt ev o f)) (e r) with
        | none => rw [h1] at h; cases h
        | some y =>
          rw [h1] at h
          have h1 := hp _ _ h1
          cases y with
          | err => exact .fail h1 (ihl h)
          | panic => cases h; exact .panic h1
          | ok v => cases h; exact .ok h1

theorem executeAt_sound {f : Nat} {r : Root} {x : Out (List (Val α))} (h : executeAt ev o f r = some x) : ExecuteRun ev r x :=
  executeOf_sound (eventsAt_sound ho f) h

end
end Verif.Lexer
