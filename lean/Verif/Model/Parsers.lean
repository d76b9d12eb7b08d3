import Verif.Model.Roots

/-!
# Model of `applications/languages/parsers`

An event is a program which may call the manager (`languages/parsers/sdk.go:8`). Since `Scan` has several possible outcomes (see `NodesScan`), so
has the manager: its functions are relations between the arguments and the possible outcomes; a call without outcome does not
end. The events themselves are deterministic, and panics of an event end the call.
-/

namespace Verif.Lexer
open Verif.Patterns

variable {α : Type}

/-- An `interface{}`: nil, a text, a list of values, a `Result` (its list is not empty, `parsers/result_builder.go:37-53`), or any other
value. -/
inductive Val (α : Type) where
  | nil
  | text (s : Str)
  | list (l : List (Val α))
  | result (l : List (Val α))
  | other (x : α)

/-- `languages/parsers/sdk.go:8`: what an event does when it is called with a root and the manager: it returns, or calls `Execute` or
`Trigger` of the manager and goes on with the outcome. -/
inductive Prog (α : Type) where
  | done (o : Out (Val α))
  | execute (r : Root) (k : Out (List (Val α)) → Prog α)
  | trigger (name : Str) (r : Root) (k : Out (List (Val α)) → Prog α)

/-- `applications/languages/parsers/sdk.go:8`. -/
abbrev Event (α : Type) := Root → Prog α

/-- The map of the events: the entries have different keys. The field `events` of `applications/languages/parsers/manager.go`. -/
abbrev Events (α : Type) := List (Str × List (Event α))

/-- `app.events[name]`. `parsers/manager.go:103`. -/
def Events.get (ev : Events α) (name : Str) : Option (List (Event α)) := (ev.find? (fun p => p.1 = name)).map Prod.snd

/-- `parsers/manager_builder.go:35-45`, `Now`. -/
def managerNow (ev : Option (Events α)) : Out (Events α) :=
  match ev with
  | none => .err
  | some [] => .err
  | some l => .ok l

/-- `parsers/result_builder.go:37-53`, `Now`; a result is its list. -/
def resultNow (element : Val α) (list : Option (List (Val α))) : Out (List (Val α)) :=
  let list := match element with
    | .nil => list
    | v => some [v]
  match list with
  | none => .err
  | some [] => .err
  | some l => .ok l

/-- `parsers/manager.go:112-120`, with `parsers/result.go:21-33`: a list and an element of which one is set (or none of them, for nil). -/
def unwrap : Val α → Option (List (Val α)) × Val α
  | .result [] => (none, .nil)
  | .result [v] => (none, v)
  | .result l => (some l, .nil)
  | v => (none, v)

/-- `parsers/manager.go:140-145`. -/
def listed : Option (List (Val α)) × Val α → Val α
  | (some l, _) => .list l
  | (none, v) => v

mutual
/-- An event, called at `parsers/manager.go:105`. -/
inductive ProgRun (ev : Events α) : Prog α → Out (Val α) → Prop where
  | done (o : Out (Val α)) : ProgRun ev (.done o) o
  | execute {r : Root} {k : Out (List (Val α)) → Prog α} {x : Out (List (Val α))} {o : Out (Val α)} : ExecuteRun ev r x → x ≠ .panic →
      ProgRun ev (k x) o → ProgRun ev (.execute r k) o
  | executePanic {r : Root} {k : Out (List (Val α)) → Prog α} : ExecuteRun ev r .panic → ProgRun ev (.execute r k) .panic
  | trigger {name : Str} {r : Root} {k : Out (List (Val α)) → Prog α} {x : Out (List (Val α))} {o : Out (Val α)} : TriggerRun ev name r x →
      x ≠ .panic → ProgRun ev (k x) o → ProgRun ev (.trigger name r k) o
  | triggerPanic {name : Str} {r : Root} {k : Out (List (Val α)) → Prog α} : TriggerRun ev name r .panic →
      ProgRun ev (.trigger name r k) .panic
/-- `parsers/manager.go:104-124`, the loop of `executeEvents`. -/
inductive EventsLoop (ev : Events α) : List (Event α) → Root → Out (Option (List (Val α)) × Val α) → Prop where
  | none {r : Root} : EventsLoop ev [] r .err
  | fail {e : Event α} {es : List (Event α)} {r : Root} {x : Out (Option (List (Val α)) × Val α)} : ProgRun ev (e r) .err →
      EventsLoop ev es r x → EventsLoop ev (e :: es) r x
  | panic {e : Event α} {es : List (Event α)} {r : Root} : ProgRun ev (e r) .panic → EventsLoop ev (e :: es) r .panic
  | ok {e : Event α} {es : List (Event α)} {r : Root} {v : Val α} : ProgRun ev (e r) (.ok v) → EventsLoop ev (e :: es) r (.ok (unwrap v))
/-- `parsers/manager.go:102-129`, `executeEvents`. -/
inductive EventsRun (ev : Events α) : Str → Root → Out (Option (List (Val α)) × Val α) → Prop where
  | some {name : Str} {r : Root} {l : List (Event α)} {x : Out (Option (List (Val α)) × Val α)} : ev.get name = some l →
      EventsLoop ev l r x → EventsRun ev name r x
  | none {name : Str} {r : Root} : ev.get name = Option.none → EventsRun ev name r .err
/-- `parsers/manager.go:29-46`, `Execute`. -/
inductive ExecuteRun (ev : Events α) : Root → Out (List (Val α)) → Prop where
  | err {r : Root} : EventsRun ev r.name r .err → ExecuteRun ev r .err
  | panic {r : Root} : EventsRun ev r.name r .panic → ExecuteRun ev r .panic
  | ok {r : Root} {x : Option (List (Val α)) × Val α} : EventsRun ev r.name r (.ok x) → ExecuteRun ev r (resultNow x.2 x.1)
/-- `parsers/manager.go:151-158`, `fetchContentOrExecuteEvent`. -/
inductive ContainerRun (ev : Events α) : Str → RContainer → Out (Option (List (Val α)) × Val α) → Prop where
  | content {name : Str} {c : RContainer} : c.root = none → ContainerRun ev name c (.ok (none, .text c.content))
  | root {name : Str} {c : RContainer} {r : Root} {x : Out (Option (List (Val α)) × Val α)} : c.root = some r → EventsRun ev name r x →
      ContainerRun ev name c x
/-- `parsers/manager.go:131-149`, `executeEventList`. -/
inductive ContainersRun (ev : Events α) : Str → List RContainer → Out (List (Val α)) → Prop where
  | nil {name : Str} : ContainersRun ev name [] (.ok [])
  | err {name : Str} {c : RContainer} {cs : List RContainer} : ContainerRun ev name c .err → ContainersRun ev name (c :: cs) .err
  | panic {name : Str} {c : RContainer} {cs : List RContainer} : ContainerRun ev name c .panic →
      ContainersRun ev name (c :: cs) .panic
  | cons {name : Str} {c : RContainer} {cs : List RContainer} {v : Option (List (Val α)) × Val α} {l : List (Val α)} :
      ContainerRun ev name c (.ok v) → ContainersRun ev name cs (.ok l) → ContainersRun ev name (c :: cs) (.ok (listed v :: l))
  | consErr {name : Str} {c : RContainer} {cs : List RContainer} {v : Option (List (Val α)) × Val α} :
      ContainerRun ev name c (.ok v) → ContainersRun ev name cs .err → ContainersRun ev name (c :: cs) .err
  | consPanic {name : Str} {c : RContainer} {cs : List RContainer} {v : Option (List (Val α)) × Val α} :
      ContainerRun ev name c (.ok v) → ContainersRun ev name cs .panic → ContainersRun ev name (c :: cs) .panic
/-- `parsers/manager.go:49-100`, `Trigger` (`Scan` never returns a content). -/
inductive TriggerRun (ev : Events α) : Str → Root → Out (List (Val α)) → Prop where
  | err {name : Str} {r : Root} : NodesScan name r.nodes .err → TriggerRun ev name r .err
  | nothing {name : Str} {r : Root} : NodesScan name r.nodes (.ok none) → TriggerRun ev name r .err
  | root {name : Str} {r u : Root} {x : Option (List (Val α)) × Val α} : NodesScan name r.nodes (.ok (some (.root u))) →
      EventsRun ev name u (.ok x) → TriggerRun ev name r (resultNow x.2 x.1)
  | rootErr {name : Str} {r u : Root} : NodesScan name r.nodes (.ok (some (.root u))) →
      EventsRun ev name u .err → TriggerRun ev name r .err
  | rootPanic {name : Str} {r u : Root} : NodesScan name r.nodes (.ok (some (.root u))) →
      EventsRun ev name u .panic → TriggerRun ev name r .panic
  | node {name : Str} {r : Root} {n : Node} {l : List (Val α)} : NodesScan name r.nodes (.ok (some (.node n))) →
      ContainersRun ev name n.containers (.ok l) → TriggerRun ev name r (resultNow .nil (some l))
  | nodeErr {name : Str} {r : Root} {n : Node} : NodesScan name r.nodes (.ok (some (.node n))) →
      ContainersRun ev name n.containers .err → TriggerRun ev name r .err
  | nodePanic {name : Str} {r : Root} {n : Node} : NodesScan name r.nodes (.ok (some (.node n))) →
      ContainersRun ev name n.containers .panic → TriggerRun ev name r .panic
  | container {name : Str} {r : Root} {c : RContainer} {x : Option (List (Val α)) × Val α} :
      NodesScan name r.nodes (.ok (some (.container c))) → ContainerRun ev name c (.ok x) →
      TriggerRun ev name r (resultNow x.2 x.1)
  | containerErr {name : Str} {r : Root} {c : RContainer} : NodesScan name r.nodes (.ok (some (.container c))) →
      ContainerRun ev name c .err → TriggerRun ev name r .err
  | containerPanic {name : Str} {r : Root} {c : RContainer} : NodesScan name r.nodes (.ok (some (.container c))) →
      ContainerRun ev name c .panic → TriggerRun ev name r .panic
end

/-- `parsers/application.go:22-34`, `Execute`: the first value of the result. -/
inductive AppRun (ev : Option (Events α)) : Root → Out (Val α) → Prop where
  | noManager {r : Root} : managerNow ev = .err → AppRun ev r .err
  | err {r : Root} {e : Events α} : managerNow ev = .ok e → ExecuteRun e r .err → AppRun ev r .err
  | panic {r : Root} {e : Events α} : managerNow ev = .ok e → ExecuteRun e r .panic → AppRun ev r .panic
  | ok {r : Root} {e : Events α} {v : Val α} {l : List (Val α)} : managerNow ev = .ok e → ExecuteRun e r (.ok (v :: l)) →
      AppRun ev r (.ok v)

end Verif.Lexer
