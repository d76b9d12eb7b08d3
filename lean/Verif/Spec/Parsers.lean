import Verif.Model.Parsers
import Verif.Spec.Roots

/-! # Specification notions for the parsers -/

namespace Verif.Lexer
open Verif.Patterns

variable {α : Type}

/-- The values of the result to which the value of an event leads: the values of a result with several values, otherwise the
value itself, or the value in a result with one value. -/
inductive ResultOf : Val α → List (Val α) → Prop where
  | plain {v : Val α} : v ≠ .nil → (∀ l, v ≠ .result l) → ResultOf v [v]
  | single {v : Val α} : v ≠ .nil → ResultOf (.result [v]) [v]
  | many {v w : Val α} {l : List (Val α)} : ResultOf (.result (v :: w :: l)) (v :: w :: l)

/-- The value of an event that leads to nothing. -/
def LeadsToNothing (v : Val α) : Prop := v = .nil ∨ v = .result [.nil] ∨ v = .result []

/-- The first of the events which does not fail when it is called with the root, and its value. -/
def FirstGood (ev : Events α) (l : List (Event α)) (r : Root) (v : Val α) : Prop :=
  ∃ pre e post, l = pre ++ e :: post ∧ (∀ p ∈ pre, ProgRun ev (p r) .err) ∧ ProgRun ev (e r) (.ok v)

/-- The value that stands for a container in the result of `Trigger`: the text of a container without root, otherwise the value of
the first good event of this name; the values of a result with several values are one list. -/
inductive ContainerValue (ev : Events α) (name : Str) (c : RContainer) : Val α → Prop where
  | text : c.root = none → ContainerValue ev name c (.text c.content)
  | one {r : Root} {l : List (Event α)} {v : Val α} : c.root = some r → ev.get name = some l → FirstGood ev l r v →
      (∀ l, v ≠ .result l) → ContainerValue ev name c v
  | single {r : Root} {l : List (Event α)} {v : Val α} : c.root = some r → ev.get name = some l →
      FirstGood ev l r (.result [v]) → ContainerValue ev name c v
  | many {r : Root} {l : List (Event α)} {v w : Val α} {vs : List (Val α)} : c.root = some r → ev.get name = some l →
      FirstGood ev l r (.result (v :: w :: vs)) → ContainerValue ev name c (.list (v :: w :: vs))
  | empty {r : Root} {l : List (Event α)} : c.root = some r → ev.get name = some l →
      FirstGood ev l r (.result []) → ContainerValue ev name c .nil

/-- The roots strictly inside a root. -/
def Inside (r u : Root) : Prop := ∃ c, ReachNodes r.nodes (.container c) ∧ c.root = some u

/-- The event calls the manager only for the root it was called with (by `Trigger`) and for roots inside it. -/
inductive StaysInside (r : Root) : Prog α → Prop where
  | done (o : Out (Val α)) : StaysInside r (.done o)
  | execute {u : Root} {k : Out (List (Val α)) → Prog α} : Inside r u → (∀ x, StaysInside r (k x)) → StaysInside r (.execute u k)
  | trigger {name : Str} {u : Root} {k : Out (List (Val α)) → Prog α} : u = r ∨ Inside r u → (∀ x, StaysInside r (k x)) →
      StaysInside r (.trigger name u k)

/-- The roots for which the events are called when `Scan` has found something. -/
inductive RootOf : Found → Root → Prop where
  | root (r : Root) : RootOf (.root r) r
  | node {n : Node} {c : RContainer} {r : Root} : c ∈ n.containers → c.root = some r → RootOf (.node n) r
  | container {c : RContainer} {r : Root} : c.root = some r → RootOf (.container c) r

/-! Every way to run ends: `ProgEnds` for an event, `CallEnds` for the events of a name, called with a root. -/
mutual
inductive ProgEnds (ev : Events α) : Prog α → Prop where
  | done (o : Out (Val α)) : ProgEnds ev (.done o)
  | execute {r : Root} {k : Out (List (Val α)) → Prog α} : CallEnds ev r.name r → (∀ x, ExecuteRun ev r x → ProgEnds ev (k x)) →
      ProgEnds ev (.execute r k)
  | trigger {name : Str} {r : Root} {k : Out (List (Val α)) → Prog α} :
      (∀ f, NodesScan name r.nodes (.ok (some f)) → ∀ u, RootOf f u → CallEnds ev name u) →
      (∀ x, TriggerRun ev name r x → ProgEnds ev (k x)) → ProgEnds ev (.trigger name r k)
inductive CallEnds (ev : Events α) : Str → Root → Prop where
  | mk {name : Str} {r : Root} : (∀ l, ev.get name = some l → ∀ e ∈ l, ProgEnds ev (e r)) → CallEnds ev name r
end

end Verif.Lexer
