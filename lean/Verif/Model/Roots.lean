import Verif.Model.Ast

/-!
# Model of `domain/languages/lexers/roots`

A Go map is modelled by the list of its entries with pairwise different keys, in the order of the first insertion; the order of
a `range` statement over it is arbitrary (see `NodesScan`).
-/

namespace Verif.Lexer
open Verif.Patterns

mutual
/-- `roots/root.go:3-7`, `roots/nodes.go:8-10`: the nodes are the entries of the map, the key of an entry is the name of the node
(`roots/adapter.go:103-116`). -/
inductive Root where
  | mk (content : Str) (name : Str) (nodes : List Node)
/-- `roots/node.go:3-6`, `roots/containers.go:9-12`; the map of the containers is a function of the list. -/
inductive Node where
  | mk (name : Str) (containers : List RContainer)
/-- `roots/container.go:3-7`. -/
inductive RContainer where
  | mk (content : Str) (name : Str) (root : Option Root)
end

/-- `roots/root.go:24-26`, `Content`. -/
def Root.content : Root → Str
  | .mk c _ _ => c
/-- `roots/root.go:29-31`, `Name`. -/
def Root.name : Root → Str
  | .mk _ n _ => n
/-- `roots/root.go:34-36`, `Nodes`. -/
def Root.nodes : Root → List Node
  | .mk _ _ l => l
/-- `roots/node.go:26-28`, `Name`. -/
def Node.name : Node → Str
  | .mk n _ => n
/-- `roots/node.go:31-33`, `Containers`, and `roots/containers.go:37-39`, `List`. -/
def Node.containers : Node → List RContainer
  | .mk _ l => l
/-- `roots/container.go:52-54`, `Content`. -/
def RContainer.content : RContainer → Str
  | .mk c _ _ => c
/-- `roots/container.go:57-59`, `Name`. -/
def RContainer.name : RContainer → Str
  | .mk _ n _ => n
/-- `roots/container.go:62-69`, `HasRoot` and `Root`. -/
def RContainer.root : RContainer → Option Root
  | .mk _ _ r => r

/-- `roots/container_builder.go:45-59`, `Now`. -/
def containerNow (content name : Str) (root : Option Root) : Out RContainer :=
  if content = [] then .err
  else if name = [] then .err
  else match root with
    | some r => .ok (.mk content name (some r))
    | none => .ok (.mk content name none)

/-- `roots/containers_builder.go:29-45` and `roots/node_builder.go:37-47`, `Now`. -/
def nodeNow (name : Str) (list : List RContainer) : Out Node :=
  if list = [] then .err
  else if name = [] then .err
  else .ok (.mk name list)

/-- `roots/nodes_builder.go:31-41` and `roots/builder.go:45-59`, `Now`. -/
def rootNow (content name : Str) (nodes : List Node) : Out Root :=
  if nodes = [] then .err
  else if content = [] then .err
  else if name = [] then .err
  else .ok (.mk content name nodes)

/-- `containersMap[name] = append(containersMap[name], container)` (`roots/adapter.go:86,100`). -/
def addContainer (name : Str) (c : RContainer) : List (Str × List RContainer) → List (Str × List RContainer)
  | [] => [(name, [c])]
  | (n, l) :: rest => if n = name then (n, l ++ [c]) :: rest else (n, l) :: addContainer name c rest

/-- `app.tokenRoots` (`roots/adapter.go:13`): the keys are texts. -/
abbrev Cache := Str → Option Root

mutual
/-- `roots/adapter.go:45-132`, `toRoot`; `none` is the nil root. -/
def AToken.toRoot : AToken → Cache → Out (Option Root × Cache)
  | .mk name i l, s =>
    if l.isEmpty then .ok (none, s)
    else do
      let s ← enterMatches l s
      let x ← containMatches l [] s
      let nodes ← mapOut (fun p => nodeNow p.1 p.2) x.1
      let r ← rootNow (AToken.mk name i l).discovery name nodes
      return (some r, Function.update x.2 (AToken.mk name i l).discovery (some r))

/-- `roots/adapter.go:53-65`: the first loop over the matches, which enters the sub tokens. -/
def enterMatches : List AMatch → Cache → Out Cache
  | [], s => .ok s
  | m :: ms, s => do
    let s ← m.enter s
    enterMatches ms s
/-- `roots/adapter.go:54-64`: one match. -/
def AMatch.enter : AMatch → Cache → Out Cache
  | .token _ l, s => enterTokens l s
  | .rule _ _, s => .ok s
/-- `roots/adapter.go:59-64`. -/
def enterTokens : List AToken → Cache → Out Cache
  | [], s => .ok s
  | t :: ts, s => do
    let x ← t.toRoot s
    enterTokens ts x.2

/-- `roots/adapter.go:69-101`: the second loop, which fills the containers map. -/
def containMatches : List AMatch → List (Str × List RContainer) → Cache → Out (List (Str × List RContainer) × Cache)
  | [], acc, s => .ok (acc, s)
  | m :: ms, acc, s => do
    let x ← m.contain acc s
    containMatches ms x.1 x.2
/-- `roots/adapter.go:70-100`: one match. -/
def AMatch.contain : AMatch → List (Str × List RContainer) → Cache → Out (List (Str × List RContainer) × Cache)
  | .token n l, acc, s => containTokens n l acc s
  | .rule n r, acc, s => do
    let c ← containerNow r.content n none
    return (addContainer n c acc, s)
/-- `roots/adapter.go:74-87`, with `toRootWithCache` (`134-141`). -/
def containTokens (n : Str) : List AToken → List (Str × List RContainer) → Cache →
    Out (List (Str × List RContainer) × Cache)
  | [], acc, s => .ok (acc, s)
  | t :: ts, acc, s => do
    let x ← (match s t.discovery with
      | some r => .ok (some r, s)
      | none => t.toRoot s)
    let c ← containerNow t.discovery n x.1
    containTokens n ts (addContainer n c acc) x.2
end

/-- `roots/adapter.go:40-43`, `ToRoot`: the cache is reset. -/
def toRoot (t : AToken) : Out (Option Root) := do
  let x ← t.toRoot (fun _ => none)
  return x.1

/-! ## Observers -/

/-- `roots/containers.go:27-34`, `Content`, hence `roots/node.go:21-23`. -/
def Node.content (n : Node) : Str := (n.containers.map RContainer.content).flatten

/-- `roots/containers.go:42-49`, `Fetch`: the map holds the last container with the name (`roots/containers_builder.go:38-42`). -/
def Node.fetchContainer (n : Node) (name : Str) : Out RContainer :=
  match n.containers.reverse.find? (fun c => c.name = name) with
  | some c => .ok c
  | none => .err

/-- `roots/nodes.go:33-40`, `Fetch`. -/
def Root.fetch (r : Root) (name : Str) : Out Node :=
  match r.nodes.find? (fun n => n.name = name) with
  | some n => .ok n
  | none => .err

/-- `roots/nodes.go:72-78`, `Exists`. -/
def Root.exists (r : Root) (name : Str) : Bool := r.nodes.any (fun n => n.name = name)

/-- What `Scan` returns: a root, a node or a container (a content is never returned). `roots/nodes.go:43-69`. -/
inductive Found where
  | root (r : Root)
  | node (n : Node)
  | container (c : RContainer)

/-- The name of the root, node or container returned by `roots/nodes.go:43-69`. -/
def Found.name : Found → Str
  | .root r => r.name
  | .node n => n.name
  | .container c => c.name

/-! `Scan`, as a relation between the arguments and the possible outcomes: the `range` statement of `roots/nodes.go:44` visits the
entries of the map in an arbitrary order. The outcome `ok none` is the one in which all the values and the error are nil. -/
mutual
/-- `roots/nodes.go:43-69`. -/
inductive NodesScan (name : Str) : List Node → Out (Option Found) → Prop where
  | range {ns order : List Node} {r : Out (Option Found)} : order.Perm ns → NodesLoop name order r → NodesScan name ns r
/-- `roots/nodes.go:43-69`, the loop. -/
inductive NodesLoop (name : Str) : List Node → Out (Option Found) → Prop where
  | none : NodesLoop name [] .err
  | found {n : Node} {ns : List Node} {f : Found} : NodeScan name n (.ok (some f)) → NodesLoop name (n :: ns) (.ok (some f))
  | next {n : Node} {ns : List Node} {r x : Out (Option Found)} : NodeScan name n x → (x = .err ∨ x = .ok none) →
      NodesLoop name ns r → NodesLoop name (n :: ns) r
/-- `roots/node.go:36-42`. -/
inductive NodeScan (name : Str) : Node → Out (Option Found) → Prop where
  | self {n : Node} : n.name = name → NodeScan name n (.ok (some (.node n)))
  | sub {n : Node} {r : Out (Option Found)} : n.name ≠ name → ContainersLoop name n.containers r → NodeScan name n r
/-- `roots/containers.go:52-78`. -/
inductive ContainersLoop (name : Str) : List RContainer → Out (Option Found) → Prop where
  | none : ContainersLoop name [] .err
  | found {c : RContainer} {cs : List RContainer} {f : Found} : ContainerScan name c (.ok (some f)) →
      ContainersLoop name (c :: cs) (.ok (some f))
  | next {c : RContainer} {cs : List RContainer} {r x : Out (Option Found)} : ContainerScan name c x →
      (x = .err ∨ x = .ok none) → ContainersLoop name cs r → ContainersLoop name (c :: cs) r
/-- `roots/container.go:39-49`. -/
inductive ContainerScan (name : Str) : RContainer → Out (Option Found) → Prop where
  | self {c : RContainer} : c.name = name → ContainerScan name c (.ok (some (.container c)))
  | noRoot {c : RContainer} : c.name ≠ name → c.root = none → ContainerScan name c (.ok none)
  | sub {c : RContainer} {root : Root} {r : Out (Option Found)} : c.name ≠ name → c.root = some root →
      NodesScan name root.nodes r → ContainerScan name c r
end

/-- `roots/root.go:39-45`. -/
inductive RootScan (name : Str) : Root → Out (Option Found) → Prop where
  | self {r : Root} : r.name = name → RootScan name r (.ok (some (.root r)))
  | sub {r : Root} {x : Out (Option Found)} : r.name ≠ name → NodesScan name r.nodes x → RootScan name r x

end Verif.Lexer
