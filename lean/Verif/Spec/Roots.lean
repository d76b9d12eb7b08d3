import Verif.Model.Roots

/-!
# Specification notions for the roots
-/

namespace Verif.Lexer
open Verif.Patterns

/-- A child of a token of the AST: the name under which it was matched, its text and, unless it is a rule, its token. -/
structure Item where
  name : Str
  content : Str
  token : Option AToken

/-- The children which belong to one match. -/
def AMatch.items : AMatch → List Item
  | .token n l => l.map (fun t => ⟨n, t.discovery, some t⟩)
  | .rule n r => [⟨n, r.content, none⟩]

/-- The children of a token in the order of the source. -/
def AToken.items : AToken → List Item
  | .mk _ _ l => l.flatMap AMatch.items

/-- The tokens which are children. -/
def AToken.children (t : AToken) : List AToken := t.items.filterMap Item.token

/-- A token that can be converted: it has a name and at least one child, all the children have names and texts, and those which
are tokens can be converted. -/
inductive Convertible : AToken → Prop where
  | mk {t : AToken} : t.name ≠ [] → t.items ≠ [] → (∀ it ∈ t.items, it.name ≠ [] ∧ it.content ≠ []) →
      (∀ c ∈ t.children, Convertible c) → Convertible t

mutual
/-- The tokens of a tree in post-order (a token comes behind everything in it). -/
def AToken.post : AToken → List AToken
  | .mk name i l => postMatches l ++ [.mk name i l]
def postMatches : List AMatch → List AToken
  | [] => []
  | m :: ms => m.post ++ postMatches ms
def AMatch.post : AMatch → List AToken
  | .token _ l => postTokens l
  | .rule _ _ => []
def postTokens : List AToken → List AToken
  | [] => []
  | t :: ts => t.post ++ postTokens ts
end

/-- The tokens strictly inside a token, in post-order. -/
def AToken.inside : AToken → List AToken
  | .mk _ _ l => postMatches l

/-- The last token of a list with this text. -/
def lastWith (text : Str) (l : List AToken) : Option AToken := l.reverse.find? (fun t => t.discovery = text)

/-! What can be reached from a root by `Scan`: the nodes, their containers and the nodes of the roots of these. -/
mutual
inductive ReachNodes : List Node → Found → Prop where
  | mem {ns : List Node} {n : Node} {f : Found} : n ∈ ns → ReachNode n f → ReachNodes ns f
inductive ReachNode : Node → Found → Prop where
  | self (n : Node) : ReachNode n (.node n)
  | sub {n : Node} {c : RContainer} {f : Found} : c ∈ n.containers → ReachContainer c f → ReachNode n f
inductive ReachContainer : RContainer → Found → Prop where
  | self (c : RContainer) : ReachContainer c (.container c)
  | sub {c : RContainer} {r : Root} {f : Found} : c.root = some r → ReachNodes r.nodes f → ReachContainer c f
end

/-- A root or anything that can be reached from it. -/
inductive ReachRoot : Root → Found → Prop where
  | self (r : Root) : ReachRoot r (.root r)
  | sub {r : Root} {f : Found} : ReachNodes r.nodes f → ReachRoot r f

/-! The topmost things of a name: those which are reached without passing something of this name. -/
mutual
inductive TopNodes (name : Str) : List Node → Found → Prop where
  | mem {ns : List Node} {n : Node} {f : Found} : n ∈ ns → TopNode name n f → TopNodes name ns f
inductive TopNode (name : Str) : Node → Found → Prop where
  | self {n : Node} : n.name = name → TopNode name n (.node n)
  | sub {n : Node} {c : RContainer} {f : Found} : n.name ≠ name → c ∈ n.containers → TopContainer name c f → TopNode name n f
inductive TopContainer (name : Str) : RContainer → Found → Prop where
  | self {c : RContainer} : c.name = name → TopContainer name c (.container c)
  | sub {c : RContainer} {r : Root} {f : Found} : c.name ≠ name → c.root = some r → TopNodes name r.nodes f →
      TopContainer name c f
end

/-- The topmost things of a name in a root. -/
inductive TopRoot (name : Str) : Root → Found → Prop where
  | self {r : Root} : r.name = name → TopRoot name r (.root r)
  | sub {r : Root} {f : Found} : r.name ≠ name → TopNodes name r.nodes f → TopRoot name r f

end Verif.Lexer
