import Verif.Lemmas.BaseReads
import Verif.Props.Parsers

/-! # Trees in which two parts have the same text -/

namespace Verif.Base
open Verif.Patterns Verif.Lexer

/-! Everything that can be reached has one of the names. -/
mutual
def nodeNames : Node → List Str
  | .mk n cs => n :: containersNames cs
def containersNames : List RContainer → List Str
  | [] => []
  | c :: cs => containerNames c ++ containersNames cs
def containerNames : RContainer → List Str
  | .mk _ n none => [n]
  | .mk _ n (some r) => n :: rootNames r
def rootNames : Root → List Str
  | .mk _ _ ns => nodesNames ns
def nodesNames : List Node → List Str
  | [] => []
  | n :: ns => nodeNames n ++ nodesNames ns
end

theorem containersNames_mem {cs : List RContainer} {c : RContainer} (h : c ∈ cs) {s : Str} (hs : s ∈ containerNames c) : s ∈ containersNames cs := by
  induction cs with
  | nil => simp at h
  | cons d cs ih =>
    rw [containersNames, List.mem_append]
    rcases List.mem_cons.mp h with rfl | h
    · exact .inl hs
    · exact .inr (ih h)

theorem nodesNames_mem {ns : List Node} {n : Node} (h : n ∈ ns) {s : Str} (hs : s ∈ nodeNames n) : s ∈ nodesNames ns := by
  induction ns with
  | nil => simp at h
  | cons d ns ih =>
    rw [nodesNames, List.mem_append]
    rcases List.mem_cons.mp h with rfl | h
    · exact .inl hs
    · exact .inr (ih h)

mutual
theorem reachNodes_names {ns : List Node} {f : Found} : ReachNodes ns f → f.name ∈ nodesNames ns
  | .mem hm h => nodesNames_mem hm (reachNode_names h)
theorem reachNode_names {n : Node} {f : Found} : ReachNode n f → f.name ∈ nodeNames n
  | .self (.mk a b) => by simp [nodeNames, Found.name, Node.name]
  | .sub (n := .mk a cs) hc h => by
    rw [nodeNames, List.mem_cons]
    exact .inr (containersNames_mem hc (reachContainer_names h))
theorem reachContainer_names {c : RContainer} {f : Found} : ReachContainer c f → f.name ∈ containerNames c
  | .self (.mk a n none) => by simp [containerNames, Found.name, RContainer.name]
  | .self (.mk a n (some r)) => by simp [containerNames, Found.name, RContainer.name]
  | .sub (c := .mk a n root) (r := .mk x y ns) hr h => by
    simp only [RContainer.root] at hr
    subst hr
    rw [containerNames, List.mem_cons, rootNames]
    exact .inr (reachNodes_names h)
end

/-- If the name of a node is not found in the other nodes, `Scan` returns the node. -/
theorem scan_only {name : Str} {r : Root} {n : Node} (hn : n ∈ r.nodes) (hname : n.name = name)
    (hother : ∀ m ∈ r.nodes, m ≠ n → name ∉ nodeNames m) {x : Out (Option Found)} (hx : NodesScan name r.nodes x) : x = .ok (some (.node n)) := by
  obtain ⟨h1, h2⟩ := hx.scanOk
  cases x with
  | panic => exact h1.elim
  | err => exact absurd hname (h1 _ (.mem hn (.self n)))
  | ok o =>
    cases o with
    | none => exact absurd rfl h2
    | some f =>
      have h3 := hx.top rfl
      cases h3 with
      | @mem _ m _ hm hf =>
        by_cases hmn : m = n
        · subst hmn
          cases hf with
          | self => rfl
          | sub hne _ _ => exact absurd hname hne
        · have := TopNode.reach hf
          exact absurd (this.2 ▸ reachNode_names this.1) (hother m hm hmn)

/-- If the event fails for the only container of the node of a name, `Trigger` fails. -/
theorem trigger_fails {ev : Events BVal} {name : Str} {r u : Root} {n : Node} {c : RContainer} (hn : n ∈ r.nodes) (hname : n.name = name)
    (hother : ∀ m ∈ r.nodes, m ≠ n → name ∉ nodeNames m) (hc : n.containers = [c]) (hu : c.root = some u)
    (he : ∀ y, EventsRun ev name u y → y = .err) {x : Out (List V)} (hx : TriggerRun ev name r x) : x = .err := by
  have hcr : ∀ y, ContainersRun ev name n.containers y → y = .err := by
    intro y hy
    have hone : ∀ y, ContainerRun ev name c y → y = .err := by
      intro y hy
      cases hy with
      | content h => rw [hu] at h; simp at h
      | root h hy => rw [hu] at h; simp only [Option.some.injEq] at h; subst h; exact he _ hy
    rw [hc] at hy
    cases hy with
    | err => rfl
    | panic h => simpa using hone _ h
    | cons h _ => simpa using hone _ h
    | consErr h _ => simpa using hone _ h
    | consPanic h _ => simpa using hone _ h
  have hs : ∀ {x}, NodesScan name r.nodes x → x = .ok (some (.node n)) := fun hx => scan_only hn hname hother hx
  cases hx with
  | err => rfl
  | nothing => rfl
  | rootErr => rfl
  | nodeErr => rfl
  | containerErr => rfl
  | root h => have := hs h; simp at this
  | rootPanic h => have := hs h; simp at this
  | container h => have := hs h; simp at this
  | containerPanic h => have := hs h; simp at this
  | node h h' =>
    have := hs h
    simp only [Out.ok.injEq, Option.some.injEq, Found.node.injEq] at this
    subst this
    simpa using hcr _ h'
  | nodePanic h h' =>
    have := hs h
    simp only [Out.ok.injEq, Option.some.injEq, Found.node.injEq] at this
    subst this
    simpa using hcr _ h'

/-! ## Abstract syntax trees -/

/-- A token of the AST. -/
def at_ (k : Kind) (ms : List AMatch) : AToken := .mk k.name 0 ms
/-- A text which a rule matched. -/
def ar (name : String) (text : Str) : AMatch := .rule (lit name) ⟨text, [⟨0, text, .group ⟨lit "g", [text]⟩⟩], [], []⟩
/-- A token which was matched. -/
def ac (t : AToken) : AMatch := .token t.name [t]

/-- A variable. -/
def nameT (a b : Str) : AToken := at_ .variableName [ar "FIRST_LETTER" a, ar "MIN_MAJ_LETTERS" b]
def listT (a b : Str) : AToken := at_ .listValue [ac (nameT a b)]
def singleT (a b : Str) : AToken :=
  at_ .singleAssignable [ac (at_ .operation [ac (at_ .operationWithSuffix [ac (at_ .operationElement [ac (nameT a b)])])])]
/-- `append x, y` -/
def appendT (a b c d : Str) : AToken := at_ .listAppend [ar "APPEND" (lit "append "), ac (listT a b), ar "COMMA" (lit ","), ac (singleT c d)]

/-- The root of a rule. -/
def leafN (name : String) (text : Str) : Node := .mk (lit name) [.mk text (lit name) none]
def partN (name : Str) (r : Root) : Node := .mk name [.mk r.content name (some r)]
def nameR (a b : Str) : Root := .mk (a ++ b) Kind.variableName.name [leafN "FIRST_LETTER" a, leafN "MIN_MAJ_LETTERS" b]
def chain (k : Kind) (r : Root) : Root := .mk r.content k.name [partN r.name r]
def listR (a b : Str) : Root := chain .listValue (nameR a b)
def singleR (a b : Str) : Root := chain .singleAssignable (chain .operation (chain .operationWithSuffix (chain .operationElement (nameR a b))))

theorem ar_content (name : String) (text : Str) : (ar name text).discovery = text := by
  simp [ar, AMatch.discovery, AResult.content]

theorem nameT_discovery (a b : Str) : (nameT a b).discovery = a ++ b := by
  simp [nameT, at_, AToken.discovery, matchesDiscovery, ar_content]

theorem at_discovery (k : Kind) (t : AToken) : (at_ k [ac t]).discovery = t.discovery := by
  simp [at_, AToken.discovery, matchesDiscovery, ac, AMatch.discovery, aTokensDiscovery]

/-- The conversion of a token, and what it leaves in the cache. -/
def Converts (t : AToken) (r : Root) : Prop :=
  r.content = t.discovery ∧ t.discovery ≠ [] ∧ r.name = t.name ∧ t.name ≠ [] ∧ ∀ s, ∃ s', t.toRoot s = .ok (some r, s') ∧ s' t.discovery = some r

theorem kind_ne (k : Kind) : k.name ≠ [] := by
  obtain ⟨c, l, h, _⟩ := kind_small k
  simp [h]

theorem nameT_converts (a b : Str) (ha : a ≠ []) (hb : b ≠ []) : Converts (nameT a b) (nameR a b) := by
  have hd := nameT_discovery a b
  refine ⟨hd.symm, by rw [hd]; simp [ha], rfl, kind_ne .variableName, fun s => ?_⟩
  have hF : lit "FIRST_LETTER" ≠ [] := by decide
  have hM : lit "MIN_MAJ_LETTERS" ≠ [] := by decide
  have hne : lit "FIRST_LETTER" ≠ lit "MIN_MAJ_LETTERS" := by decide
  have hk := kind_ne .variableName
  have hd' : (AToken.mk Kind.variableName.name 0 [ar "FIRST_LETTER" a, ar "MIN_MAJ_LETTERS" b]).discovery = a ++ b := hd
  refine ⟨Function.update s (a ++ b) (some (nameR a b)), ?_, ?_⟩
  · rw [nameT, at_, AToken.toRoot, hd']
    simp [ar, enterMatches, AMatch.enter, containMatches, AMatch.contain, AResult.content, containerNow, ha, hb, hF, hM, addContainer, hne,
      mapOut, nodeNow, rootNow, bind, Out.bind, pure, hk, nameR, leafN]
  · rw [hd]; simp

theorem chain_converts (k : Kind) {t : AToken} {r : Root} (h : Converts t r) : Converts (at_ k [ac t]) (chain k r) := by
  obtain ⟨h1, h2, h3, h4, h5⟩ := h
  have hd := at_discovery k t
  refine ⟨h1.trans hd.symm, hd ▸ h2, rfl, kind_ne k, fun s => ?_⟩
  obtain ⟨s', h6, h7⟩ := h5 s
  have hk := kind_ne k
  have hd' : (AToken.mk k.name 0 [ac t]).discovery = t.discovery := hd
  refine ⟨Function.update s' t.discovery (some (chain k r)), ?_, ?_⟩
  · rw [at_, AToken.toRoot, hd']
    simp [ac, enterMatches, AMatch.enter, enterTokens, h6, containMatches, AMatch.contain, containTokens, h7, containerNow, h2, h4, addContainer,
      mapOut, nodeNow, rootNow, bind, Out.bind, pure, hk, chain, partN, h1, h3]
  · rw [hd]; simp

/-- The conversion of a token with two sub tokens which have the same text. -/
theorem clash_converts (k : Kind) (name1 name2 : String) (x1 x2 : Str) {t1 t2 : AToken} {r1 r2 : Root} (h1 : Converts t1 r1) (h2 : Converts t2 r2)
    (hd : t1.discovery = t2.discovery) (hx1 : x1 ≠ []) (hx2 : x2 ≠ [])
    (hnd : [lit name1, t1.name, lit name2, t2.name].Nodup) (hn1 : lit name1 ≠ []) (hn2 : lit name2 ≠ []) :
    toRoot (at_ k [ar name1 x1, ac t1, ar name2 x2, ac t2]) = .ok (some (.mk (x1 ++ t1.discovery ++ x2 ++ t2.discovery) k.name
      [leafN name1 x1, partN t1.name r2, leafN name2 x2, partN t2.name r2])) := by
  obtain ⟨a1, a2, a3, a4, a5⟩ := h1
  obtain ⟨b1, b2, b3, b4, b5⟩ := h2
  obtain ⟨s1, a6, a7⟩ := a5 (fun _ => none)
  obtain ⟨s2, b6, b7⟩ := b5 s1
  have hk := kind_ne k
  have hd' : (AToken.mk k.name 0 [ar name1 x1, ac t1, ar name2 x2, ac t2]).discovery = x1 ++ t1.discovery ++ x2 ++ t2.discovery := by
    simp [AToken.discovery, matchesDiscovery, ac, AMatch.discovery, aTokensDiscovery, ar_content, ar, AResult.content]
  have b8 : s2 t1.discovery = some r2 := hd ▸ b7
  simp only [List.nodup_cons, List.mem_cons, List.not_mem_nil, or_false, not_or] at hnd
  obtain ⟨⟨c1, c2, c3⟩, ⟨c4, c5⟩, c6, _⟩ := hnd
  rw [toRoot, at_, AToken.toRoot, hd']
  simp [ac, ar, enterMatches, AMatch.enter, enterTokens, a6, b6, containMatches, AMatch.contain, containTokens, b7, b8, containerNow, a2, b2, a4, b4,
    addContainer, mapOut, nodeNow, rootNow, bind, Out.bind, pure, hk, partN, leafN, b1, AResult.content, hx1, hx2, hn1, hn2, c1, c2, c3, c4, c5, c6, hd]

end Verif.Base
