import Verif.Lemmas.BaseGrammar

/-! # Lemmas about conforming root trees -/

namespace Verif.Base
open Verif.Patterns Verif.Lexer

variable {cfg : Cfg}

/-- The names of the rules are no names of tokens: they begin with a capital. -/
theorem kind_small (k : Kind) : ∃ c l, k.name = c :: l ∧ 97 ≤ c.toNat := by
  cases k <;> exact ⟨_, _, rfl, by decide⟩

def ruleCapital : Sym × Card → Bool
  | (.rule s, _) => match lit s with
    | c :: _ => c.toNat < 97
    | [] => false
  | _ => true

theorem rules_capital : ∀ k ∈ allKinds, ∀ line ∈ grammar k, ∀ p ∈ line, ruleCapital p = true := by decide +kernel

theorem rule_ne_kind {k k' : Kind} {line : List (Sym × Card)} (hl : line ∈ grammar k) {s : String} {card : Card}
    (hp : (Sym.rule s, card) ∈ line) : lit s ≠ k'.name := by
  intro h
  have h1 := rules_capital k (mem_all k) line hl _ hp
  obtain ⟨c, l, h2, h3⟩ := kind_small k'
  simp only [ruleCapital, h, h2] at h1
  simp at h1
  omega

/-- The rules of the channels are no tokens. -/
theorem channel_ne_kind {name : Str} (h : name ∈ channelNames) (k : Kind) : name ≠ k.name := by
  obtain ⟨c, l, h2, h3⟩ := kind_small k
  intro hk
  rw [hk, h2] at h
  simp only [channelNames, List.mem_cons, List.not_mem_nil, or_false] at h
  rcases h with h | h | h <;>
    (have h := congrArg (fun l => (l.headD 0).toNat) h; revert h; simp only [List.headD_cons]; intro h
     have h' : c.toNat ≤ 90 := by rw [h]; decide
     omega)

/-- The rules of the channels occur in no line. -/
theorem channel_not_line : ∀ k ∈ allKinds, ∀ line ∈ grammar k, ∀ p ∈ line, p.1.name ∉ channelNames := by decide +kernel

/-- A token occurs in a line of the other. -/
inductive Reach : Kind → Kind → Prop where
  | refl (k : Kind) : Reach k k
  | tail {k k' k'' : Kind} {line : List (Sym × Card)} {card : Card} : line ∈ grammar k → (Sym.tok k', card) ∈ line → Reach k' k'' →
      Reach k k''

theorem exists_iff (r : Root) (name : Str) : r.exists name = true ↔ ∃ n ∈ r.nodes, n.name = name := by
  simp [Root.exists]

/-- What a conforming root consists of. -/
structure Line (cfg : Cfg) (k : Kind) (r : Root) (line : List (Sym × Card)) : Prop where
  mem : line ∈ grammar k
  name : r.name = k.name
  nodup : (r.nodes.map Node.name).Nodup
  nodes : ∀ n ∈ r.nodes, n.containers ≠ [] ∧ ((∃ p ∈ line, n.name = p.1.name ∧ p.2.Allows n.containers.length) ∨
    (n.name ∈ channelNames ∧ ∀ c ∈ n.containers, c.root = none))
  present : ∀ p ∈ line, p.2.Allows 0 ∨ r.exists p.1.name = true
  containers : ∀ n ∈ r.nodes, ∀ c ∈ n.containers, c.name = n.name ∧ c.content ≠ []
  rules : ∀ s card, (Sym.rule s, card) ∈ line → ∀ n ∈ r.nodes, n.name = lit s → ∀ c ∈ n.containers, c.root = none
  roots : ∀ k' card, (Sym.tok k', card) ∈ line → ∀ n ∈ r.nodes, n.name = k'.name → ∀ c ∈ n.containers, c.root ≠ none
  conf : ∀ k' card, (Sym.tok k', card) ∈ line → ∀ n ∈ r.nodes, n.name = k'.name → ∀ c ∈ n.containers, ∀ u, c.root = some u → Conf cfg k' u
  literals : Literals cfg k r
  specifier : Specifier k r

theorem Conf.line {k : Kind} {r : Root} (h : Conf cfg k r) : ∃ line, Line cfg k r line := by
  cases h with
  | mk h1 h2 h3 h4 h5 h6 h7 h8 h9 h10 h11 => exact ⟨_, h1, h2, h3, h4, h5, h6, h7, h8, h9, h10, h11⟩

/-- The mandatory elements of a line. -/
def Card.mandatory : Card → Bool
  | .one => true
  | .plus => true
  | .between a _ => a ≠ 0
  | _ => false

theorem Line.exists {k : Kind} {r : Root} {line : List (Sym × Card)} (h : Line cfg k r line) (name : Str) (p : Sym × Card)
    (hp : p ∈ line) (hn : p.1.name = name) (hm : p.2.mandatory = true) : r.exists name = true := by
  rcases h.present p hp with h1 | h1
  · rcases p with ⟨s, c⟩
    cases c <;> simp_all [Card.Allows, Card.mandatory]
  · exact hn ▸ h1

theorem Line.not_exists {k : Kind} {r : Root} {line : List (Sym × Card)} (h : Line cfg k r line) (name : Str)
    (hch : name ∉ channelNames) (hn : ∀ p ∈ line, p.1.name ≠ name) : r.exists name = false := by
  rw [Bool.eq_false_iff, Ne, exists_iff]
  rintro ⟨n, hn1, hn2⟩
  obtain ⟨_, ⟨p, hp, hp2, _⟩ | ⟨hc, _⟩⟩ := h.nodes n hn1
  · exact hn p hp (hp2 ▸ hn2)
  · exact hch (hn2 ▸ hc)

/-- A node which belongs to no channel belongs to the line. -/
theorem Line.node {k : Kind} {r : Root} {line : List (Sym × Card)} (h : Line cfg k r line) {n : Node} (hn : n ∈ r.nodes)
    (hch : n.name ∉ channelNames) : n.containers ≠ [] ∧ ∃ p ∈ line, n.name = p.1.name ∧ p.2.Allows n.containers.length := by
  obtain ⟨h1, h2 | h2⟩ := h.nodes n hn
  · exact ⟨h1, h2⟩
  · exact absurd h2.1 hch

/-- A node with the name of a token belongs to the line. -/
theorem Line.tokNode {k k' : Kind} {r : Root} {line : List (Sym × Card)} (h : Line cfg k r line) {n : Node} (hn : n ∈ r.nodes)
    (hname : n.name = k'.name) : n.containers ≠ [] ∧ ∃ p ∈ line, n.name = p.1.name ∧ p.2.Allows n.containers.length :=
  h.node hn fun hch => channel_ne_kind hch k' hname

/-- A node with a tree belongs to the line. -/
theorem Line.treeNode {k : Kind} {r : Root} {line : List (Sym × Card)} (h : Line cfg k r line) {n : Node} (hn : n ∈ r.nodes)
    {c : RContainer} (hc : c ∈ n.containers) {u : Root} (hu : c.root = some u) :
    n.containers ≠ [] ∧ ∃ p ∈ line, n.name = p.1.name ∧ p.2.Allows n.containers.length := by
  obtain ⟨h1, h2 | h2⟩ := h.nodes n hn
  · exact ⟨h1, h2⟩
  · have := h2.2 c hc; rw [hu] at this; simp at this

/-- Where `Scan` finds something in a conforming tree: a node of the root itself, or a node in a tree of another element. -/
theorem top_conf {k : Kind} {r : Root} {line : List (Sym × Card)} (h : Line cfg k r line) {name : Str} {f : Found}
    (hf : TopNodes name r.nodes f) : ∃ n, f = .node n ∧ n.name = name ∧ (n ∈ r.nodes ∨
      ∃ k1 card k2 u line2, (Sym.tok k1, card) ∈ line ∧ k1.name ≠ name ∧ Reach k1 k2 ∧ Line cfg k2 u line2 ∧ Inside r u ∧ n ∈ u.nodes) := by
  induction hs : sizeOf r using Nat.strongRecOn generalizing r k line with
  | _ s ih =>
    subst hs
    cases hf with
    | @mem _ n _ hn hf =>
      cases hf with
      | self h1 => exact ⟨n, rfl, h1, .inl hn⟩
      | @sub _ c _ hne hc hf =>
        obtain ⟨hc1, _⟩ := h.containers n hn c hc
        cases hf with
        | self h2 => exact absurd (hc1 ▸ h2) hne
        | @sub _ v _ _ hv hf =>
          obtain ⟨_, ⟨⟨s, card⟩, hp, hp2, _⟩ | ⟨_, hch⟩⟩ := h.nodes n hn
          swap
          · exact absurd (hch c hc) (by simp [hv])
          cases s with
          | rule s => exact absurd (h.rules s card hp n hn hp2 c hc) (by simp [hv])
          | tok k1 =>
            have hconf := h.conf k1 card hp n hn hp2 c hc v hv
            have hi : Inside r v := ⟨c, .mem hn (.sub hc (.self c)), hv⟩
            have hk1 : k1.name ≠ name := fun he => hne (hp2.trans he)
            obtain ⟨l2, hl2⟩ := hconf.line
            obtain ⟨m, rfl, hm, hor⟩ := ih _ (sizeOf_inside hi) hl2 hf rfl
            refine ⟨m, rfl, hm, .inr ?_⟩
            rcases hor with hor | ⟨k3, card3, k2, u, line2, h3, h4, h5, h6, h7, h8⟩
            · exact ⟨k1, card, k1, v, l2, hp, hk1, .refl _, hl2, hi, hor⟩
            · refine ⟨k1, card, k2, u, line2, hp, hk1, .tail hl2.mem h3 h5, h6, ?_, h8⟩
              obtain ⟨d, hd1, hd2⟩ := h7
              exact ⟨d, .mem hn (.sub hc (.sub hv hd1)), hd2⟩

/-! ## What the events deliver -/

/-- The object for a root; for several names there are several names. -/
def GoodAt (k : Kind) (u : Root) (v : V) : Prop :=
  Good k v ∧ (k = .assigneeNames → u.exists (lit "commaAssigneeName") = true → ∃ a b l, v = .other (.assigneeNames (a :: b :: l)))

/-- The outcome of an event: an object, possibly inside a result. -/
def Delivers (k : Kind) (u : Root) (o : Out V) : Prop := ∃ v, GoodAt k u v ∧ (o = .ok v ∨ o = .ok (.result [v]))

theorem good_plain {k : Kind} {v : V} (h : Good k v) : unwrap v = (none, v) ∧ resultNow v none = .ok [v] := by
  cases k <;> (obtain ⟨x, h⟩ := h; first | (subst h; exact ⟨rfl, rfl⟩) | (obtain ⟨rfl, _⟩ := h; exact ⟨rfl, rfl⟩))

/-- The event of a token gives a value, possibly inside a result. -/
def Yields (cfg : Cfg) (k : Kind) (u : Root) (v : V) : Prop :=
  ProgRun (baseEvents cfg) (evOf cfg k u) (.ok v) ∨ ProgRun (baseEvents cfg) (evOf cfg k u) (.ok (.result [v]))

theorem events_conf {k : Kind} {u : Root} (h : ∀ o, ProgRun (baseEvents cfg) (evOf cfg k u) o → Delivers k u o)
    {x : Out (Option (List V) × V)} (hx : EventsRun (baseEvents cfg) k.name u x) : ∃ v, x = .ok (none, v) ∧ GoodAt k u v ∧ Yields cfg k u v := by
  cases hx with
  | none hg => rw [get_evOf] at hg; simp at hg
  | some hg hl =>
    rw [get_evOf] at hg
    simp only [Option.some.injEq] at hg
    subst hg
    cases hl with
    | fail hp _ => obtain ⟨v, _, h | h⟩ := h _ hp <;> simp at h
    | panic hp => obtain ⟨v, _, h | h⟩ := h _ hp <;> simp at h
    | ok hp =>
      obtain ⟨v, hv, h | h⟩ := h _ hp <;> simp only [Out.ok.injEq] at h <;> subst h
      · refine ⟨_, ?_, hv, .inl hp⟩; rw [(good_plain hv.1).1]
      · exact ⟨_, rfl, hv, .inr hp⟩

/-- The values for the containers of a node of a token. -/
abbrev TokValue (cfg : Cfg) (k : Kind) (c : RContainer) (v : V) : Prop := ∃ u, c.root = some u ∧ Conf cfg k u ∧ GoodAt k u v ∧ Yields cfg k u v

theorem containers_tok {k : Kind} {cs : List RContainer} (hr : ∀ c ∈ cs, c.root ≠ none)
    (hc : ∀ c ∈ cs, ∀ u, c.root = some u → Conf cfg k u ∧ ∀ o, ProgRun (baseEvents cfg) (evOf cfg k u) o → Delivers k u o)
    {x : Out (List V)} (hx : ContainersRun (baseEvents cfg) k.name cs x) : ∃ l, x = .ok l ∧ List.Forall₂ (TokValue cfg k) cs l := by
  have one : ∀ c ∈ cs, ∀ x, ContainerRun (baseEvents cfg) k.name c x → ∃ v, x = .ok (none, v) ∧ TokValue cfg k c v := by
    intro c hm x hx
    cases hx with
    | content h => exact absurd h (hr c hm)
    | root h hx =>
      obtain ⟨v, rfl, hv⟩ := events_conf (hc c hm _ h).2 hx
      exact ⟨v, rfl, _, h, (hc c hm _ h).1, hv⟩
  induction cs generalizing x with
  | nil => cases hx; exact ⟨[], rfl, .nil⟩
  | cons c cs ih =>
    have ih := fun {x} => ih (fun c h => hr c (by simp [h])) (fun c h => hc c (by simp [h])) (x := x) (one := fun c h => one c (by simp [h]))
    cases hx with
    | err h => obtain ⟨v, h, _⟩ := one c (by simp) _ h; simp at h
    | panic h => obtain ⟨v, h, _⟩ := one c (by simp) _ h; simp at h
    | cons h hs =>
      obtain ⟨v, h, hv⟩ := one c (by simp) _ h
      obtain ⟨l, h', hl⟩ := ih hs
      simp only [Out.ok.injEq] at h h'
      subst h h'
      exact ⟨_, rfl, .cons hv hl⟩
    | consErr _ hs => obtain ⟨l, h, _⟩ := ih hs; simp at h
    | consPanic _ hs => obtain ⟨l, h, _⟩ := ih hs; simp at h

theorem containers_rule {name : Str} {cs : List RContainer} (hr : ∀ c ∈ cs, c.root = none)
    {x : Out (List V)} (hx : ContainersRun (baseEvents cfg) name cs x) : x = .ok (cs.map fun c => .text c.content) := by
  have one : ∀ c ∈ cs, ∀ x, ContainerRun (baseEvents cfg) name c x → x = .ok (none, .text c.content) := by
    intro c hm x hx
    cases hx with
    | content h => rfl
    | root h hx => rw [hr c hm] at h; simp at h
  induction cs generalizing x with
  | nil => cases hx; rfl
  | cons c cs ih =>
    have ih := fun {x} => ih (fun c h => hr c (by simp [h])) (x := x) (one := fun c h => one c (by simp [h]))
    cases hx with
    | err h => have h := one c (by simp) _ h; simp at h
    | panic h => have h := one c (by simp) _ h; simp at h
    | cons h hs =>
      have h := one c (by simp) _ h
      have h' := ih hs
      simp only [Out.ok.injEq] at h h'
      subst h h'
      rfl
    | consErr _ hs => have h := ih hs; simp at h
    | consPanic _ hs => have h := ih hs; simp at h

/-- Where a node was found. -/
def FoundAt (cfg : Cfg) (r : Root) (line : List (Sym × Card)) (name : Str) (n : Node) : Prop :=
  TopNodes name r.nodes (.node n) ∧ (n ∈ r.nodes ∨
    ∃ k1 card k2 u line2, (Sym.tok k1, card) ∈ line ∧ k1.name ≠ name ∧ Reach k1 k2 ∧ Line cfg k2 u line2 ∧ Inside r u ∧ n ∈ u.nodes)

/-- `Trigger` with a name that exists: the values of the containers of a node. -/
theorem trigger_cases {k : Kind} {r : Root} {line : List (Sym × Card)} (h : Line cfg k r line) {name : Str}
    (he : r.exists name = true) {x : Out (List V)} (hx : TriggerRun (baseEvents cfg) name r x) :
    ∃ n y, n.name = name ∧ FoundAt cfg r line name n ∧ ContainersRun (baseEvents cfg) name n.containers y ∧
      ((y = .err ∧ x = .err) ∨ (y = .panic ∧ x = .panic) ∨ ∃ l, y = .ok l ∧ x = resultNow .nil (some l)) := by
  obtain ⟨m, hm, hm2⟩ := (exists_iff r name).mp he
  have hne : ¬ NodesScan name r.nodes .err := fun hs => hs.scanOk.1 _ (.mem hm (.self m)) hm2
  have hnn : ¬ NodesScan name r.nodes (.ok none) := fun hs => hs.scanOk.2 rfl
  have hnr : ∀ u, ¬ NodesScan name r.nodes (.ok (some (.root u))) := fun u hs => by
    obtain ⟨n, h, _⟩ := top_conf h (hs.top rfl); simp at h
  have hnc : ∀ c, ¬ NodesScan name r.nodes (.ok (some (.container c))) := fun u hs => by
    obtain ⟨n, h, _⟩ := top_conf h (hs.top rfl); simp at h
  have hn : ∀ n, NodesScan name r.nodes (.ok (some (.node n))) → n.name = name ∧ FoundAt cfg r line name n := fun n hs => by
    obtain ⟨n', h, h'⟩ := top_conf h (hs.top rfl)
    simp only [Found.node.injEq] at h
    subst h
    exact ⟨h'.1, hs.top rfl, h'.2⟩
  cases hx with
  | err hs => exact absurd hs hne
  | nothing hs => exact absurd hs hnn
  | root hs _ => exact absurd hs (hnr _)
  | rootErr hs _ => exact absurd hs (hnr _)
  | rootPanic hs _ => exact absurd hs (hnr _)
  | container hs _ => exact absurd hs (hnc _)
  | containerErr hs _ => exact absurd hs (hnc _)
  | containerPanic hs _ => exact absurd hs (hnc _)
  | node hs hc => exact ⟨_, _, (hn _ hs).1, (hn _ hs).2, hc, .inr (.inr ⟨_, rfl, rfl⟩)⟩
  | nodeErr hs hc => exact ⟨_, _, (hn _ hs).1, (hn _ hs).2, hc, .inl ⟨rfl, rfl⟩⟩
  | nodePanic hs hc => exact ⟨_, _, (hn _ hs).1, (hn _ hs).2, hc, .inr (.inl ⟨rfl, rfl⟩)⟩

/-- The events of all the roots inside deliver. -/
def AllInside (cfg : Cfg) (r : Root) : Prop :=
  ∀ k u, Inside r u → Conf cfg k u → ∀ o, ProgRun (baseEvents cfg) (evOf cfg k u) o → Delivers k u o

theorem FoundAt.line {k : Kind} {r : Root} {line : List (Sym × Card)} (h : Line cfg k r line) {name : Str} {n : Node}
    (hf : FoundAt cfg r line name n) : ∃ k2 u line2, Line cfg k2 u line2 ∧ n ∈ u.nodes ∧ (u = r ∨ Inside r u) := by
  rcases hf.2 with hf | ⟨_, _, k2, u, line2, _, _, _, h1, h2, h3⟩
  · exact ⟨k, r, line, h, hf, .inl rfl⟩
  · exact ⟨k2, u, line2, h1, h3, .inr h2⟩

mutual
theorem reachNodes_trans {ns : List Node} {c : RContainer} {u : Root} {g f : Found} (hu : c.root = some u) (hg : ReachNodes u.nodes g)
    (hf : f = .container c) : ReachNodes ns f → ReachNodes ns g
  | .mem hm h => .mem hm (reachNode_trans hu hg hf h)
theorem reachNode_trans {m : Node} {c : RContainer} {u : Root} {g f : Found} (hu : c.root = some u) (hg : ReachNodes u.nodes g)
    (hf : f = .container c) : ReachNode m f → ReachNode m g
  | .self m => by simp at hf
  | .sub hm h => .sub hm (reachContainer_trans hu hg hf h)
theorem reachContainer_trans {d : RContainer} {c : RContainer} {u : Root} {g f : Found} (hu : c.root = some u)
    (hg : ReachNodes u.nodes g) (hf : f = .container c) : ReachContainer d f → ReachContainer d g
  | .self _ => by simp at hf; subst hf; exact .sub hu hg
  | .sub hr h => .sub hr (reachNodes_trans hu hg hf h)
end

theorem inside_trans {r u v : Root} (h : u = r ∨ Inside r u) (h' : Inside u v) : Inside r v := by
  rcases h with rfl | h
  · exact h'
  · obtain ⟨c, h1, h2⟩ := h
    obtain ⟨d, h3, h4⟩ := h'
    exact ⟨d, reachNodes_trans h2 h3 rfl h1, h4⟩


theorem inside_node {r : Root} {n : Node} {c : RContainer} {u : Root} (hn : n ∈ r.nodes) (hc : c ∈ n.containers)
    (hu : c.root = some u) : Inside r u := ⟨c, .mem hn (.sub hc (.self c)), hu⟩

theorem forall₂_ne_nil {α β : Type} {R : α → β → Prop} {l : List α} {m : List β} (h : List.Forall₂ R l m) (hl : l ≠ []) : m ≠ [] := by
  cases h with
  | nil => exact absurd rfl hl
  | cons _ _ => simp

theorem resultNow_list {l : List V} (h : l ≠ []) : resultNow .nil (some l) = .ok l := by
  cases l with
  | nil => exact absurd rfl h
  | cons a l => rfl

/-- `Trigger` with the name of a token that exists. -/
theorem trigger_tok {k : Kind} {r : Root} {line : List (Sym × Card)} (h : Line cfg k r line) (ih : AllInside cfg r) {k' : Kind}
    (he : r.exists k'.name = true) {x : Out (List V)} (hx : TriggerRun (baseEvents cfg) k'.name r x) :
    ∃ n l, x = .ok l ∧ l ≠ [] ∧ n.name = k'.name ∧ FoundAt cfg r line k'.name n ∧ List.Forall₂ (TokValue cfg k') n.containers l ∧
      ∃ k2 line2 card, line2 ∈ grammar k2 ∧ (Sym.tok k', card) ∈ line2 ∧ card.Allows n.containers.length := by
  obtain ⟨n, y, hn, hat, hc, hor⟩ := trigger_cases h he hx
  obtain ⟨k2, u, line2, hl2, hnu, hu⟩ := hat.line h
  obtain ⟨hne, ⟨⟨s, card⟩, hp, hp2, hcard⟩ | ⟨hch, _⟩⟩ := hl2.nodes n hnu
  swap
  · exact absurd hn (channel_ne_kind hch k')
  cases s with
  | rule s => exact absurd (hp2.symm.trans hn) (rule_ne_kind hl2.mem hp)
  | tok k3 =>
    have : k3 = k' := name_inj (hp2.symm.trans hn)
    subst this
    obtain ⟨l, rfl, hl⟩ := containers_tok (hl2.roots k3 card hp n hnu hp2)
      (fun c hcm v hv => ⟨hl2.conf k3 card hp n hnu hp2 c hcm v hv,
        ih k3 v (inside_trans hu (inside_node hnu hcm hv)) (hl2.conf k3 card hp n hnu hp2 c hcm v hv)⟩) hc
    have hne' := forall₂_ne_nil hl hne
    refine ⟨n, l, ?_, hne', hn, hat, hl, k2, line2, card, hl2.mem, hp, hcard⟩
    rcases hor with ⟨h, _⟩ | ⟨h, _⟩ | ⟨l', h, rfl⟩
    · simp at h
    · simp at h
    · simp only [Out.ok.injEq] at h; subst h; exact resultNow_list hne'

/-- `Trigger` with the name of a rule that exists. -/
theorem trigger_rule {k : Kind} {r : Root} {line : List (Sym × Card)} (h : Line cfg k r line) {name : Str}
    (hno : ∀ k : Kind, k.name ≠ name) (he : r.exists name = true) {x : Out (List V)} (hx : TriggerRun (baseEvents cfg) name r x) :
    ∃ n, x = .ok (n.containers.map fun c => .text c.content) ∧ n.name = name ∧ FoundAt cfg r line name n ∧
      n.containers ≠ [] ∧ ∀ c ∈ n.containers, c.content ≠ [] := by
  obtain ⟨n, y, hn, hat, hc, hor⟩ := trigger_cases h he hx
  obtain ⟨k2, u, line2, hl2, hnu, hu⟩ := hat.line h
  have hne := (hl2.nodes n hnu).1
  have hroots : ∀ c ∈ n.containers, c.root = none := by
    obtain ⟨_, ⟨⟨s, card⟩, hp, hp2, hcard⟩ | ⟨_, hch⟩⟩ := hl2.nodes n hnu
    · cases s with
      | tok k3 => exact absurd (hp2.symm.trans hn) (hno k3)
      | rule s => exact hl2.rules s card hp n hnu hp2
    · exact hch
  · have := containers_rule hroots hc
    subst this
    refine ⟨n, ?_, hn, hat, hne, fun c hc => (hl2.containers n hnu c hc).2⟩
    rcases hor with ⟨h, _⟩ | ⟨h, _⟩ | ⟨l', h, rfl⟩
    · simp at h
    · simp at h
    · simp only [Out.ok.injEq] at h; subst h; exact resultNow_list (by simpa using hne)

end Verif.Base
