import Verif.Lemmas.Scan
import Verif.Props.Ast

/-!
# Properties of the roots
-/

namespace Verif.Lexer
open Verif.Patterns Verif.Cardinality

/-! ## C45: the conversion -/

/-- C45: `ToRoot` gives no root for a token without matches, a root exactly for the convertible tokens (see `Convertible`) and
an error for all the others; it never panics. -/
theorem C45_outcome (t : AToken) :
    (toRoot t = .ok none ↔ t.matchList = []) ∧ ((∃ r, toRoot t = .ok (some r)) ↔ Convertible t) ∧
      (toRoot t = .err ↔ t.matchList ≠ [] ∧ ¬ Convertible t) := by
  have h1 : toRoot t = .ok none ↔ t.matchList = [] := by
    obtain ⟨name, i, l⟩ := t
    unfold toRoot
    rw [AToken.toRoot]
    cases l with
    | nil => simp [AToken.matchList]
    | cons m ms =>
      simp only [List.isEmpty_cons, Bool.false_eq_true, if_false, AToken.matchList, List.cons_ne_nil, iff_false]
      intro h
      simp only [Out.bind_eq_ok] at h
      obtain ⟨x, ⟨_, _, _, _, _, _, _, _, hx⟩, h⟩ := h
      simp at hx
      subst hx
      simp at h
  have h2 : (∃ r, toRoot t = .ok (some r)) ↔ Convertible t := by
    constructor
    · rintro ⟨r, h⟩
      unfold toRoot at h
      rw [Out.bind_eq_ok] at h
      obtain ⟨⟨o, s⟩, hx, h⟩ := h
      simp at h
      subst h
      exact convertible_of_ok t _ _ _ hx
    · intro h
      exact ⟨_, toRoot_eq h⟩
  refine ⟨h1, h2, ?_⟩
  rw [← h2, ne_eq, ← h1]
  cases h : toRoot t with
  | err => simp
  | panic =>
    unfold toRoot at h
    rw [Out.bind_eq_panic] at h
    rcases h with h | ⟨_, _, h⟩
    · exact absurd h (toRoot_ne_panic t _)
    · simp at h
  | ok o => cases o <;> simp

/-- What the container of a child looks like: it has the name and the text of the child; the container of a rule has no root, and
the container of a token has the root of the last token inside the parent (in post-order) with the same text. -/
def ContainerOf (t : AToken) (it : Item) (c : RContainer) : Prop :=
  c.name = it.name ∧ c.content = it.content ∧ (it.token = none → c.root = none) ∧
    ∀ u, it.token = some u → ∃ v r, lastWith u.discovery t.inside = some v ∧ toRoot v = .ok (some r) ∧ c.root = some r

theorem containerOf_contOf {t : AToken} (h : Convertible t) {it : Item} (hit : it ∈ t.items) :
    ContainerOf t it (contOf (over (fun _ => none) t.inside) it) := by
  refine ⟨rfl, rfl, ?_, ?_⟩
  · intro hn; simp [contOf, RContainer.root, hn]
  · intro u hu
    obtain ⟨hc, e⟩ := item_token hit hu
    obtain ⟨v, hv⟩ := lastWith_isSome (child_mem_inside hc)
    have hconv := (toRoot_convertible t h v (by rw [post_eq]; simp [(lastWith_mem hv).1])).1
    refine ⟨v, _, hv, toRoot_eq hconv, ?_⟩
    simp only [contOf, RContainer.root, hu, Option.isSome_some, if_true, over_apply, e, hv]
    simp [rootOpt, toRoot_eq hconv]

/-- C45: the root has the name and the text of the token, its nodes have different names, which are the names of the children,
and the containers of a node are those of the children with its name, in the order of the source. -/
theorem C45_shape (t : AToken) (r : Root) (h : toRoot t = .ok (some r)) :
    r.name = t.name ∧ r.content = t.discovery ∧ (r.nodes.map Node.name).Nodup ∧
      (∀ n, n ∈ r.nodes.map Node.name ↔ ∃ it ∈ t.items, it.name = n) ∧
      (∀ node ∈ r.nodes, List.Forall₂ (ContainerOf t) (t.items.filter (fun it => it.name = node.name)) node.containers) := by
  have hc := (C45_outcome t).2.1.mp ⟨r, h⟩
  rw [toRoot_eq hc] at h
  simp only [Out.ok.injEq, Option.some.injEq] at h
  subst h
  have hg := grouped_groups (t.items.map (contOf (over (fun _ => none) t.inside)))
  have hnames : (nodesOf t).map Node.name = (grouped (t.items.map (contOf (over (fun _ => none) t.inside))) []).map Prod.fst := by
    simp [nodesOf, Function.comp_def, Node.name]
  refine ⟨rfl, rfl, ?_, ?_, ?_⟩
  · simp only [Root.nodes, hnames]; exact hg.nodup
  · intro n
    simp only [Root.nodes, hnames]
    rw [hg.keys n]
    simp [contOf, RContainer.name]
  · intro node hnode
    simp only [Root.nodes, nodesOf, List.mem_map] at hnode
    obtain ⟨p, hp, rfl⟩ := hnode
    have key : ∀ l : List Item, (∀ it ∈ l, it ∈ t.items) → List.Forall₂ (ContainerOf t) (l.filter (fun it => it.name = p.1))
        ((l.map (contOf (over (fun _ => none) t.inside))).filter (fun c => c.name = p.1)) := by
      intro l
      induction l with
      | nil => intro _; exact .nil
      | cons it l ih =>
        intro h
        have ih := ih (fun x hx => h x (by simp [hx]))
        have e : (contOf (over (fun _ => none) t.inside) it).name = it.name := rfl
        by_cases hn : it.name = p.1
        · rw [List.filter_cons_of_pos (by simpa using hn), List.map_cons, List.filter_cons_of_pos (by simpa [e] using hn)]
          exact .cons (containerOf_contOf hc (h it (by simp))) ih
        · rw [List.filter_cons_of_neg (by simpa using hn), List.map_cons, List.filter_cons_of_neg (by simpa [e] using hn)]
          exact ih
    have := key t.items (fun it h => h)
    rw [← hg.lists p hp] at this
    exact this

/-- C45: the text of a node is the concatenation of the texts of the children with its name. -/
theorem C45_node_content (t : AToken) (r : Root) (h : toRoot t = .ok (some r)) (node : Node) (hn : node ∈ r.nodes) :
    node.content = ((t.items.filter (fun it => it.name = node.name)).map Item.content).flatten ∧
      r.fetch node.name = .ok node ∧ r.exists node.name = true := by
  obtain ⟨_, _, h3, _, h5⟩ := C45_shape t r h
  refine ⟨?_, ?_, by simp only [Root.exists, List.any_eq_true, decide_eq_true_eq]; exact ⟨node, hn, rfl⟩⟩
  · have key : ∀ (l : List Item) (cs : List RContainer), List.Forall₂ (ContainerOf t) l cs →
        cs.map RContainer.content = l.map Item.content := by
      intro l cs h
      induction h with
      | nil => rfl
      | cons hab _ ih => simp [hab.2.1, ih]
    unfold Node.content
    rw [key _ _ (h5 node hn)]
  · unfold Root.fetch
    have : r.nodes.find? (fun n => n.name = node.name) = some node := by
      induction hr : r.nodes with
      | nil => rw [hr] at hn; simp at hn
      | cons a l ih =>
        have key : ∀ l : List Node, (l.map Node.name).Nodup → node ∈ l → l.find? (fun n => n.name = node.name) = some node := by
          intro l
          induction l with
          | nil => simp
          | cons a l ih =>
            intro hnd hm
            simp only [List.map_cons, List.nodup_cons] at hnd
            rcases List.mem_cons.mp hm with rfl | hm
            · simp
            · rw [List.find?_cons_of_neg]
              · exact ih hnd.2 hm
              · simp only [decide_eq_true_eq]
                intro e
                exact hnd.1 (e ▸ List.mem_map.mpr ⟨node, hm, rfl⟩)
        rw [hr] at h3 hn
        exact key _ h3 hn
    rw [this]

/-- A token with two kinds of children, one of them repeated, around a rule. -/
def exLeaf (name text : String) : AToken :=
  .mk (lit name) 0 [.rule (lit "R") ⟨lit "code", [⟨0, lit text, .group ⟨lit "g", [lit text]⟩⟩], [], []⟩]
def exTree : AToken := .mk (lit "root") 0 [.token (lit "a") [exLeaf "a" "x", exLeaf "a" "y"], .rule (lit "R")
  ⟨lit "code", [⟨0, lit "-", .group ⟨lit "g", [lit "-"]⟩⟩], [], []⟩, .token (lit "b") [exLeaf "b" "x"]]

theorem exLeaf_convertible (name text : String) (h1 : lit name ≠ []) (h2 : lit text ≠ []) : Convertible (exLeaf name text) := by
  refine .mk h1 (by simp [exLeaf, AToken.items, AMatch.items]) ?_ ?_
  · intro it hit
    simp [exLeaf, AToken.items, AMatch.items] at hit
    subst hit
    exact ⟨by simp [lit], by simpa [AResult.content] using h2⟩
  · intro c hc
    simp [exLeaf, AToken.children, AToken.items, AMatch.items] at hc

theorem exTree_convertible : Convertible exTree := by
  refine .mk (by decide) (by simp [exTree, AToken.items, AMatch.items]) ?_ ?_
  · intro it hit
    simp [exTree, AToken.items, AMatch.items] at hit
    rcases hit with rfl | rfl | rfl | rfl <;> exact ⟨by simp [lit], by decide⟩
  · intro c hc
    simp [exTree, AToken.children, AToken.items, AMatch.items] at hc
    rcases hc with rfl | rfl | rfl <;> exact exLeaf_convertible _ _ (by decide) (by decide)

example : ∃ r, toRoot exTree = .ok (some r) ∧ r.content = lit "xy-x" := by
  obtain ⟨r, h⟩ := (C45_outcome exTree).2.1.mpr exTree_convertible
  exact ⟨r, h, (C45_shape _ _ h).2.1.trans (by decide)⟩

/-- C45: the root of a successful AST (grammars as in C44) has the name of the root of the grammar, and its text is a prefix of
the script. -/
theorem C45_ast_root (env : Env) (hg : GrammarShape False True (fun _ => True) env)
    (chans : List Path) (hch : ∀ k, ∀ p ∈ env.channels k, p ∈ chans) (fuel : Nat) (script : Str) (st st' : St)
    (hst : st.canPrefix = false) (a : AToken) (h : toAST env false fuel script st = some (.ok (.success a), st'))
    (r : Root) (hr : toRoot a = .ok (some r)) : r.name = env.root.element.name ∧ r.content <+: script := by
  obtain ⟨t, _, _, h1, _, h2⟩ := C44_ast env hg chans hch fuel script st st' hst _ h
  obtain ⟨h3, h4, _⟩ := C45_shape a r hr
  exact ⟨h3.trans h1, h4 ▸ h2⟩

/-! ## C46: the root inside the container of a child -/

/-- The container which a root holds for the child behind `pre`: the node has the name of the child, and the container stands
behind those of the earlier children with this name. -/
def HasContainer (r : Root) (pre : List Item) (it : Item) (c : RContainer) : Prop :=
  ∃ node ∈ r.nodes, node.name = it.name ∧ node.containers[(pre.filter (fun i => i.name = it.name)).length]? = some c

theorem hasContainer {t : AToken} {r : Root} (h : toRoot t = .ok (some r)) {pre post : List Item} {it : Item}
    (hit : t.items = pre ++ it :: post) : ∃ c, HasContainer r pre it c ∧ ContainerOf t it c := by
  obtain ⟨_, _, _, h4, h5⟩ := C45_shape t r h
  obtain ⟨node, hn, e⟩ := List.mem_map.mp ((h4 it.name).mpr ⟨it, by simp [hit], rfl⟩)
  have h6 := h5 node hn
  have hlen := h6.length_eq
  have hfil : t.items.filter (fun i => i.name = node.name)
      = pre.filter (fun i => i.name = it.name) ++ it :: post.filter (fun i => i.name = it.name) := by
    rw [hit, e]; simp [List.filter_append]
  set k := (pre.filter (fun i => i.name = it.name)).length with hk
  have hlt : k < node.containers.length := by rw [← hlen, hfil]; simp [hk]
  refine ⟨node.containers[k], ⟨node, hn, e, by simp [← hk, hlt]⟩, ?_⟩
  have := (List.forall₂_iff_get.mp h6).2 k (by rw [hlen]; exact hlt) hlt
  simpa [hfil, hk] using this

/-- The tokens which stand behind the children `pre`. -/
def tokensOf (l : List Item) : List AToken := (l.filterMap Item.token).flatMap AToken.post

theorem inside_split {t : AToken} {pre post : List Item} {it : Item} {u : AToken} (hit : t.items = pre ++ it :: post)
    (hu : it.token = some u) : t.inside = tokensOf pre ++ u.inside ++ u :: tokensOf post := by
  rw [inside_eq]
  simp [AToken.children, hit, hu, tokensOf, post_eq]

theorem lastWith_split {k : Str} {a b : List AToken} {v : AToken} (h : v.discovery = k) (hb : ∀ w ∈ b, w.discovery ≠ k) :
    lastWith k (a ++ v :: b) = some v := by
  unfold lastWith
  rw [List.reverse_append, List.reverse_cons, List.append_assoc, List.find?_append]
  have : b.reverse.find? (fun t => t.discovery = k) = none := by
    rw [List.find?_eq_none]
    intro w hw
    simpa using hb w (by simpa using hw)
  simp [this, h]

/-- C46: if no token behind a child has the same text, the container of the child holds the root of the child itself. -/
theorem C46_own_root (t : AToken) (r : Root) (h : toRoot t = .ok (some r)) (pre post : List Item) (it : Item) (u : AToken)
    (hit : t.items = pre ++ it :: post) (hu : it.token = some u) (hpost : ∀ w ∈ tokensOf post, w.discovery ≠ u.discovery) :
    ∃ c ru, HasContainer r pre it c ∧ c.content = u.discovery ∧ toRoot u = .ok (some ru) ∧ c.root = some ru := by
  obtain ⟨c, h1, _, h2, _, h3⟩ := hasContainer h hit
  obtain ⟨v, rv, hv, hr, hc⟩ := h3 u hu
  rw [inside_split hit hu, lastWith_split rfl hpost] at hv
  simp only [Option.some.injEq] at hv
  subst hv
  have he := (item_token (t := t) (it := it) (u := u) (by simp [hit]) hu).2
  exact ⟨c, rv, h1, h2.trans he, hr, hc⟩

/-- C46, violation: if tokens behind a child have the same text, the container of the child holds the root of the last of them,
with its name. -/
theorem C46_violation (t : AToken) (r : Root) (h : toRoot t = .ok (some r)) (pre post : List Item) (it : Item) (u v : AToken)
    (a b : List AToken) (hit : t.items = pre ++ it :: post) (hu : it.token = some u) (hpost : tokensOf post = a ++ v :: b)
    (hv : v.discovery = u.discovery) (hb : ∀ w ∈ b, w.discovery ≠ u.discovery) :
    ∃ c rv, HasContainer r pre it c ∧ toRoot v = .ok (some rv) ∧ c.root = some rv ∧ rv.name = v.name := by
  obtain ⟨c, h1, _, h2, _, h3⟩ := hasContainer h hit
  obtain ⟨w, rv, hw, hr, hc⟩ := h3 u hu
  have e : tokensOf pre ++ u.inside ++ u :: (a ++ v :: b) = (tokensOf pre ++ u.inside ++ u :: a) ++ v :: b := by simp
  rw [inside_split hit hu, hpost, e, lastWith_split hv hb] at hw
  simp only [Option.some.injEq] at hw
  subst hw
  exact ⟨c, rv, h1, hr, hc, (C45_shape _ _ hr).1⟩

/-- In `exTree` the first child, the token `a` over "x", gets the root of the token `b`; the second child gets its own root. -/
example : ∃ r, toRoot exTree = .ok (some r) ∧
    (∃ c rv, HasContainer r [] ⟨lit "a", lit "x", some (exLeaf "a" "x")⟩ c ∧ c.root = some rv ∧ rv.name = lit "b") ∧
    (∃ c ru, HasContainer r [⟨lit "a", lit "x", some (exLeaf "a" "x")⟩] ⟨lit "a", lit "y", some (exLeaf "a" "y")⟩ c ∧
      c.root = some ru ∧ ru.name = lit "a") := by
  obtain ⟨r, h⟩ := (C45_outcome exTree).2.1.mpr exTree_convertible
  have d1 : (exLeaf "a" "x").discovery = lit "x" := by decide
  have d2 : (exLeaf "a" "y").discovery = lit "y" := by decide
  have d3 : (exLeaf "b" "x").discovery = lit "x" := by decide
  have hit : exTree.items = [⟨lit "a", lit "x", some (exLeaf "a" "x")⟩, ⟨lit "a", lit "y", some (exLeaf "a" "y")⟩,
      ⟨lit "R", lit "-", none⟩, ⟨lit "b", lit "x", some (exLeaf "b" "x")⟩] := by
    simp [exTree, AToken.items, AMatch.items, d1, d2, d3, AResult.content]
  have hp : ∀ n t, (exLeaf n t).post = [exLeaf n t] := by
    intro n t; simp [exLeaf, AToken.post, postMatches, AMatch.post]
  refine ⟨r, h, ?_, ?_⟩
  · obtain ⟨c, rv, h1, _, h2, h3⟩ := C46_violation exTree r h [] _ _ (exLeaf "a" "x") (exLeaf "b" "x") [exLeaf "a" "y"] [] hit rfl
      (by simp [tokensOf, hp]) (by decide) (by simp)
    exact ⟨c, rv, h1, h2, h3⟩
  · obtain ⟨c, ru, h1, _, h2, h3⟩ := C46_own_root exTree r h [⟨lit "a", lit "x", some (exLeaf "a" "x")⟩]
      [⟨lit "R", lit "-", none⟩, ⟨lit "b", lit "x", some (exLeaf "b" "x")⟩] _ (exLeaf "a" "y") hit rfl (by simp [tokensOf, hp]; decide)
    exact ⟨c, ru, h1, h3, (C45_shape _ _ h2).1⟩

/-! ## C47: looking something up by its name -/

/-- C47: for every order in which Go visits the maps, `Scan` returns either a topmost thing of this name in the root (it can be
reached without passing another thing of this name), or an error, and then nothing that can be reached has the name. -/
theorem C47_scan (r : Root) (name : Str) (x : Out (Option Found)) (h : RootScan name r x) :
    (x = .err ∧ ∀ f, ReachRoot r f → f.name ≠ name) ∨ ∃ f, x = .ok (some f) ∧ TopRoot name r f := by
  obtain ⟨h1, h2⟩ := h.scanOk
  cases x with
  | panic => exact absurd h1 (by simp [ScanOk])
  | err => exact .inl ⟨rfl, h1⟩
  | ok o =>
    cases o with
    | none => exact absurd rfl h2
    | some f => exact .inr ⟨f, rfl, h.top⟩

/-- C47: whatever order is chosen for the nodes of the root, `Scan` ends. -/
theorem C47_total (r : Root) (name : Str) (hn : r.name ≠ name) (order : List Node) (ho : order.Perm r.nodes) :
    ∃ x, NodesLoop name order x ∧ RootScan name r x := by
  obtain ⟨x, hx, _⟩ := nodesLoop_total name _ order (Nat.lt_succ_self _)
  exact ⟨x, hx, .sub hn (.range ho hx)⟩

/-- C47: if there is at most one topmost thing of this name, the result does not depend on the orders. -/
theorem C47_unique (r : Root) (name : Str) (hu : ∀ f g, TopRoot name r f → TopRoot name r g → f = g)
    (x y : Out (Option Found)) (hx : RootScan name r x) (hy : RootScan name r y) : x = y := by
  rcases C47_scan r name x hx with ⟨rfl, h1⟩ | ⟨f, rfl, h1⟩
  · rcases C47_scan r name y hy with ⟨rfl, _⟩ | ⟨g, rfl, h3⟩
    · rfl
    · exact absurd h3.reach.2 (h1 g h3.reach.1)
  · rcases C47_scan r name y hy with ⟨rfl, h3⟩ | ⟨g, rfl, h3⟩
    · exact absurd h1.reach.2 (h3 f h1.reach.1)
    · rw [hu f g h1 h3]

/-- C47: a node of the root is found by its name, unless a thing of this name is in another node of the root. -/
theorem C47_own_node (r : Root) (name : Str) (hr : r.name ≠ name) (n : Node) (hn : n ∈ r.nodes) (hname : n.name = name)
    (hother : ∀ m ∈ r.nodes, m ≠ n → ∀ f, ReachNode m f → f.name ≠ name) (x : Out (Option Found)) (hx : RootScan name r x) :
    x = .ok (some (.node n)) := by
  rcases C47_scan r name x hx with ⟨rfl, h1⟩ | ⟨f, rfl, h1⟩
  · exact absurd hname (h1 _ (.sub (.mem hn (.self n))))
  · cases h1 with
    | self h => exact absurd h hr
    | sub _ h =>
      cases h with
      | @mem _ m _ hm h =>
        by_cases e : m = n
        · subst e
          cases h with
          | self => rfl
          | sub h _ _ => exact absurd hname h
        · exact absurd h.reach.2 (hother m hm e f h.reach.1)

/-- C47, violation: a name which stands in the containers of two nodes is found in either of them, depending on the order. -/
theorem C47_violation (r : Root) (name : Str) (a b : Node) (rest : List Node) (hr : r.nodes = a :: b :: rest) (hn : r.name ≠ name)
    (ha : a.name ≠ name) (hb : b.name ≠ name) (ca cb : RContainer) (ras rbs : List RContainer) (ra rb : Root)
    (hca : a.containers = ca :: ras) (hcb : b.containers = cb :: rbs) (hna : ca.name ≠ name) (hnb : cb.name ≠ name)
    (hra : ca.root = some ra) (hrb : cb.root = some rb) (na nb : Node) (hra' : ra.nodes = [na]) (hrb' : rb.nodes = [nb])
    (hnna : na.name = name) (hnnb : nb.name = name) :
    RootScan name r (.ok (some (.node na))) ∧ RootScan name r (.ok (some (.node nb))) := by
  have key : ∀ (n : Node) c cs (root : Root) m, n.name ≠ name → n.containers = c :: cs → c.name ≠ name → c.root = some root →
      root.nodes = [m] → m.name = name → NodeScan name n (.ok (some (.node m))) := by
    intro n c cs root m h1 h2 h3 h4 h5 h6
    refine .sub h1 ?_
    rw [h2]
    refine .found (.sub h3 h4 (.range (List.Perm.refl _) ?_))
    rw [h5]
    exact .found (.self h6)
  refine ⟨.sub hn (.range (List.Perm.refl _) ?_), .sub hn (.range (order := b :: a :: rest) ?_ ?_)⟩
  · rw [hr]; exact .found (key a ca ras ra na ha hca hna hra hra' hnna)
  · rw [hr]; exact List.Perm.swap _ _ _
  · exact .found (key b cb rbs rb nb hb hcb hnb hrb hrb' hnnb)

/-- Two sub roots with a node of the same name and different texts. -/
def exInner (t : String) : Root := .mk (lit t) (lit "inner") [.mk (lit "id") [.mk (lit t) (lit "id") none]]
def exRoot : Root := .mk (lit "12") (lit "top")
  [.mk (lit "left") [.mk (lit "1") (lit "left") (some (exInner "1"))], .mk (lit "right") [.mk (lit "2") (lit "right") (some (exInner "2"))]]

/-- The scan for `left` gives this node (whose container has the same name). -/
example : ∀ x, RootScan (lit "left") exRoot x → x = .ok (some (.node (.mk (lit "left") [.mk (lit "1") (lit "left") (some (exInner "1"))]))) := by
  refine C47_own_node exRoot (lit "left") (by decide) _ (by simp [exRoot, Root.nodes]) rfl ?_
  intro m hm hne f hf
  simp only [exRoot, Root.nodes, List.mem_cons, List.not_mem_nil, or_false] at hm
  rcases hm with rfl | rfl
  · exact absurd rfl hne
  · cases hf with
    | self => show lit "right" ≠ lit "left"; decide
    | sub hc hi =>
      simp only [Node.containers, List.mem_singleton] at hc
      subst hc
      cases hi with
      | self => show lit "right" ≠ lit "left"; decide
      | sub h hi =>
        simp only [RContainer.root, Option.some.injEq] at h
        subst h
        cases hi with
        | mem hm hi =>
          simp only [exInner, Root.nodes, List.mem_singleton] at hm
          subst hm
          cases hi with
          | self => show lit "id" ≠ lit "left"; decide
          | sub hc hi =>
            simp only [Node.containers, List.mem_singleton] at hc
            subst hc
            cases hi with
            | self => show lit "id" ≠ lit "left"; decide
            | sub h => cases h

/-- The scan for `id` gives the text "1" or the text "2"; the scan for the name of the inner roots gives an error. -/
example : (∃ n, RootScan (lit "id") exRoot (.ok (some (.node n))) ∧ n.content = lit "1") ∧
    (∃ n, RootScan (lit "id") exRoot (.ok (some (.node n))) ∧ n.content = lit "2") ∧
    (∀ x, RootScan (lit "inner") exRoot x → x = .err) := by
  obtain ⟨h1, h2⟩ := C47_violation exRoot (lit "id") _ _ [] rfl (by decide) (by decide) (by decide) _ _ [] [] (exInner "1") (exInner "2")
    rfl rfl (by decide) (by decide) rfl rfl _ _ rfl rfl rfl rfl
  refine ⟨⟨_, h1, by decide⟩, ⟨_, h2, by decide⟩, ?_⟩
  intro x hx
  rcases C47_scan _ _ _ hx with ⟨rfl, _⟩ | ⟨f, rfl, h⟩
  · rfl
  · exfalso
    obtain ⟨h, e⟩ := h.reach
    have hleaf : ∀ t f, ReachNodes (exInner t).nodes f → f.name = lit "id" := by
      intro t f h
      cases h with
      | mem hm hi =>
        simp only [exInner, Root.nodes, List.mem_singleton] at hm
        subst hm
        cases hi with
        | self => rfl
        | sub hc hi =>
          simp only [Node.containers, List.mem_singleton] at hc
          subst hc
          cases hi with
          | self => rfl
          | sub h => cases h
    cases h with
    | self => exact absurd e (by decide)
    | sub h =>
      cases h with
      | mem hm hi =>
        simp only [exRoot, Root.nodes, List.mem_cons, List.not_mem_nil, or_false] at hm
        rcases hm with rfl | rfl <;> cases hi with
        | self => exact absurd e (by decide)
        | sub hc hi =>
          simp only [Node.containers, List.mem_singleton] at hc
          subst hc
          cases hi with
          | self => exact absurd e (by decide)
          | sub h hi =>
            cases h
            rw [hleaf _ _ hi] at e
            exact absurd e (by decide)

end Verif.Lexer
