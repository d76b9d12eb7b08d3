import Verif.Lemmas.BaseSafeMore
import Verif.Lemmas.BaseParser

/-! # The events of the base language on root trees which need not conform: no event panics -/

namespace Verif.Base
open Verif.Patterns Verif.Lexer

variable {cfg : Cfg}

/-- A token is mentioned in a line of the other. -/
def Mentions (k k' : Kind) : Prop := ∃ line ∈ grammar k, ∃ card, (Sym.tok k', card) ∈ line

theorem Reach.trans {a b c : Kind} (h : Reach a b) (h' : Reach b c) : Reach a c := by
  induction h with
  | refl => exact h'
  | tail h1 h2 _ ih => exact .tail h1 h2 (ih h')

/-- What may stand for the child `k'` of a token `k`: a tree of a token in the tree of `k`, with some restrictions. -/
structure Stands (k k' : Kind) (u : Root) : Prop where
  below : ∃ k1, Mentions k k1 ∧ ∃ k2, u.name = k2.name ∧ Reach k1 k2
  fetcher : k' = .listElementFetcher → ∃ k2, u.name = k2.name ∧ Reach .listElementFetcher k2
  names : k = .forStatement → k' = .assigneeNames → (u.name = Kind.name .assigneeNames ∧ u.exists (lit "commaAssigneeName") = true) ∨
    ∃ k2, u.name = k2.name ∧ Reach .totalListValue k2
  loop : k' = .forStatement → u.name = Kind.name .assignee → u.exists (lit "assigneeNames") = false

/-- Root trees whose nodes are those of the lines, but possibly not all of them, and in which other trees may stand for the children. -/
inductive Built : Root → Prop where
  | mk {r : Root} {k : Kind} : r.name = k.name →
      (∀ n ∈ r.nodes, n.containers ≠ [] ∧ ∀ c ∈ n.containers, c.name = n.name ∧ c.content ≠ []) →
      (∀ n ∈ r.nodes, (∀ k' : Kind, n.name ≠ k'.name) → ∀ c ∈ n.containers, c.root = none) →
      (∀ n ∈ r.nodes, ∀ k' : Kind, n.name = k'.name → Mentions k k' ∧ (singleKind k' = true → n.containers.length ≤ 1) ∧
        (k ≠ .sliceDelimiter → k' = .indexValue → n.containers.length ≤ 1) ∧
        ∀ c ∈ n.containers, c.root ≠ none ∧ ∀ u, c.root = some u → Stands k k' u) →
      (∀ n ∈ r.nodes, ∀ c ∈ n.containers, ∀ u, c.root = some u → Built u) → Built r

structure BuiltAs (k : Kind) (r : Root) : Prop where
  name : r.name = k.name
  containers : ∀ n ∈ r.nodes, n.containers ≠ [] ∧ ∀ c ∈ n.containers, c.name = n.name ∧ c.content ≠ []
  rules : ∀ n ∈ r.nodes, (∀ k' : Kind, n.name ≠ k'.name) → ∀ c ∈ n.containers, c.root = none
  tokens : ∀ n ∈ r.nodes, ∀ k' : Kind, n.name = k'.name → Mentions k k' ∧ (singleKind k' = true → n.containers.length ≤ 1) ∧
    (k ≠ .sliceDelimiter → k' = .indexValue → n.containers.length ≤ 1) ∧
    ∀ c ∈ n.containers, c.root ≠ none ∧ ∀ u, c.root = some u → Stands k k' u
  inside : ∀ n ∈ r.nodes, ∀ c ∈ n.containers, ∀ u, c.root = some u → Built u

theorem Built.as {r : Root} (h : Built r) : ∃ k, BuiltAs k r := by
  cases h with
  | mk h1 h2 h3 h4 h5 => exact ⟨_, h1, h2, h3, h4, h5⟩

/-- What `Scan` finds is a node of the root or of a root inside. -/
theorem top_built {r : Root} {k : Kind} (h : BuiltAs k r) {name : Str} {f : Found} (hf : TopNodes name r.nodes f) :
    ∃ n r' k2, f = .node n ∧ n.name = name ∧ n ∈ r'.nodes ∧ (r' = r ∨ Inside r r') ∧ BuiltAs k2 r' ∧ Reach k k2 := by
  induction hs : sizeOf r using Nat.strong_induction_on generalizing r k with
  | _ s ih =>
    subst hs
    cases hf with
    | @mem _ n _ hn hf =>
      cases hf with
      | self h1 => exact ⟨n, r, k, rfl, h1, hn, .inl rfl, h, .refl _⟩
      | @sub _ c _ hne hc hf =>
        obtain ⟨hc1, _⟩ := (h.containers n hn).2 c hc
        cases hf with
        | self h2 => exact absurd (hc1 ▸ h2) hne
        | @sub _ v _ _ hv hf =>
          have hi : Inside r v := inside_node hn hc hv
          obtain ⟨kv, hbv⟩ := (h.inside n hn c hc v hv).as
          obtain ⟨m, r', k2, rfl, hm, hm2, hor, hb, hr⟩ := ih _ (sizeOf_inside hi) hbv hf rfl
          refine ⟨m, r', k2, rfl, hm, hm2, .inr ?_, hb, ?_⟩
          · rcases hor with rfl | hor
            · exact hi
            · exact inside_trans (.inr hi) hor
          · by_cases hk : ∃ k', n.name = Kind.name k'
            · obtain ⟨k', hk'⟩ := hk
              obtain ⟨k1, ⟨line, hl, card, hp⟩, k3, h3, hr3⟩ := ((h.tokens n hn k' hk').2.2.2 c hc).2 v hv |>.below
              have : kv = k3 := name_inj (hbv.name.symm.trans h3)
              subst this
              exact (Reach.tail hl hp hr3).trans hr
            · have := h.rules n hn (fun k' hk' => hk ⟨k', hk'⟩) c hc
              rw [hv] at this; simp at this

/-- The events which are called with a root. -/
structure Allowed (k' k : Kind) (u : Root) : Prop where
  fetcher : k' = .listElementFetcher → Reach .listElementFetcher k
  loop : k' = .forStatement → k = .assignee → u.exists (lit "assigneeNames") = false

/-- An error, or an object for the token. -/
def Fine (k : Kind) (u : Root) (o : Out V) : Prop := o = .err ∨ Delivers k u o

/-- The events of the roots inside are fine. -/
def InsideFine (cfg : Cfg) (r : Root) : Prop :=
  ∀ k' k u, Inside r u → BuiltAs k u → Allowed k' k u → Ends cfg (evOf cfg k' u) (Fine k' u)

theorem Stands.allowed {k k' k2 : Kind} {u : Root} (h : Stands k k' u) (hu : u.name = k2.name) : Allowed k' k2 u := by
  refine ⟨fun e => ?_, fun e e2 => ?_⟩
  · obtain ⟨k3, h3, h4⟩ := h.fetcher e
    have : k2 = k3 := name_inj (hu.symm.trans h3)
    exact this ▸ h4
  · subst e2; exact h.loop e hu

theorem events_fine {k : Kind} {u : Root} (h : Ends cfg (evOf cfg k u) (Fine k u))
    {x : Out (Option (List V) × V)} (hx : EventsRun (baseEvents cfg) k.name u x) : x = .err ∨ ∃ v, x = .ok (none, v) ∧ GoodAt k u v := by
  cases hx with
  | none hg => exact .inl rfl
  | some hg hl =>
    rw [get_evOf] at hg
    simp only [Option.some.injEq] at hg
    subst hg
    cases hl with
    | fail hp hl => cases hl; exact .inl rfl
    | panic hp => rcases h _ hp with h | ⟨v, _, h | h⟩ <;> simp at h
    | ok hp =>
      right
      rcases h _ hp with h | ⟨v, hv, h | h⟩ <;> simp only [Out.ok.injEq, reduceCtorEq] at h <;> subst h
      · refine ⟨_, ?_, hv⟩; rw [(good_plain hv.1).1]
      · exact ⟨_, rfl, hv⟩

abbrev SomeValue (k k' : Kind) (c : RContainer) (v : V) : Prop := ∃ u, c.root = some u ∧ Stands k k' u ∧ Built u ∧ GoodAt k' u v

theorem containers_fine {k k' : Kind} {cs : List RContainer} (hr : ∀ c ∈ cs, c.root ≠ none)
    (hc : ∀ c ∈ cs, ∀ u, c.root = some u → Stands k k' u ∧ Built u ∧ Ends cfg (evOf cfg k' u) (Fine k' u))
    {x : Out (List V)} (hx : ContainersRun (baseEvents cfg) k'.name cs x) : x = .err ∨ ∃ l, x = .ok l ∧ List.Forall₂ (SomeValue k k') cs l := by
  have one : ∀ c ∈ cs, ∀ x, ContainerRun (baseEvents cfg) k'.name c x → x = .err ∨ ∃ v, x = .ok (none, v) ∧ SomeValue k k' c v := by
    intro c hm x hx
    cases hx with
    | content h => exact absurd h (hr c hm)
    | root h hx =>
      obtain ⟨h1, h2, h3⟩ := hc c hm _ h
      rcases events_fine h3 hx with rfl | ⟨v, rfl, hv⟩
      · exact .inl rfl
      · exact .inr ⟨v, rfl, _, h, h1, h2, hv⟩
  induction cs generalizing x with
  | nil => cases hx; exact .inr ⟨[], rfl, .nil⟩
  | cons c cs ih =>
    have ih := fun {x} => ih (fun c h => hr c (by simp [h])) (fun c h => hc c (by simp [h])) (x := x) (one := fun c h => one c (by simp [h]))
    cases hx with
    | err h => exact .inl rfl
    | panic h => rcases one c (by simp) _ h with h | ⟨_, h, _⟩ <;> simp at h
    | cons h hs =>
      rcases one c (by simp) _ h with h | ⟨v, h, hv⟩
      · simp at h
      rcases ih hs with h' | ⟨l, h', hl⟩
      · simp at h'
      simp only [Out.ok.injEq] at h h'
      subst h h'
      exact .inr ⟨_, rfl, .cons hv hl⟩
    | consErr _ hs => exact .inl rfl
    | consPanic _ hs => rcases ih hs with h | ⟨_, h, _⟩ <;> simp at h

/-- `Trigger`: an error, or the values of the containers of a node. -/
theorem trigger_any {k : Kind} {r : Root} (h : BuiltAs k r) {name : Str} {x : Out (List V)} (hx : TriggerRun (baseEvents cfg) name r x) :
    x = .err ∨ ∃ n y r' k2, n.name = name ∧ n ∈ r'.nodes ∧ (r' = r ∨ Inside r r') ∧ BuiltAs k2 r' ∧ Reach k k2 ∧
      ContainersRun (baseEvents cfg) name n.containers y ∧
      ((y = .err ∧ x = .err) ∨ (y = .panic ∧ x = .panic) ∨ ∃ l, y = .ok l ∧ x = resultNow .nil (some l)) := by
  have hnr : ∀ u, ¬ NodesScan name r.nodes (.ok (some (.root u))) := fun u hs => by
    obtain ⟨_, _, _, h, _⟩ := top_built h (hs.top rfl); simp at h
  have hnc : ∀ c, ¬ NodesScan name r.nodes (.ok (some (.container c))) := fun u hs => by
    obtain ⟨_, _, _, h, _⟩ := top_built h (hs.top rfl); simp at h
  have hn : ∀ n, NodesScan name r.nodes (.ok (some (.node n))) → ∃ r' k2, n.name = name ∧ n ∈ r'.nodes ∧ (r' = r ∨ Inside r r') ∧ BuiltAs k2 r' ∧ Reach k k2 := fun n hs => by
    obtain ⟨n', r', k2, h, h'⟩ := top_built h (hs.top rfl)
    simp only [Found.node.injEq] at h
    subst h
    exact ⟨r', k2, h'⟩
  cases hx with
  | err hs => exact .inl rfl
  | nothing hs => exact .inl rfl
  | root hs _ => exact absurd hs (hnr _)
  | rootErr hs _ => exact absurd hs (hnr _)
  | rootPanic hs _ => exact absurd hs (hnr _)
  | container hs _ => exact absurd hs (hnc _)
  | containerErr hs _ => exact absurd hs (hnc _)
  | containerPanic hs _ => exact absurd hs (hnc _)
  | node hs hc =>
    obtain ⟨r', k2, h1, h2, h3, h4, h5⟩ := hn _ hs
    exact .inr ⟨_, _, r', k2, h1, h2, h3, h4, h5, hc, .inr (.inr ⟨_, rfl, rfl⟩)⟩
  | nodeErr hs hc =>
    obtain ⟨r', k2, h1, h2, h3, h4, h5⟩ := hn _ hs
    exact .inr ⟨_, _, r', k2, h1, h2, h3, h4, h5, hc, .inl ⟨rfl, rfl⟩⟩
  | nodePanic hs hc =>
    obtain ⟨r', k2, h1, h2, h3, h4, h5⟩ := hn _ hs
    exact .inr ⟨_, _, r', k2, h1, h2, h3, h4, h5, hc, .inr (.inl ⟨rfl, rfl⟩)⟩

/-- `Trigger` with the name of a token. -/
theorem trigger_fine {k : Kind} {r : Root} (h : BuiltAs k r) (ih : InsideFine cfg r) {k' : Kind} {x : Out (List V)}
    (hx : TriggerRun (baseEvents cfg) k'.name r x) : x = .err ∨ ∃ n l r' k2, x = .ok l ∧ l ≠ [] ∧ n.name = k'.name ∧ n ∈ r'.nodes ∧ BuiltAs k2 r' ∧
      Reach k k2 ∧ List.Forall₂ (SomeValue k2 k') n.containers l := by
  rcases trigger_any h hx with rfl | ⟨n, y, r', k2, hn, hm, hr, hb, hre, hc, hor⟩
  · exact .inl rfl
  obtain ⟨_, _, _, ht⟩ := hb.tokens n hm k' hn
  have := containers_fine (k := k2) (fun c hc => (ht c hc).1) (fun c hc u hu => by
    have hs := (ht c hc).2 u hu
    have hbu := hb.inside n hm c hc u hu
    obtain ⟨ku, hku⟩ := hbu.as
    exact ⟨hs, hbu, ih k' ku u (inside_trans hr (inside_node hm hc hu)) hku (hs.allowed hku.name)⟩) hc
  rcases this with rfl | ⟨l, rfl, hl⟩
  · rcases hor with ⟨_, rfl⟩ | ⟨h, _⟩ | ⟨l, h, _⟩
    · exact .inl rfl
    · simp at h
    · simp at h
  · rcases hor with ⟨h, _⟩ | ⟨h, _⟩ | ⟨l, h, rfl⟩
    · simp at h
    · simp at h
    · simp only [Out.ok.injEq] at h
      subst h
      have hl' := forall₂_ne_nil hl (hb.containers n hm).1
      exact .inr ⟨n, _, r', k2, resultNow_list hl', hl', hn, hm, hb, hre, hl⟩

/-- `Trigger` with the name of a rule: texts. -/
theorem trigger_texts {k : Kind} {r : Root} (h : BuiltAs k r) {name : Str} (hno : ∀ k : Kind, k.name ≠ name) {x : Out (List V)}
    (hx : TriggerRun (baseEvents cfg) name r x) : x = .err ∨ ∃ l, x = .ok l ∧ l ≠ [] ∧ ∀ v ∈ l, ∃ s, v = .text s := by
  rcases trigger_any h hx with rfl | ⟨n, y, r', k2, hn, hm, hr, hb, hre, hc, hor⟩
  · exact .inl rfl
  have := containers_rule (hb.rules n hm (fun k' hk => hno k' (hk.symm.trans hn))) hc
  subst this
  have hl' : (n.containers.map fun c => (Val.text c.content : V)) ≠ [] := by simpa using (hb.containers n hm).1
  rcases hor with ⟨h, _⟩ | ⟨h, _⟩ | ⟨l, h, rfl⟩
  · simp at h
  · simp at h
  · simp only [Out.ok.injEq] at h
    subst h
    refine .inr ⟨_, resultNow_list hl', hl', ?_⟩
    intro v hv
    obtain ⟨c, _, rfl⟩ := List.mem_map.mp hv
    exact ⟨_, rfl⟩

/-! ## Steps -/

section steps
variable {k ke : Kind} {r : Root} {α : Type} (h : BuiltAs k r) (ih : InsideFine cfg r)

theorem fine_err : Fine ke r .err := .inl rfl

theorem fine_done_err : Ends cfg (.done .err) (Fine ke r) := ends_done fine_err

theorem fine_ret {o : Out α} {mk : α → BVal} (ho : o ≠ .panic) (hg : ∀ a, o = .ok a → GoodAt ke r (.other (mk a))) : Ends cfg (ret o mk) (Fine ke r) := by
  cases o with
  | panic => exact absurd rfl ho
  | err => exact fine_done_err
  | ok a => exact ends_done (.inr ⟨_, hg a rfl, .inl rfl⟩)

theorem fine_step {o : Out α} {p : α → P} (ho : o ≠ .panic) (hg : ∀ a, o = .ok a → Ends cfg (p a) (Fine ke r)) : Ends cfg (step o p) (Fine ke r) := by
  cases o with
  | panic => exact absurd rfl ho
  | err => exact fine_done_err
  | ok a => exact hg a rfl

theorem fine_call {name : Str} {p : List V → P} (hx : ∀ x, TriggerRun (baseEvents cfg) name r x → x = .err ∨ ∃ l, x = .ok l ∧ Ends cfg (p l) (Fine ke r)) :
    Ends cfg (call name r p) (Fine ke r) := by
  intro o ho
  cases ho with
  | triggerPanic h => rcases hx _ h with h | ⟨_, h, _⟩ <;> simp at h
  | trigger h _ ho =>
    rcases hx _ h with rfl | ⟨l, rfl, h2⟩
    · exact fine_done_err o ho
    · exact h2 o ho

include h ih

theorem fine_call_tok (k' : Kind) {p : List V → P} (hk : ∀ l, l ≠ [] → (∀ v ∈ l, Good k' v) → Ends cfg (p l) (Fine ke r)) :
    Ends cfg (call k'.name r p) (Fine ke r) := by
  refine fine_call fun x hx => ?_
  rcases trigger_fine h ih hx with rfl | ⟨n, l, r', k2, rfl, hl, hn, _, _, _, hf⟩
  · exact .inl rfl
  refine .inr ⟨l, rfl, hk l hl ?_⟩
  clear hl hx hk
  generalize n.containers = cs at hf
  induction hf with
  | nil => simp
  | cons h1 _ ih => obtain ⟨u, _, _, _, h4⟩ := h1; simpa using ⟨h4.1, ih⟩

theorem fine_need (k' : Kind) {f : V → Option α} {p : α → P} (hk : ∀ v, Good k' v → ∃ a, f v = some a ∧ Ends cfg (p a) (Fine ke r)) :
    Ends cfg (need k'.name r f p) (Fine ke r) := by
  refine fine_call_tok h ih k' fun l hl hg => ?_
  cases l with
  | nil => exact absurd rfl hl
  | cons v l =>
    obtain ⟨a, ha, h⟩ := hk v (hg v (by simp))
    simpa [assertFirst, assert, ha, step] using h

theorem fine_opt (k' : Kind) {f : V → Option α} {p : Option α → P} (hk : ∀ v, Good k' v → ∃ a, f v = some a ∧ Ends cfg (p (some a)) (Fine ke r))
    (hn : Ends cfg (p none) (Fine ke r)) : Ends cfg (opt k'.name r f p) (Fine ke r) := by
  unfold opt
  split
  · exact fine_need h ih k' hk
  · exact hn

theorem fine_pass (k' : Kind) (hs : singleKind k' = true) (hk : ∀ v, Good k' v → GoodAt ke r v) : Ends cfg (pass k'.name r) (Fine ke r) := by
  refine fine_call fun x hx => ?_
  rcases trigger_fine h ih hx with rfl | ⟨n, l, r', k2, rfl, hl, hn, hm, hb, _, hf⟩
  · exact .inl rfl
  refine .inr ⟨l, rfl, ends_done (.inr ?_)⟩
  have hlen : l.length ≤ 1 := hf.length_eq ▸ (hb.tokens n hm k' hn).2.1 hs
  generalize n.containers = cs at hf
  cases hf with
  | nil => exact absurd rfl hl
  | cons h1 h2 =>
    cases h2 with
    | cons => simp at hlen
    | nil =>
      obtain ⟨u, _, _, _, h4⟩ := h1
      exact ⟨_, hk _ h4.1, .inr rfl⟩

theorem fine_comma (k' kc : Kind) {f : V → Option α} {p : List α → P} (hk : ∀ v, Good k' v → ∃ a, f v = some a) (hkc : ∀ v, Good kc v → ∃ a, f v = some a)
    (hp : ∀ a l, (r.exists kc.name = true → l ≠ []) → Ends cfg (p (a :: l)) (Fine ke r)) : Ends cfg (commaList k'.name kc.name f r p) (Fine ke r) := by
  unfold commaList
  refine fine_need h ih k' fun v hv => ?_
  obtain ⟨a, ha⟩ := hk v hv
  refine ⟨a, ha, ?_⟩
  split
  · refine fine_call_tok h ih kc fun l hl hg => ?_
    obtain ⟨as, h1, h2⟩ := assertAll_ok fun v hv => hkc v (hg v hv)
    rw [h1]
    refine hp a as fun _ hnil => hl ?_
    rw [hnil] at h2
    exact List.length_eq_zero_iff.mp h2.symm
  · exact hp a [] (fun he => absurd he (by assumption))

omit ih

theorem fine_text {name : Str} (hno : ∀ k : Kind, k.name ≠ name) {p : Str → P} (hk : ∀ s, Ends cfg (p s) (Fine ke r)) :
    Ends cfg (need name r asText p) (Fine ke r) := by
  refine fine_call fun x hx => ?_
  rcases trigger_texts h hno hx with rfl | ⟨l, rfl, hl, ht⟩
  · exact .inl rfl
  refine .inr ⟨l, rfl, ?_⟩
  cases l with
  | nil => exact absurd rfl hl
  | cons v l =>
    obtain ⟨s, rfl⟩ := ht v (by simp)
    simpa [assertFirst, assert, asText, step] using hk s
end steps

end Verif.Base
