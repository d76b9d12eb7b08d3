import Verif.Lemmas.Roots

/-!
# Lemmas about scanning
-/

namespace Verif.Lexer

/-- What is known of an outcome: a found element is inside and has the name; an error or a missing result means that there is
none inside. -/
def ScanOk (name : Str) (inside : Found → Prop) : Out (Option Found) → Prop
  | .ok (some f) => inside f ∧ f.name = name
  | .ok none => ∀ f, inside f → f.name ≠ name
  | .err => ∀ f, inside f → f.name ≠ name
  | .panic => False

theorem ScanOk.none {name : Str} {inside : Found → Prop} {x : Out (Option Found)} (h : ScanOk name inside x)
    (hx : x = .err ∨ x = .ok none) : ∀ f, inside f → f.name ≠ name := by
  rcases hx with rfl | rfl <;> exact h

mutual
theorem NodesScan.scanOk {name : Str} {ns : List Node} {x : Out (Option Found)} :
    NodesScan name ns x → ScanOk name (ReachNodes ns) x ∧ x ≠ .ok none
  | .range hp hl => by
    obtain ⟨h, h'⟩ := hl.scanOk
    refine ⟨?_, h'⟩
    unfold ScanOk at h ⊢
    cases x with
    | panic => exact h
    | err =>
      intro f hf
      cases hf with
      | mem hm hi => exact h f (.mem (hp.mem_iff.mpr hm) hi)
    | ok o =>
      cases o with
      | none => exact absurd rfl h'
      | some f =>
        obtain ⟨hf, e⟩ := h
        cases hf with
        | mem hm hi => exact ⟨.mem (hp.mem_iff.mp hm) hi, e⟩
theorem NodesLoop.scanOk {name : Str} {ns : List Node} {x : Out (Option Found)} :
    NodesLoop name ns x → ScanOk name (ReachNodes ns) x ∧ x ≠ .ok none
  | .none => by
    refine ⟨?_, by simp⟩
    intro f hf
    cases hf with
    | mem hm _ => simp at hm
  | .found h => by
    obtain ⟨hf, e⟩ := h.scanOk
    exact ⟨⟨.mem (by simp) hf, e⟩, by simp⟩
  | .next h hx hl => by
    have h1 := h.scanOk
    obtain ⟨h2, h3⟩ := hl.scanOk
    refine ⟨?_, h3⟩
    cases x with
    | panic => exact h2
    | err =>
      intro f hf
      cases hf with
      | mem hm hi =>
        rcases List.mem_cons.mp hm with rfl | hm
        · exact h1.none hx f hi
        · exact h2 f (.mem hm hi)
    | ok o =>
      cases o with
      | none => exact absurd rfl h3
      | some f =>
        obtain ⟨hf, e⟩ := h2
        cases hf with
        | mem hm hi => exact ⟨.mem (by simp [hm]) hi, e⟩
theorem NodeScan.scanOk {name : Str} {n : Node} {x : Out (Option Found)} : NodeScan name n x → ScanOk name (ReachNode n) x
  | .self h => ⟨.self n, h⟩
  | .sub hn hl => by
    obtain ⟨h2, h3⟩ := hl.scanOk
    cases x with
    | panic => exact h2
    | err =>
      intro f hf
      cases hf with
      | self => exact hn
      | sub hc hi => exact h2 f ⟨_, hc, hi⟩
    | ok o =>
      cases o with
      | none => exact absurd rfl h3
      | some f =>
        obtain ⟨⟨c, hc, hi⟩, e⟩ := h2
        exact ⟨.sub hc hi, e⟩
theorem ContainersLoop.scanOk {name : Str} {cs : List RContainer} {x : Out (Option Found)} :
    ContainersLoop name cs x → ScanOk name (fun f => ∃ c ∈ cs, ReachContainer c f) x ∧ x ≠ .ok none
  | .none => by
    refine ⟨?_, by simp⟩
    rintro f ⟨c, hc, _⟩
    simp at hc
  | .found h => by
    obtain ⟨hf, e⟩ := h.scanOk
    exact ⟨⟨⟨_, by simp, hf⟩, e⟩, by simp⟩
  | .next h hx hl => by
    have h1 := h.scanOk
    obtain ⟨h2, h3⟩ := hl.scanOk
    refine ⟨?_, h3⟩
    cases x with
    | panic => exact h2
    | err =>
      rintro f ⟨c, hm, hi⟩
      rcases List.mem_cons.mp hm with rfl | hm
      · exact h1.none hx f hi
      · exact h2 f ⟨c, hm, hi⟩
    | ok o =>
      cases o with
      | none => exact absurd rfl h3
      | some f =>
        obtain ⟨⟨c, hm, hi⟩, e⟩ := h2
        exact ⟨⟨c, by simp [hm], hi⟩, e⟩
theorem ContainerScan.scanOk {name : Str} {c : RContainer} {x : Out (Option Found)} :
    ContainerScan name c x → ScanOk name (ReachContainer c) x
  | .self h => ⟨.self c, h⟩
  | .noRoot hn hr => by
    intro f hf
    cases hf with
    | self => exact hn
    | sub h => rw [hr] at h; cases h
  | .sub hn hr hs => by
    obtain ⟨h2, h3⟩ := hs.scanOk
    cases x with
    | panic => exact h2
    | err =>
      intro f hf
      cases hf with
      | self => exact hn
      | sub h hi =>
        rw [hr] at h
        simp at h
        subst h
        exact h2 f hi
    | ok o =>
      cases o with
      | none => exact absurd rfl h3
      | some f => exact ⟨.sub hr h2.1, h2.2⟩
end

theorem RootScan.scanOk {name : Str} {r : Root} {x : Out (Option Found)} (h : RootScan name r x) :
    ScanOk name (ReachRoot r) x ∧ x ≠ .ok none := by
  cases h with
  | self h => exact ⟨⟨.self r, h⟩, by simp⟩
  | sub hn h =>
    obtain ⟨h2, h3⟩ := h.scanOk
    refine ⟨?_, h3⟩
    cases x with
    | panic => exact h2
    | err =>
      intro f hf
      cases hf with
      | self => exact hn
      | sub hi => exact h2 f hi
    | ok o =>
      cases o with
      | none => exact absurd rfl h3
      | some f => exact ⟨.sub h2.1, h2.2⟩

mutual
theorem NodesScan.top {name : Str} {ns : List Node} {x : Out (Option Found)} {f : Found} (hx : x = .ok (some f)) :
    NodesScan name ns x → TopNodes name ns f
  | .range hp hl => by
    cases hl.top hx with
    | mem hm h => exact .mem (hp.mem_iff.mp hm) h
theorem NodesLoop.top {name : Str} {ns : List Node} {x : Out (Option Found)} {f : Found} (hx : x = .ok (some f)) :
    NodesLoop name ns x → TopNodes name ns f
  | .none => by simp at hx
  | .found h => .mem (by simp) (h.top hx)
  | .next _ _ hl => by
    cases hl.top hx with
    | mem hm h => exact .mem (by simp [hm]) h
theorem NodeScan.top {name : Str} {n : Node} {x : Out (Option Found)} {f : Found} (hx : x = .ok (some f)) :
    NodeScan name n x → TopNode name n f
  | .self h => by simp at hx; subst hx; exact .self h
  | .sub hn hl => by
    obtain ⟨c, hc, h⟩ := hl.top hx
    exact .sub hn hc h
theorem ContainersLoop.top {name : Str} {cs : List RContainer} {x : Out (Option Found)} {f : Found} (hx : x = .ok (some f)) :
    ContainersLoop name cs x → ∃ c ∈ cs, TopContainer name c f
  | .none => by simp at hx
  | .found h => ⟨_, by simp, h.top hx⟩
  | .next _ _ hl => by
    obtain ⟨c, hc, h⟩ := hl.top hx
    exact ⟨c, by simp [hc], h⟩
theorem ContainerScan.top {name : Str} {c : RContainer} {x : Out (Option Found)} {f : Found} (hx : x = .ok (some f)) :
    ContainerScan name c x → TopContainer name c f
  | .self h => by simp at hx; subst hx; exact .self h
  | .noRoot _ _ => by simp at hx
  | .sub hn hr hs => .sub hn hr (hs.top hx)
end

theorem RootScan.top {name : Str} {r : Root} {f : Found} (h : RootScan name r (.ok (some f))) : TopRoot name r f := by
  generalize hy : Out.ok (some f) = y at h
  cases h with
  | self h => simp at hy; subst hy; exact .self h
  | sub hn h => exact .sub hn (h.top hy.symm)

mutual
theorem TopNodes.reach {name : Str} {ns : List Node} {f : Found} : TopNodes name ns f → ReachNodes ns f ∧ f.name = name
  | .mem hm h => ⟨.mem hm h.reach.1, h.reach.2⟩
theorem TopNode.reach {name : Str} {n : Node} {f : Found} : TopNode name n f → ReachNode n f ∧ f.name = name
  | .self h => ⟨.self _, h⟩
  | .sub _ hm h => ⟨.sub hm h.reach.1, h.reach.2⟩
theorem TopContainer.reach {name : Str} {c : RContainer} {f : Found} : TopContainer name c f → ReachContainer c f ∧ f.name = name
  | .self h => ⟨.self _, h⟩
  | .sub _ hr h => ⟨.sub hr h.reach.1, h.reach.2⟩
end

theorem TopRoot.reach {name : Str} {r : Root} {f : Found} : TopRoot name r f → ReachRoot r f ∧ f.name = name
  | .self h => ⟨.self _, h⟩
  | .sub _ h => ⟨.sub h.reach.1, h.reach.2⟩

/-- For every order of the nodes the scan ends. -/
theorem nodesLoop_total (name : Str) : ∀ k, ∀ ns : List Node, sizeOf ns < k → ∃ x, NodesLoop name ns x ∧ x ≠ .panic := by
  intro k
  induction k with
  | zero => intro ns h; omega
  | succ k ih =>
    intro ns hns
    have hcont : ∀ (c : RContainer), sizeOf c < sizeOf ns → ∃ x, ContainerScan name c x ∧ x ≠ .panic := by
      intro c hc
      by_cases hn : c.name = name
      · exact ⟨_, .self hn, by simp⟩
      · cases hr : c.root with
        | none => exact ⟨_, .noRoot hn hr, by simp⟩
        | some r =>
          obtain ⟨cc, cn, cr⟩ := c
          simp only [RContainer.root] at hr
          subst hr
          obtain ⟨rc, rn, rns⟩ := r
          obtain ⟨x, hx, hp⟩ := ih rns (by simp at hc; omega)
          exact ⟨x, .sub hn rfl (.range (List.Perm.refl _) hx), hp⟩
    have hconts : ∀ (cs : List RContainer), sizeOf cs < sizeOf ns → ∃ x, ContainersLoop name cs x ∧ x ≠ .panic := by
      intro cs
      induction cs with
      | nil => intro _; exact ⟨_, .none, by simp⟩
      | cons c cs ihc =>
        intro h
        simp at h
        obtain ⟨x, hx, hp⟩ := hcont c (by omega)
        obtain ⟨y, hy, hq⟩ := ihc (by omega)
        cases x with
        | panic => exact absurd rfl hp
        | err => exact ⟨y, .next hx (.inl rfl) hy, hq⟩
        | ok o =>
          cases o with
          | none => exact ⟨y, .next hx (.inr rfl) hy, hq⟩
          | some f => exact ⟨_, .found hx, by simp⟩
    have hall : ∀ (ms : List Node), sizeOf ms ≤ sizeOf ns → ∃ x, NodesLoop name ms x ∧ x ≠ .panic := by
      intro ms
      induction ms with
      | nil => intro _; exact ⟨_, .none, by simp⟩
      | cons n ms ihn =>
        intro h
        obtain ⟨nn, ncs⟩ := n
        simp at h
        obtain ⟨y, hy, hq⟩ := ihn (by omega)
        by_cases hn : nn = name
        · exact ⟨_, .found (.self hn), by simp⟩
        · obtain ⟨x, hx, hp⟩ := hconts ncs (by omega)
          have hx' : NodeScan name (.mk nn ncs) x := .sub hn hx
          cases x with
          | panic => exact absurd rfl hp
          | err => exact ⟨y, .next hx' (.inl rfl) hy, hq⟩
          | ok o =>
            cases o with
            | none => exact ⟨y, .next hx' (.inr rfl) hy, hq⟩
            | some f => exact ⟨_, .found hx', by simp⟩
    exact hall ns (Nat.le_refl _)

/-! ## The conversion never panics -/

theorem containerNow_ne (c n : Str) (r : Option Root) : containerNow c n r ≠ .panic := by
  unfold containerNow
  repeat' split
  all_goals simp

theorem toRoot_ne_panic (t : AToken) : ∀ s, t.toRoot s ≠ .panic := by
  induction t using AToken.induct with
  | h t ih =>
    obtain ⟨name, i, l⟩ := t
    intro s
    rw [AToken.toRoot]
    split
    · simp
    · intro hc
      have henter : ∀ (cs : List AToken) s, (∀ c ∈ cs, c ∈ (AToken.mk name i l).children) → enterTokens cs s ≠ .panic := by
        intro cs
        induction cs with
        | nil => intro s _; simp [enterTokens]
        | cons c cs ihc =>
          intro s h
          simp only [enterTokens, ne_eq, Out.bind_eq_panic, not_or]
          exact ⟨ih c (h c (by simp)) s, by rintro ⟨x, _, hx⟩; exact ihc _ (fun d hd => h d (by simp [hd])) hx⟩
      have htok : ∀ n (cs : List AToken) acc s, (∀ c ∈ cs, c ∈ (AToken.mk name i l).children) →
          containTokens n cs acc s ≠ .panic := by
        intro n cs
        induction cs with
        | nil => intro acc s _; simp [containTokens]
        | cons c cs ihc =>
          intro acc s h
          simp only [containTokens, ne_eq, Out.bind_eq_panic, not_or]
          constructor
          · cases s c.discovery with
            | some r => simp
            | none => exact ih c (h c (by simp)) s
          · rintro ⟨x, _, hx⟩
            rcases hx with hx | ⟨d, _, hx⟩
            · exact containerNow_ne _ _ _ hx
            · exact ihc _ _ (fun d hd => h d (by simp [hd])) hx
      have hmat : ∀ (ms : List AMatch) acc s, (∀ m ∈ ms, m ∈ l) → containMatches ms acc s ≠ .panic := by
        intro ms
        induction ms with
        | nil => intro acc s _; simp [containMatches]
        | cons m ms ihm =>
          intro acc s h
          simp only [containMatches, ne_eq, Out.bind_eq_panic, not_or]
          constructor
          · cases m with
            | token n ts =>
              refine htok n ts acc s ?_
              intro c hc
              refine List.mem_filterMap.mpr ⟨⟨n, c.discovery, some c⟩, ?_, rfl⟩
              exact List.mem_flatMap.mpr ⟨.token n ts, h _ (by simp), List.mem_map.mpr ⟨c, hc, rfl⟩⟩
            | rule n r =>
              simp only [AMatch.contain, Out.bind_eq_panic, not_or]
              exact ⟨containerNow_ne _ _ _, by rintro ⟨c, _, hc⟩; simp at hc⟩
          · rintro ⟨x, _, hx⟩
            exact ihm _ _ (fun d hd => h d (by simp [hd])) hx
      simp only [Out.bind_eq_panic] at hc
      rcases hc with hc | ⟨s1, _, hc⟩
      · rw [enterMatches_eq] at hc
        exact henter _ _ (fun c hc => hc) hc
      · rcases hc with hc | ⟨x, _, hc⟩
        · exact hmat l [] s1 (fun m hm => hm) hc
        · rcases hc with hc | ⟨ns, _, hc⟩
          · have : ∀ g : List (Str × List RContainer), mapOut (fun p => nodeNow p.1 p.2) g ≠ .panic := by
              intro g
              induction g with
              | nil => simp [mapOut]
              | cons p g ihg =>
                simp only [mapOut, ne_eq, Out.bind_eq_panic, not_or]
                constructor
                · unfold nodeNow; repeat' split
                  all_goals simp
                · rintro ⟨_, _, h | ⟨_, _, h⟩⟩
                  · exact ihg h
                  · simp at h
            exact this _ hc
          · rcases hc with hc | ⟨r, _, hc⟩
            · unfold rootNow at hc
              repeat' split at hc
              all_goals simp at hc
            · simp at hc

end Verif.Lexer
