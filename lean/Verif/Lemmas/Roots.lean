import Verif.Spec.Roots
import Mathlib.Data.List.Induction

/-!
# Lemmas about the conversion of tokens to roots
-/

namespace Verif.Lexer
open Verif.Patterns

theorem discovery_items (t : AToken) : t.discovery = (t.items.map Item.content).flatten := by
  obtain ⟨name, i, l⟩ := t
  have htok : ∀ (l : List AToken) n, aTokensDiscovery l = ((l.map (fun t => (⟨n, t.discovery, some t⟩ : Item))).map
      Item.content).flatten := by
    intro l n
    induction l with
    | nil => simp [aTokensDiscovery]
    | cons t ts ih => simp only [aTokensDiscovery, ih, List.map_cons, List.flatten_cons]
  simp only [AToken.discovery, AToken.items]
  induction l with
  | nil => simp [matchesDiscovery]
  | cons m ms ih =>
    simp only [matchesDiscovery, List.flatMap_cons, List.map_append, List.flatten_append, ih]
    congr 1
    cases m with
    | token n l => simpa [AMatch.discovery, AMatch.items] using htok l n
    | rule n r => simp [AMatch.discovery, AMatch.items]

theorem enterTokens_append (l m : List AToken) (s : Cache) :
    enterTokens (l ++ m) s = (enterTokens l s >>= fun s => enterTokens m s) := by
  induction l generalizing s with
  | nil => simp [enterTokens]
  | cons t ts ih =>
    simp only [List.cons_append, enterTokens]
    cases t.toRoot s <;> simp [ih]

theorem enterMatches_eq (l : List AMatch) (s : Cache) :
    enterMatches l s = enterTokens ((l.flatMap AMatch.items).filterMap Item.token) s := by
  induction l generalizing s with
  | nil => simp [enterMatches, enterTokens]
  | cons m ms ih =>
    simp only [enterMatches, List.flatMap_cons, List.filterMap_append, enterTokens_append]
    have : m.enter s = enterTokens (m.items.filterMap Item.token) s := by
      cases m with
      | token n l =>
        have : (l.map (fun t => (⟨n, t.discovery, some t⟩ : Item))).filterMap Item.token = l := by
          simp [List.filterMap_map, Function.comp_def]
        simp [AMatch.enter, AMatch.items, this]
      | rule n r => simp [AMatch.enter, AMatch.items, enterTokens]
    rw [this]
    congr 1
    funext s
    exact ih s

theorem postTokens_eq (l : List AToken) : postTokens l = l.flatMap AToken.post := by
  induction l with
  | nil => simp [postTokens]
  | cons t ts ih => simp [postTokens, ih]

theorem postMatches_eq (l : List AMatch) :
    postMatches l = ((l.flatMap AMatch.items).filterMap Item.token).flatMap AToken.post := by
  induction l with
  | nil => simp [postMatches]
  | cons m ms ih =>
    simp only [postMatches, List.flatMap_cons, List.filterMap_append, List.flatMap_append, ih]
    congr 1
    cases m with
    | token n l =>
      have : (l.map (fun t => (⟨n, t.discovery, some t⟩ : Item))).filterMap Item.token = l := by
        simp [List.filterMap_map, Function.comp_def]
      simp [AMatch.post, AMatch.items, this, postTokens_eq]
    | rule n r => simp [AMatch.post, AMatch.items]

theorem inside_eq (t : AToken) : t.inside = t.children.flatMap AToken.post := by
  obtain ⟨name, i, l⟩ := t
  exact postMatches_eq l

theorem post_eq (t : AToken) : t.post = t.inside ++ [t] := by
  obtain ⟨name, i, l⟩ := t
  rfl

/-- A child is smaller. -/
theorem sizeOf_child {t c : AToken} (h : c ∈ t.children) : sizeOf c < sizeOf t := by
  obtain ⟨name, i, l⟩ := t
  simp only [AToken.children, AToken.items, List.mem_filterMap, List.mem_flatMap] at h
  obtain ⟨it, ⟨m, hm, hi⟩, ht⟩ := h
  have h1 := List.sizeOf_lt_of_mem hm
  cases m with
  | rule n r => simp [AMatch.items] at hi; subst hi; simp at ht
  | token n ts =>
    simp only [AMatch.items, List.mem_map] at hi
    obtain ⟨u, hu, rfl⟩ := hi
    simp at ht
    subst ht
    have h2 := List.sizeOf_lt_of_mem hu
    simp at h1 ⊢
    omega

/-- Induction over tokens along their children. -/
theorem AToken.induct {p : AToken → Prop} (h : ∀ t, (∀ c ∈ t.children, p c) → p t) (t : AToken) : p t := by
  have : ∀ n (t : AToken), sizeOf t < n → p t := by
    intro n
    induction n with
    | zero => intro t ht; omega
    | succ n ih =>
      intro t ht
      exact h t (fun c hc => ih c (by have := sizeOf_child hc; omega))
  exact this _ t (Nat.lt_succ_self _)

/-! ## The containers map -/

/-- The container of a child, for a cache. -/
def contOf (s : Cache) (it : Item) : RContainer := .mk it.content it.name (if it.token.isSome then s it.content else none)

/-- What the second loop makes from the containers. -/
def grouped (cs : List RContainer) (acc : List (Str × List RContainer)) : List (Str × List RContainer) :=
  cs.foldl (fun acc c => addContainer c.name c acc) acc

theorem containTokens_ok (n : Str) (hn : n ≠ []) (s : Cache) (l : List AToken) (acc : List (Str × List RContainer))
    (h : ∀ t ∈ l, t.discovery ≠ [] ∧ (s t.discovery).isSome) :
    containTokens n l acc s = .ok (grouped ((l.map (fun t => (⟨n, t.discovery, some t⟩ : Item))).map (contOf s)) acc, s) := by
  induction l generalizing acc with
  | nil => simp [containTokens, grouped]
  | cons t ts ih =>
    obtain ⟨h1, h2⟩ := h t (by simp)
    obtain ⟨r, hr⟩ := Option.isSome_iff_exists.mp h2
    have := ih (addContainer n (.mk t.discovery n (some r)) acc) (fun u hu => h u (by simp [hu]))
    simp only [containTokens, hr, Out.bind_ok, containerNow, if_neg h1, if_neg hn, this]
    simp [grouped, contOf, hr, RContainer.name]

theorem containMatches_ok (s : Cache) (l : List AMatch) (acc : List (Str × List RContainer))
    (h : ∀ it ∈ l.flatMap AMatch.items, it.name ≠ [] ∧ it.content ≠ [] ∧ (it.token.isSome → (s it.content).isSome)) :
    containMatches l acc s = .ok (grouped ((l.flatMap AMatch.items).map (contOf s)) acc, s) := by
  induction l generalizing acc with
  | nil => simp [containMatches, grouped]
  | cons m ms ih =>
    have hm : m.contain acc s = .ok (grouped (m.items.map (contOf s)) acc, s) := by
      cases m with
      | token n ts =>
        cases ts with
        | nil => simp [AMatch.contain, containTokens, AMatch.items, grouped]
        | cons t ts =>
          have hn : n ≠ [] := (h ⟨n, t.discovery, some t⟩ (by simp [AMatch.items])).1
          refine containTokens_ok n hn s _ acc ?_
          intro u hu
          have := h ⟨n, u.discovery, some u⟩ (by
            simp only [List.flatMap_cons, List.mem_append]
            exact .inl (List.mem_map.mpr ⟨u, hu, rfl⟩))
          exact ⟨this.2.1, this.2.2 rfl⟩
      | rule n r =>
        obtain ⟨h1, h2, _⟩ := h ⟨n, r.content, none⟩ (by simp [AMatch.items])
        simp only at h1 h2
        simp [AMatch.contain, containerNow, h1, h2, AMatch.items, grouped, contOf, RContainer.name]
    have := ih (grouped (m.items.map (contOf s)) acc) (fun it hit => h it (by
      simp only [List.flatMap_cons, List.mem_append]; exact .inr hit))
    simp only [containMatches, hm, Out.bind_ok, this]
    simp [grouped]

/-- If the second loop succeeds, all the children have names and texts. -/
theorem containTokens_inv {n : Str} {s : Cache} {l : List AToken} {acc : List (Str × List RContainer)} {x}
    (h : containTokens n l acc s = .ok x) : ∀ t ∈ l, n ≠ [] ∧ t.discovery ≠ [] := by
  induction l generalizing acc s with
  | nil => simp
  | cons t ts ih =>
    simp only [containTokens, Out.bind_eq_ok] at h
    obtain ⟨y, _, c, hc, h⟩ := h
    intro u hu
    rcases List.mem_cons.mp hu with rfl | hu
    · unfold containerNow at hc
      split at hc
      · cases hc
      · split at hc
        · cases hc
        · exact ⟨by assumption, by assumption⟩
    · exact ih h u hu

theorem containMatches_inv {s : Cache} {l : List AMatch} {acc : List (Str × List RContainer)} {x}
    (h : containMatches l acc s = .ok x) : ∀ it ∈ l.flatMap AMatch.items, it.name ≠ [] ∧ it.content ≠ [] := by
  induction l generalizing acc s with
  | nil => simp
  | cons m ms ih =>
    simp only [containMatches, Out.bind_eq_ok] at h
    obtain ⟨y, hy, h⟩ := h
    intro it hit
    simp only [List.flatMap_cons, List.mem_append] at hit
    rcases hit with hit | hit
    · cases m with
      | token n ts =>
        simp only [AMatch.items, List.mem_map] at hit
        obtain ⟨t, ht, rfl⟩ := hit
        exact containTokens_inv hy t ht
      | rule n r =>
        simp only [AMatch.items, List.mem_singleton] at hit
        subst hit
        simp only [AMatch.contain, Out.bind_eq_ok] at hy
        obtain ⟨c, hc, _⟩ := hy
        unfold containerNow at hc
        split at hc
        · cases hc
        · split at hc
          · cases hc
          · exact ⟨by assumption, by assumption⟩
    · exact ih h it hit

/-! ## Grouping -/

theorem addContainer_keys (name : Str) (c : RContainer) (g : List (Str × List RContainer)) :
    (addContainer name c g).map Prod.fst = if name ∈ g.map Prod.fst then g.map Prod.fst else g.map Prod.fst ++ [name] := by
  induction g with
  | nil => simp [addContainer]
  | cons p g ih =>
    obtain ⟨n, l⟩ := p
    by_cases e : n = name
    · subst e; simp [addContainer]
    · simp only [addContainer, if_neg e, List.map_cons, ih, List.mem_cons]
      have e' : name ≠ n := fun h => e h.symm
      simp only [e', false_or]
      split <;> simp

/-- The invariant of the containers map built from the list `cs`. -/
structure Groups (cs : List RContainer) (g : List (Str × List RContainer)) : Prop where
  nodup : (g.map Prod.fst).Nodup
  keys : ∀ n, n ∈ g.map Prod.fst ↔ ∃ c ∈ cs, c.name = n
  lists : ∀ p ∈ g, p.2 = cs.filter (fun c => c.name = p.1)

theorem Groups.add {cs g} (h : Groups cs g) (c : RContainer) : Groups (cs ++ [c]) (addContainer c.name c g) := by
  have hk := addContainer_keys c.name c g
  refine ⟨?_, ?_, ?_⟩
  · rw [hk]
    split
    · exact h.nodup
    · rename_i hc
      rw [List.nodup_append]
      refine ⟨h.nodup, by simp, ?_⟩
      intro a ha b hb
      simp at hb
      subst hb
      exact fun e => hc (e ▸ ha)
  · intro n
    rw [hk]
    simp only [List.mem_append, List.mem_singleton]
    split
    · rename_i hc
      rw [h.keys]
      constructor
      · rintro ⟨d, hd, e⟩; exact ⟨d, .inl hd, e⟩
      · rintro ⟨d, hd | rfl, e⟩
        · exact ⟨d, hd, e⟩
        · subst e; exact (h.keys _).mp hc
    · simp only [List.mem_append, h.keys, List.mem_singleton]
      constructor
      · rintro (⟨d, hd, e⟩ | rfl)
        · exact ⟨d, .inl hd, e⟩
        · exact ⟨c, .inr rfl, rfl⟩
      · rintro ⟨d, hd | rfl, e⟩
        · exact .inl ⟨d, hd, e⟩
        · exact .inr e.symm
  · have key : ∀ (g : List (Str × List RContainer)), (g.map Prod.fst).Nodup →
        (∀ p ∈ g, p.2 = cs.filter (fun c => c.name = p.1)) →
        ((∀ p ∈ g, p.1 ≠ c.name) → cs.filter (fun d => d.name = c.name) = []) →
        ∀ p ∈ addContainer c.name c g, p.2 = (cs ++ [c]).filter (fun d => d.name = p.1) := by
      intro g
      induction g with
      | nil =>
        intro _ _ h3 p hp
        simp only [addContainer, List.mem_singleton] at hp
        subst hp
        simp [h3 (by simp)]
      | cons q g ih =>
        obtain ⟨n, l⟩ := q
        intro hn hl h3 p hp
        simp only [addContainer] at hp
        simp only [List.map_cons, List.nodup_cons] at hn
        by_cases e : n = c.name
        · rw [if_pos e] at hp
          rcases List.mem_cons.mp hp with rfl | hp
          · have := hl (n, l) (by simp)
            simp only at this
            simp [this, e]
          · have := hl p (by simp [hp])
            have hne : c.name ≠ p.1 := by
              rintro e2
              exact hn.1 (List.mem_map.mpr ⟨p, hp, by rw [e, e2]⟩)
            simp [this, hne]
        · rw [if_neg e] at hp
          rcases List.mem_cons.mp hp with rfl | hp
          · have := hl (n, l) (by simp)
            simp only at this
            have e' : c.name ≠ n := fun h => e h.symm
            simp [this, e']
          · refine ih hn.2 (fun p hp => hl p (by simp [hp])) ?_ p hp
            intro h4
            apply h3
            intro q hq
            rcases List.mem_cons.mp hq with rfl | hq
            · exact e
            · exact h4 q hq
    refine key g h.nodup h.lists ?_
    intro h4
    rw [List.filter_eq_nil_iff]
    intro d hd hc
    simp at hc
    obtain ⟨p, hp, e⟩ := List.mem_map.mp ((h.keys c.name).mpr ⟨d, hd, hc⟩)
    exact h4 p hp e

theorem grouped_groups (cs : List RContainer) : Groups cs (grouped cs []) := by
  have : ∀ (cs ds : List RContainer) g, Groups ds g → Groups (ds ++ cs) (grouped cs g) := by
    intro cs
    induction cs with
    | nil => intro ds g h; simpa [grouped] using h
    | cons c cs ih =>
      intro ds g h
      have := ih (ds ++ [c]) _ (h.add c)
      simpa [grouped] using this
  simpa using this cs [] [] ⟨by simp, by simp, by simp⟩

/-! ## The conversion -/

/-- The root of a token, if there is one. -/
def rootOpt (t : AToken) : Option Root :=
  match toRoot t with
  | .ok r => r
  | _ => none

/-- The cache behind the conversion of some tokens. -/
def over (s : Cache) (l : List AToken) : Cache := l.foldl (fun s u => Function.update s u.discovery (rootOpt u)) s

theorem over_append (s : Cache) (l m : List AToken) : over s (l ++ m) = over (over s l) m := by simp [over]

theorem over_apply (s : Cache) (l : List AToken) (k : Str) :
    over s l k = match lastWith k l with
      | some v => rootOpt v
      | none => s k := by
  induction l using List.reverseRecOn with
  | nil => simp [over, lastWith]
  | append_singleton l u ih =>
    rw [over_append]
    simp only [lastWith] at ih
    by_cases e : u.discovery = k
    · subst e; simp [over, lastWith]
    · have e' : ¬ k = u.discovery := fun h => e h.symm
      simp only [over, List.foldl_cons, List.foldl_nil, Function.update_apply, if_neg e', lastWith, List.reverse_append,
        List.reverse_cons, List.reverse_nil, List.nil_append, List.singleton_append]
      rw [List.find?_cons_of_neg (by simp [e])]
      exact ih

theorem lastWith_mem {k : Str} {l : List AToken} {v : AToken} (h : lastWith k l = some v) : v ∈ l ∧ v.discovery = k := by
  have h1 := List.mem_of_find?_eq_some h
  have h2 := List.find?_some h
  exact ⟨by simpa using h1, by simpa using h2⟩

theorem lastWith_isSome {l : List AToken} {u : AToken} (h : u ∈ l) : ∃ v, lastWith u.discovery l = some v := by
  cases hf : lastWith u.discovery l with
  | some v => exact ⟨v, rfl⟩
  | none =>
    have := List.find?_eq_none.mp hf u (by simpa using h)
    simp at this

theorem child_mem_inside {t u : AToken} (h : u ∈ t.children) : u ∈ t.inside := by
  rw [inside_eq]
  exact List.mem_flatMap.mpr ⟨u, h, by rw [post_eq]; simp⟩

/-- The nodes of the root of a token. -/
def nodesOf (t : AToken) : List Node :=
  (grouped (t.items.map (contOf (over (fun _ => none) t.inside))) []).map (fun p => .mk p.1 p.2)

theorem Convertible.inv {t : AToken} (h : Convertible t) : t.name ≠ [] ∧ t.items ≠ [] ∧
    (∀ it ∈ t.items, it.name ≠ [] ∧ it.content ≠ []) ∧ (∀ c ∈ t.children, Convertible c) := by
  cases h with
  | mk h1 h2 h3 h4 => exact ⟨h1, h2, h3, h4⟩

theorem Convertible.discovery {t : AToken} (h : Convertible t) : t.discovery ≠ [] := by
  obtain ⟨_, h2, h3, _⟩ := h.inv
  rw [discovery_items]
  obtain ⟨it, hit⟩ := List.exists_mem_of_ne_nil _ h2
  intro hc
  rw [List.flatten_eq_nil_iff] at hc
  exact (h3 it hit).2 (hc _ (List.mem_map.mpr ⟨it, hit, rfl⟩))

theorem item_token {t : AToken} {it : Item} {u : AToken} (h : it ∈ t.items) (hu : it.token = some u) :
    u ∈ t.children ∧ it.content = u.discovery := by
  refine ⟨List.mem_filterMap.mpr ⟨it, h, hu⟩, ?_⟩
  obtain ⟨name, i, l⟩ := t
  simp only [AToken.items, List.mem_flatMap] at h
  obtain ⟨m, _, hm⟩ := h
  cases m with
  | token n ts =>
    simp only [AMatch.items, List.mem_map] at hm
    obtain ⟨x, _, rfl⟩ := hm
    simp at hu
    subst hu
    rfl
  | rule n r =>
    simp only [AMatch.items, List.mem_singleton] at hm
    subst hm
    simp at hu

theorem mapOut_ok {α β} {f : α → Out β} {g : α → β} {l : List α} (h : ∀ a ∈ l, f a = .ok (g a)) : mapOut f l = .ok (l.map g) := by
  induction l with
  | nil => rfl
  | cons a l ih => simp [mapOut, h a (by simp), ih (fun b hb => h b (by simp [hb]))]

/-- The nodes are built from any cache which has roots for all the children. -/
theorem nodes_ok {cs : List RContainer} (h : ∀ c ∈ cs, c.name ≠ []) :
    mapOut (fun p : Str × List RContainer => nodeNow p.1 p.2) (grouped cs []) = .ok ((grouped cs []).map (fun p => Node.mk p.1 p.2)) := by
  have hg := grouped_groups cs
  refine mapOut_ok (g := fun p : Str × List RContainer => Node.mk p.1 p.2) ?_
  intro p hp
  obtain ⟨c, hc, e⟩ := (hg.keys p.1).mp (List.mem_map.mpr ⟨p, hp, rfl⟩)
  have h1 : p.1 ≠ [] := e ▸ h c hc
  have h2 : p.2 ≠ [] := by
    rw [hg.lists p hp]
    intro hn
    rw [List.filter_eq_nil_iff] at hn
    exact hn c hc (by simp [e])
  simp [nodeNow, h1, h2]

theorem toRoot_convertible (t : AToken) (h : Convertible t) :
    ∀ v ∈ t.post, Convertible v ∧ ∀ s, v.toRoot s = .ok (some (.mk v.discovery v.name (nodesOf v)), over s v.post) := by
  induction t using AToken.induct with
  | h t ih =>
    obtain ⟨h1, h2, h3, h4⟩ := h.inv
    have hin : ∀ v ∈ t.inside, Convertible v ∧
        ∀ s, v.toRoot s = .ok (some (.mk v.discovery v.name (nodesOf v)), over s v.post) := by
      intro v hv
      rw [inside_eq, List.mem_flatMap] at hv
      obtain ⟨c, hc, hv⟩ := hv
      exact ih c hc (h4 c hc) v hv
    have hopt : ∀ v ∈ t.inside, rootOpt v = some (.mk v.discovery v.name (nodesOf v)) := by
      intro v hv
      simp [rootOpt, toRoot, (hin v hv).2]
    intro v hv
    rw [post_eq, List.mem_append, List.mem_singleton] at hv
    rcases hv with hv | rfl
    · exact hin v hv
    refine ⟨h, ?_⟩
    intro s
    obtain ⟨name, i, l⟩ := v
    set t : AToken := .mk name i l with ht
    have hl : l.isEmpty = false := by
      cases l with
      | nil => simp [ht, AToken.items] at h2
      | cons => rfl
    have henter : ∀ (cs : List AToken) s, (∀ c ∈ cs, c ∈ t.children) → enterTokens cs s = .ok (over s (cs.flatMap AToken.post)) := by
      intro cs
      induction cs with
      | nil => intro s _; simp [enterTokens, over]
      | cons c cs ihc =>
        intro s hcs
        have := (hin c (child_mem_inside (hcs c (by simp)))).2 s
        simp only [enterTokens, this, Out.bind_ok, List.flatMap_cons, over_append]
        exact ihc _ (fun d hd => hcs d (by simp [hd]))
    have e1 : enterMatches l s = .ok (over s t.inside) := by
      rw [enterMatches_eq, inside_eq]
      exact henter _ s (fun c hc => hc)
    have hsame : ∀ it ∈ t.items, ∀ s, it.token.isSome → ∃ r, (over s t.inside) it.content = some r ∧
        (over (fun _ => none) t.inside) it.content = some r := by
      intro it hit s hs
      obtain ⟨u, hu⟩ := Option.isSome_iff_exists.mp hs
      obtain ⟨hc, e⟩ := item_token hit hu
      obtain ⟨v, hv⟩ := lastWith_isSome (child_mem_inside hc)
      have hr := hopt v (lastWith_mem hv).1
      refine ⟨.mk v.discovery v.name (nodesOf v), ?_, ?_⟩
      · rw [over_apply, e, hv]; exact hr
      · rw [over_apply, e, hv]; exact hr
    have e2 := containMatches_ok (over s t.inside) l [] (fun it hit => ⟨(h3 it hit).1, (h3 it hit).2, fun hs => by
      obtain ⟨r, hr, _⟩ := hsame it hit s hs
      simp [hr]⟩)
    have e3 : (l.flatMap AMatch.items).map (contOf (over s t.inside)) = t.items.map (contOf (over (fun _ => none) t.inside)) := by
      refine List.map_congr_left ?_
      intro it hit
      unfold contOf
      by_cases hs : it.token.isSome
      · obtain ⟨r, hr, hr'⟩ := hsame it hit s hs
        simp [hr, hr']
      · simp [hs]
    have e4 := nodes_ok (cs := t.items.map (contOf (over (fun _ => none) t.inside))) (by
      intro c hc
      obtain ⟨it, hit, rfl⟩ := List.mem_map.mp hc
      exact (h3 it hit).1)
    have hne : nodesOf t ≠ [] := by
      unfold nodesOf
      intro hc
      rw [List.map_eq_nil_iff] at hc
      obtain ⟨it, hit⟩ := List.exists_mem_of_ne_nil _ h2
      have := ((grouped_groups (t.items.map (contOf (over (fun _ => none) t.inside)))).keys it.name).mpr
        ⟨contOf _ it, List.mem_map.mpr ⟨it, hit, rfl⟩, rfl⟩
      rw [hc] at this
      simp at this
    have hd := h.discovery
    have hlast : Function.update (over s t.inside) t.discovery (some (.mk t.discovery name (nodesOf t))) = over s t.post := by
      rw [post_eq, over_append]
      have : rootOpt t = some (.mk t.discovery name (nodesOf t)) := by
        have e1' : enterMatches l (fun _ => none) = .ok (over (fun _ => none) t.inside) := by
          rw [enterMatches_eq, inside_eq]
          exact henter _ _ (fun c hc => hc)
        have e2' := containMatches_ok (over (fun _ => none) t.inside) l [] (fun it hit => ⟨(h3 it hit).1, (h3 it hit).2, fun hs => by
          obtain ⟨r, hr, _⟩ := hsame it hit (fun _ => none) hs
          simp [hr]⟩)
        have e5 : (AToken.mk name i l).toRoot (fun _ => none) = .ok (some (.mk t.discovery name (nodesOf t)),
            Function.update (over (fun _ => none) t.inside) t.discovery (some (.mk t.discovery name (nodesOf t)))) := by
          rw [AToken.toRoot]
          simp only [hl, Bool.false_eq_true, if_false, e1', Out.bind_ok, e2']
          rw [show (l.flatMap AMatch.items) = t.items from rfl, e4]
          simp only [Out.bind_ok, rootNow]
          rw [show (grouped (t.items.map (contOf (over (fun _ => none) t.inside))) []).map (fun p => Node.mk p.1 p.2) =
            nodesOf t from rfl, if_neg hne, if_neg hd, if_neg (show name ≠ [] from h1)]
          rfl
        simp [rootOpt, toRoot, ht, e5]
      simp [over, this]
    rw [ht, AToken.toRoot]
    simp only [hl, Bool.false_eq_true, if_false, e1, Out.bind_ok, e2]
    rw [e3, e4]
    simp only [Out.bind_ok, rootNow]
    rw [show (grouped (t.items.map (contOf (over (fun _ => none) t.inside))) []).map (fun p => Node.mk p.1 p.2) =
      nodesOf t from rfl, if_neg hne, if_neg hd, if_neg (show name ≠ [] from h1)]
    simp only [Out.bind_ok]
    rw [← hlast]
    rfl

theorem toRoot_eq {t : AToken} (h : Convertible t) : toRoot t = .ok (some (.mk t.discovery t.name (nodesOf t))) := by
  have := (toRoot_convertible t h t (by rw [post_eq]; simp)).2 (fun _ => none)
  simp [toRoot, this]

/-- A token which is converted to a root is convertible. -/
theorem convertible_of_ok (t : AToken) : ∀ s r s', t.toRoot s = .ok (some r, s') → Convertible t := by
  induction t using AToken.induct with
  | h t ih =>
    obtain ⟨name, i, l⟩ := t
    intro s r s' h
    rw [AToken.toRoot] at h
    split at h
    · simp at h
    · simp only [Out.bind_eq_ok] at h
      obtain ⟨s1, h1, x, h2, ns, h3, root, h4, _⟩ := h
      have hitems := containMatches_inv h2
      rw [enterMatches_eq] at h1
      have hkids : ∀ (cs : List AToken) s s1, enterTokens cs s = .ok s1 → ∀ c ∈ cs, ∃ s y, c.toRoot s = .ok y := by
        intro cs
        induction cs with
        | nil => simp
        | cons c cs ihc =>
          intro s s1 h d hd
          simp only [enterTokens, Out.bind_eq_ok] at h
          obtain ⟨y, hy, h⟩ := h
          rcases List.mem_cons.mp hd with rfl | hd
          · exact ⟨s, y, hy⟩
          · exact ihc _ _ h d hd
      have hroot : name ≠ [] ∧ ns ≠ [] := by
        unfold rootNow at h4
        split at h4
        · cases h4
        · split at h4
          · cases h4
          · split at h4
            · cases h4
            · exact ⟨by assumption, by assumption⟩
      refine .mk hroot.1 ?_ hitems ?_
      · intro hc
        have hl : containMatches l [] s1 = .ok ([], s1) := by
          have := containMatches_ok s1 l [] (by
            intro it hit
            rw [show l.flatMap AMatch.items = [] from hc] at hit
            simp at hit)
          rw [this, show l.flatMap AMatch.items = [] from hc]
          rfl
        rw [hl] at h2
        simp at h2
        subst h2
        simp [mapOut] at h3
        exact hroot.2 h3
      · intro c hc
        obtain ⟨s2, y, hy⟩ := hkids _ _ _ h1 c hc
        obtain ⟨it, hit, hu⟩ := List.mem_filterMap.mp hc
        obtain ⟨_, e⟩ := item_token hit hu
        have hcont := (hitems it hit).2
        rw [e] at hcont
        obtain ⟨o, s3⟩ := y
        cases o with
        | some r => exact ih c hc _ _ _ hy
        | none =>
          obtain ⟨cn, ci, cl⟩ := c
          rw [AToken.toRoot] at hy
          split at hy
          · rename_i he
            cases cl with
            | nil => simp [AToken.discovery, matchesDiscovery] at hcont
            | cons => simp at he
          · simp only [Out.bind_eq_ok] at hy
            obtain ⟨_, _, _, _, _, _, _, _, hy⟩ := hy
            simp at hy

end Verif.Lexer
