import Verif.Lemmas.TextPatterns3
import Verif.Lemmas.TextPanic

/-! Helper lemmas: what is read for a text of patterns. -/

namespace Verif.Text
open Verif.Regex Verif.Patterns Verif.Cardinality Verif.Lexer

theorem mapOut_ok {α β : Type} {f : α → Out β} {l : List α} {o : List β} (h : mapOut f l = .ok o) : List.Forall₂ (fun a b => f a = .ok b) l o := by
  induction l generalizing o with
  | nil => simp [mapOut] at h; subst h; exact .nil
  | cons a l ih =>
    simp only [mapOut] at h
    cases ha : f a with
    | ok b =>
      rw [ha] at h
      cases hl : mapOut f l with
      | ok o' =>
        rw [hl] at h
        simp at h
        subst h
        exact .cons ha (ih hl)
      | err => rw [hl] at h; simp at h
      | panic => rw [hl] at h; simp at h
    | err => rw [ha] at h; simp at h
    | panic => rw [ha] at h; simp at h

theorem forall₂_left {α β : Type} {R : α → β → Prop} {l : List α} {o : List β} (h : List.Forall₂ R l o) : ∀ a ∈ l, ∃ b ∈ o, R a b := by
  induction h with
  | nil => simp
  | cons h1 _ ih =>
    intro a ha
    rcases List.mem_cons.1 ha with rfl | ha
    · exact ⟨_, List.mem_cons_self, h1⟩
    · obtain ⟨b, hb, hb'⟩ := ih a ha
      exact ⟨b, List.mem_cons_of_mem _ hb, hb'⟩

theorem mapOut_all {α β : Type} {f : α → Out β} {R : α → β → Prop} {l : List α} (h : ∀ a ∈ l, ∃ b, f a = .ok b ∧ R a b) :
    ∃ o, mapOut f l = .ok o ∧ List.Forall₂ R l o := by
  induction l with
  | nil => exact ⟨[], rfl, .nil⟩
  | cons a l ih =>
    obtain ⟨b, h1, h2⟩ := h a List.mem_cons_self
    obtain ⟨o, h3, h4⟩ := ih (fun x hx => h x (List.mem_cons_of_mem _ hx))
    exact ⟨b :: o, by simp only [mapOut, h1, h3, Out.bind_ok]; rfl, .cons h2 h4⟩

theorem lastNamed_map {α β : Type} {f : α → β} {na : α → Str} {nb : β → Str} (hf : ∀ a, nb (f a) = na a) {l : List α} {k : Str} {b : β}
    (h : LastNamed nb (l.map f) k b) : ∃ a, LastNamed na l k a ∧ f a = b := by
  obtain ⟨pre, post, e, h1, h2⟩ := h
  obtain ⟨l1, l2, e1, e2, e3⟩ := List.map_eq_append_iff.1 e
  obtain ⟨a, l3, e4, e5, e6⟩ := List.map_eq_cons_iff.1 e3
  refine ⟨a, ⟨l1, l3, by rw [e1, e4], by rw [← hf, e5, h1], ?_⟩, e5⟩
  intro x hx
  rw [← hf]
  exact h2 _ (by rw [← e6]; exact List.mem_map_of_mem hx)

/-- The groups. -/
theorem groups_read {l : List Entry} (h : groupsOf l ≠ []) : ∃ gs, groupsNow ((groupsOf l).map GroupT.value) = .ok gs ∧
    ∀ n, (n ∈ (groupsOf l).map GroupT.name → ∃ g, gs.find n = .ok g ∧ GroupShows l n g) ∧ (n ∉ (groupsOf l).map GroupT.name → gs.find n = .err) := by
  obtain ⟨gs, h1, h2, h3⟩ := (C38_duplicates (name := Group.name) ((groupsOf l).map GroupT.value)).2 (by simpa using h)
  refine ⟨gs, h1, fun n => ?_⟩
  rcases h3 n with ⟨a, h4, h5⟩ | ⟨h4, h5⟩
  · obtain ⟨t, h6, h7⟩ := lastNamed_map (f := GroupT.value) (na := GroupT.name) (fun _ => rfl) h5
    constructor
    · intro _
      refine ⟨a, h4, ?_, t, h6, by rw [← h7]; rfl⟩
      obtain ⟨_, _, _, h8, _⟩ := h5
      exact h8
    · intro hn
      exfalso
      apply hn
      obtain ⟨p, q, e, h8, _⟩ := h6
      rw [← h8]
      exact List.mem_map_of_mem (by rw [e]; simp)
  · refine ⟨?_, fun _ => h4⟩
    intro hn
    exfalso
    obtain ⟨t, ht, rfl⟩ := List.mem_map.1 hn
    exact h5 t.value (List.mem_map_of_mem ht) rfl

theorem series_read {groups : GroupSet} {R : Str → Group → Prop} {ls : List SerieT} (hok : ∀ s ∈ ls, s.name ≠ [] ∧ s.refs ≠ [])
    (h : ∀ s ∈ ls, ∀ r ∈ s.refs, ∃ g, groups.find r.2 = .ok g ∧ R r.2 g) (mp : GoMap Serie) :
    ∃ mp', seriesFold groups ls mp = .ok mp' ∧ ∀ n,
      (∃ s t, mp' n = some s ∧ s.name = n ∧ LastNamed SerieT.name ls n t ∧ List.Forall₂ (fun r g => R r.2 g) t.refs s.groups) ∨
      (mp' n = mp n ∧ ∀ t ∈ ls, t.name ≠ n) := by
  induction ls generalizing mp with
  | nil => exact ⟨mp, rfl, fun n => .inr ⟨rfl, by simp⟩⟩
  | cons s ls ih =>
    obtain ⟨gs, h1, h2⟩ := mapOut_all (f := fun r : Str × Str => groups.find r.2) (R := fun r g => R r.2 g) (h s List.mem_cons_self)
    rw [mapOut_map groups.find Prod.snd] at h1
    have hgs : gs ≠ [] := by rintro rfl; exact (hok s List.mem_cons_self).2 (List.forall₂_nil_right_iff.1 h2)
    have hnow : serieNow s.name (some gs) = .ok ⟨s.name, gs⟩ := by
      unfold serieNow
      rw [if_neg (hok s List.mem_cons_self).1]
      cases gs with
      | nil => exact absurd rfl hgs
      | cons g gs => rfl
    obtain ⟨mp', q1, q2⟩ := ih (fun x hx => hok x (List.mem_cons_of_mem _ hx)) (fun x hx => h x (List.mem_cons_of_mem _ hx)) (mp.set s.name ⟨s.name, gs⟩)
    refine ⟨mp', by simp only [seriesFold, h1, Out.bind_ok, hnow, q1], fun n => ?_⟩
    rcases q2 n with ⟨x, t, r1, r2, ⟨p, q, e, r3, r4⟩, r5⟩ | ⟨r1, r2⟩
    · exact .inl ⟨x, t, r1, r2, ⟨s :: p, q, by rw [e]; rfl, r3, r4⟩, r5⟩
    · by_cases hn : s.name = n
      · left
        refine ⟨⟨s.name, gs⟩, s, by rw [r1]; simp [GoMap.set, hn], hn, ⟨[], ls, rfl, hn, r2⟩, h2⟩
      · right
        refine ⟨by rw [r1]; simp [GoMap.set, Ne.symm hn], ?_⟩
        intro t ht
        rcases List.mem_cons.1 ht with rfl | ht
        · exact hn
        · exact r2 t ht

theorem seriesFold_known {groups : GroupSet} {ls : List SerieT} {mp mp' : GoMap Serie} (h : seriesFold groups ls mp = .ok mp') :
    (∀ s ∈ ls, ∀ r ∈ s.refs, ∃ g, groups.find r.2 = .ok g) ∧ ∀ n, (∀ s ∈ ls, s.name ≠ n) → mp' n = mp n := by
  induction ls generalizing mp with
  | nil => simp [seriesFold] at h; subst h; simp
  | cons s ls ih =>
    simp only [seriesFold] at h
    cases hm : mapOut groups.find (s.refs.map Prod.snd) with
    | ok gs =>
      rw [hm, Out.bind_ok] at h
      cases hs : serieNow s.name (some gs) with
      | ok x =>
        rw [hs, Out.bind_ok] at h
        obtain ⟨i1, i2⟩ := ih h
        have hx : x.name = s.name := by
          unfold serieNow at hs
          split at hs
          · simp at hs
          · cases gs with
            | nil => simp at hs
            | cons g gs => simp at hs; rw [← hs]
        constructor
        · intro t ht r hr
          rcases List.mem_cons.1 ht with rfl | ht
          · rw [← mapOut_map groups.find Prod.snd] at hm
            have hf := mapOut_ok hm
            obtain ⟨g, _, hg⟩ := forall₂_left hf r hr
            exact ⟨g, hg⟩
          · exact i1 t ht r hr
        · intro n hn
          rw [i2 n (fun t ht => hn t (List.mem_cons_of_mem _ ht))]
          have := hn s List.mem_cons_self
          simp [GoMap.set, hx, Ne.symm this]
      | err => rw [hs] at h; simp at h
      | panic => rw [hs] at h; simp at h
    | err => rw [hm] at h; simp at h
    | panic => rw [hm] at h; simp at h

theorem choiceOf_eq {series : GoMap Serie} {c : ChoiceT} (h : SerieName c.serie) :
    choiceOf series ((if c.isReverse then [atC] else []) ++ c.serie) = match series c.serie with | some s => .ok ⟨s, c.isReverse⟩ | none => .err := by
  cases hb : c.isReverse with
  | true =>
    simp only [choiceOf, if_true, List.cons_append, List.nil_append]
    cases series c.serie <;> rfl
  | false =>
    obtain ⟨d, u, e, hd, _⟩ := h
    rw [e]
    have : d ≠ atC := (upper_first (.inl hd)).2.2.2.2.2.2.2
    simp only [choiceOf, this, if_false, List.nil_append, Bool.false_eq_true]
    cases series (d :: u) <;> rfl

theorem pattern_read {series : GoMap Serie} {R : Str → Serie → Prop} {p : PatternT} (hp : p.Ok) (h : ∀ c ∈ p.choices, ∃ s, series c.serie = some s ∧ R c.serie s) :
    ∃ g, readPattern series p = .ok g ∧ g.name = p.name ∧ List.Forall₂ (fun c k => k.isReverse = c.isReverse ∧ R c.serie k.serie) p.choices g.choices := by
  obtain ⟨ks, h1, h2⟩ := mapOut_all (f := fun c : ChoiceT => choiceOf series ((if c.isReverse then [atC] else []) ++ c.serie))
    (R := fun c k => k.isReverse = c.isReverse ∧ R c.serie k.serie) (l := p.choices) (by
      intro c hc
      obtain ⟨s, q1, q2⟩ := h c hc
      exact ⟨⟨s, c.isReverse⟩, by rw [choiceOf_eq (hp.2.2.2.2.1 c hc).2, q1], rfl, q2⟩)
  rw [mapOut_map (choiceOf series) (fun c : ChoiceT => (if c.isReverse then [atC] else []) ++ c.serie)] at h1
  have hks : ks ≠ [] := by rintro rfl; exact hp.2.2.2.1 (List.forall₂_nil_right_iff.1 h2)
  have hne : p.name ≠ [] := by obtain ⟨c, u, e, _⟩ := hp.2.1; rw [e]; simp
  refine ⟨⟨p.name, ks⟩, ?_, rfl, h2⟩
  unfold readPattern
  rw [h1, Out.bind_ok]
  unfold patternNow
  rw [if_neg hne]
  cases ks with
  | nil => exact absurd rfl hks
  | cons k ks => rfl

theorem entry_mem {l : List Entry} (h : ∀ e ∈ l, e.Ok) : (∀ s ∈ seriesOf l, s.Ok) ∧ ∀ p ∈ patternsOf l, p.Ok := by
  constructor
  · intro s hs
    obtain ⟨e, he, hse⟩ := List.mem_filterMap.1 hs
    cases e with
    | serie x => simp at hse; subst hse; exact h _ he
    | group _ => simp at hse
    | pattern _ => simp at hse
  · intro s hs
    obtain ⟨e, he, hse⟩ := List.mem_filterMap.1 hs
    cases e with
    | pattern x => simp at hse; subst hse; exact h _ he
    | group _ => simp at hse
    | serie _ => simp at hse

theorem patterns_ok {l : List Entry} (h : ∀ e ∈ l, e.Ok) {w : Str} (hw : Blank w) (hc : Complete l) :
    ∃ ps, toPatterns (entriesText l ++ w) = .ok ps ∧ List.Forall₂ (PatternShows l) (patternsOf l) ps.list ∧ ∀ n, FindsLast Pattern.name ps.list n (ps.find n) := by
  obtain ⟨c1, c2, c3, c4⟩ := hc
  obtain ⟨gs, g1, g2⟩ := groups_read c1
  obtain ⟨hs, hp⟩ := entry_mem h
  obtain ⟨mp, m1, m2⟩ := series_read (groups := gs) (R := GroupShows l) (ls := seriesOf l) (by
    intro s hs'
    obtain ⟨_, ⟨c, u, e, _⟩, _, hr, _⟩ := hs s hs'
    exact ⟨by rw [e]; simp, hr⟩) (fun s hs' r hr => (g2 r.2).1 (c3 s hs' r hr)) GoMap.empty
  obtain ⟨ps, p1, p2⟩ := mapOut_all (f := readPattern mp) (R := PatternShows l) (l := patternsOf l) (by
    intro p hp'
    obtain ⟨g, q1, q2, q3⟩ := pattern_read (series := mp) (R := SerieShows l) (hp p hp') (by
      intro c hc
      rcases m2 c.serie with ⟨s, t, r1, r2, r3, r4⟩ | ⟨_, r2⟩
      · exact ⟨s, r1, r2, t, r3, r4⟩
      · exfalso
        obtain ⟨t, ht, ht'⟩ := List.mem_map.1 (c4 p hp' c hc)
        exact r2 t ht ht')
    exact ⟨g, q1, q2, q3⟩)
  have hps : ps ≠ [] := by rintro rfl; cases hpo : patternsOf l with
    | nil => exact c2 hpo
    | cons x xs => rw [hpo] at p2; cases p2
  obtain ⟨set, s1, s2, s3⟩ := (C38_duplicates (name := Pattern.name) ps).2 hps
  refine ⟨set, ?_, by rw [s2]; exact p2, by rw [s2]; exact s3⟩
  rw [toPatterns_read h hw, g1, Out.bind_ok, m1, Out.bind_ok, p1, Out.bind_ok]
  exact s1

theorem patterns_complete {l : List Entry} (h : ∀ e ∈ l, e.Ok) {w : Str} (hw : Blank w) {ps : PatternSet} (hok : toPatterns (entriesText l ++ w) = .ok ps) : Complete l := by
  rw [toPatterns_read h hw] at hok
  obtain ⟨hs, hp⟩ := entry_mem h
  have c1 : groupsOf l ≠ [] := by
    intro h0
    rw [h0] at hok
    simp [groupsNow, lastNow] at hok
  obtain ⟨gs, g1, g2⟩ := groups_read c1
  rw [g1, Out.bind_ok] at hok
  cases hm : seriesFold gs (seriesOf l) GoMap.empty with
  | ok mp =>
    rw [hm, Out.bind_ok] at hok
    obtain ⟨k1, k2⟩ := seriesFold_known hm
    cases hq : mapOut (readPattern mp) (patternsOf l) with
    | ok qs =>
      rw [hq, Out.bind_ok] at hok
      refine ⟨c1, ?_, ?_, ?_⟩
      · intro h0
        rw [h0] at hq
        simp [mapOut] at hq
        subst hq
        simp [patternsNow, lastNow] at hok
      · intro s hs' r hr
        by_contra hn
        obtain ⟨g, hg⟩ := k1 s hs' r hr
        rw [(g2 r.2).2 hn] at hg
        simp at hg
      · intro p hp' c hc
        by_contra hn
        have h0 : mp c.serie = none := by
          rw [k2 c.serie (fun s hs' he => hn (by rw [← he]; exact List.mem_map_of_mem hs'))]
          rfl
        obtain ⟨g, _, hg⟩ := forall₂_left (mapOut_ok hq) p hp'
        unfold readPattern at hg
        cases hcs : mapOut (choiceOf mp) (p.choices.map (fun c => (if c.isReverse then [atC] else []) ++ c.serie)) with
        | ok cs =>
          rw [← mapOut_map (choiceOf mp) (fun c : ChoiceT => (if c.isReverse then [atC] else []) ++ c.serie)] at hcs
          obtain ⟨k, _, hk⟩ := forall₂_left (mapOut_ok hcs) c hc
          rw [choiceOf_eq ((hp p hp').2.2.2.2.1 c hc).2, h0] at hk
          simp at hk
        | err => rw [hcs] at hg; simp at hg
        | panic => rw [hcs] at hg; simp at hg
    | err => rw [hq] at hok; simp at hok
    | panic => rw [hq] at hok; simp at hok
  | err => rw [hm] at hok; simp at hok
  | panic => rw [hm] at hok; simp at hok

/-! ### No panics -/

theorem lastNow_no_panic {α : Type} (name : α → Str) (l : List α) : lastNow name l ≠ .panic := by
  cases l <;> simp [lastNow]

theorem serieNow_no_panic (n : Str) (l : Option (List Group)) : serieNow n l ≠ .panic := by
  unfold serieNow
  split
  · simp
  · split <;> simp
theorem groupNow_no_panic (n : Str) (l : Option (List Str)) : groupNow n l ≠ .panic := by
  unfold groupNow
  split
  · simp
  · split <;> simp
theorem patternNow_no_panic (n : Str) (l : Option (List Choice)) : patternNow n l ≠ .panic := by
  unfold patternNow
  split
  · simp
  · split <;> simp
theorem choiceOf_no_panic (s : GoMap Serie) (n : Str) : choiceOf s n ≠ .panic := by
  unfold choiceOf
  split
  · split <;> split <;> simp
  · simp

theorem serieLoop_no_panic (groups : GroupSet) (ms : List M) (mp : GoMap Serie) : serieLoop groups ms mp ≠ .panic := by
  induction ms generalizing mp with
  | nil => simp [serieLoop]
  | cons m ms ih =>
    simp only [serieLoop]
    split
    · exact ih mp
    · refine bind_no_panic (mapOut_no_panic (fun n _ => goFind_no_panic _ _)) (fun l _ => bind_no_panic (serieNow_no_panic _ _) (fun s _ => ih _))

theorem patternLoop_no_panic (series : GoMap Serie) (ms : List M) : patternLoop series ms ≠ .panic := by
  induction ms with
  | nil => simp [patternLoop]
  | cons m ms ih =>
    simp only [patternLoop]
    split
    · exact ih
    · refine bind_no_panic (mapOut_no_panic (fun n _ => choiceOf_no_panic _ _)) (fun l _ => bind_no_panic (patternNow_no_panic _ _) (fun s _ =>
        bind_no_panic ih (fun r _ => by simp)))

end Verif.Text
