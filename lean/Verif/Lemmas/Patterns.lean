import Verif.Spec.Patterns
import Verif.Lemmas.Strings

namespace Verif.Patterns

/-! # Facts about the matching code -/

theorem contains_fold (s : Str) (list : List Str) (k : Nat) :
    let r := list.foldl (fun longest e =>
      if e <+: s then (if e.length ≥ longest then e.length else longest) else longest) k
    k ≤ r ∧ (∀ e ∈ list, e <+: s → e.length ≤ r) ∧ (r = k ∨ ∃ e ∈ list, e <+: s ∧ e.length = r) := by
  induction list generalizing k with
  | nil => simp
  | cons x l ih =>
    simp only [List.foldl_cons]
    set k' := (if x <+: s then (if x.length ≥ k then x.length else k) else k) with hk'
    obtain ⟨h1, h2, h3⟩ := ih k'
    have hkk : k ≤ k' := by rw [hk']; split <;> [split; skip] <;> omega
    refine ⟨by omega, ?_, ?_⟩
    · intro e he hp
      rcases List.mem_cons.mp he with rfl | he
      · have : e.length ≤ k' := by rw [hk', if_pos hp]; split <;> omega
        omega
      · exact h2 e he hp
    · rcases h3 with h3 | ⟨e, he, hp, hl⟩
      · by_cases hx : x <+: s ∧ x.length ≥ k
        · right; refine ⟨x, by simp, hx.1, ?_⟩
          rw [h3, hk', if_pos hx.1, if_pos hx.2]
        · left; rw [h3, hk']
          split
          · rename_i hp
            rw [if_neg (fun h => hx ⟨hp, h⟩)]
          · rfl
      · exact .inr ⟨e, List.mem_cons_of_mem _ he, hp, hl⟩

theorem contains_pos {list : List Str} {s : Str} (h : contains list s ≠ 0) :
    SpecLongest list s (s.take (contains list s)) ∧ contains list s ≤ s.length := by
  obtain ⟨_, h2, h3⟩ := contains_fold s list 0
  rcases h3 with h3 | ⟨e, he, hp, hl⟩
  · exact absurd h3 h
  · have hl' : e.length = contains list s := hl
    have : s.take (contains list s) = e := by
      rw [← hl']; exact (List.prefix_iff_eq_take.mp hp).symm
    have hle : contains list s ≤ s.length := by rw [← hl']; exact hp.length_le
    refine ⟨⟨by rw [this]; exact he, ?_, List.take_prefix _ _, ?_⟩, hle⟩
    · rw [this]; intro hn; rw [hn] at hl'; exact h (by simpa using hl'.symm)
    · intro x hx hxp
      have := h2 x hx hxp
      rw [List.length_take, Nat.min_eq_left hle]
      exact this

theorem contains_zero {list : List Str} {s : Str} : contains list s = 0 ↔ ¬ SpecStarts list s := by
  obtain ⟨_, h2, h3⟩ := contains_fold s list 0
  constructor
  · rintro h ⟨e, he, hne, hp⟩
    have := h2 e he hp
    change e.length ≤ contains list s at this
    have := List.length_pos_iff.mpr hne
    omega
  · intro h
    by_contra hne
    have := (contains_pos hne).1
    exact h ⟨_, this.1, this.2.1, this.2.2.1⟩

theorem contains_longest {list : List Str} {s t : Str} (h : SpecLongest list s t) :
    contains list s = t.length := by
  have hne : contains list s ≠ 0 := by
    rw [ne_eq, contains_zero, not_not]; exact ⟨t, h.1, h.2.1, h.2.2.1⟩
  obtain ⟨h1, h2⟩ := contains_pos hne
  have a := h1.2.2.2 t h.1 h.2.2.1
  have b := h.2.2.2 _ h1.1 h1.2.2.1
  simp at a b
  omega

theorem discoveryNow_ok {i : Nat} {t : Str} {c : Container} (h : t ≠ []) :
    discoveryNow i t c = .ok ⟨i, t, c⟩ := by simp [discoveryNow, h]

/-! ## Groups -/

theorem fromGroupAt_spec (g : Group) (content rest : Str) (i : Nat) (hc : content ≠ []) :
    (∃ k t, k < rest.length ∧ SpecLongest g.list (rest.drop k) t ∧
      (∀ j < k, ¬ SpecStarts g.list (rest.drop j)) ∧
      fromGroupAt g content i rest = .ok ⟨content, [⟨i + k, t, .group g⟩],
        (if t.length < content.length then content.drop t.length else []), none⟩) ∨
    ((∀ j < rest.length, ¬ SpecStarts g.list (rest.drop j)) ∧ fromGroupAt g content i rest = .err) := by
  induction rest generalizing i with
  | nil => right; simp [fromGroupAt]
  | cons c cs ih =>
    simp only [fromGroupAt, matchesGroup]
    by_cases h : contains g.list (c :: cs) = 0
    · have h0 : ¬ SpecStarts g.list (c :: cs) := contains_zero.mp h
      simp only [Bool.false_eq_true, if_false, h, if_true]
      rcases ih (i + 1) with ⟨k, t, h1, h2, h3, h4⟩ | ⟨h1, h2⟩
      · left
        refine ⟨k + 1, t, by simp; omega, by simpa using h2, ?_, ?_⟩
        · intro j hj
          cases j with
          | zero => simpa using h0
          | succ j => simpa using h3 j (by omega)
        · rw [h4, show i + 1 + k = i + (k + 1) by omega]
      · right
        refine ⟨?_, h2⟩
        intro j hj
        cases j with
        | zero => simpa using h0
        | succ j => simpa using h1 j (by simpa using hj)
    · left
      obtain ⟨h1, h2⟩ := contains_pos h
      refine ⟨0, (c :: cs).take (contains g.list (c :: cs)), by simp, by simpa using h1, by simp, ?_⟩
      have hl : ((c :: cs).take (contains g.list (c :: cs))).length = contains g.list (c :: cs) := by
        rw [List.length_take, Nat.min_eq_left h2]
      simp only [Bool.false_eq_true, if_false, h]
      rw [discoveryNow_ok h1.2.1, hl]
      simp [resultNow, hc]

/-! ## Series and choices -/

theorem reverseAmount_spec (list : List Str) (s : Str) :
    reverseAmount list s ≤ s.length ∧ (∀ i < reverseAmount list s, ¬ SpecStarts list (s.drop i)) ∧
    (s.drop (reverseAmount list s) = [] ∨ SpecStarts list (s.drop (reverseAmount list s))) := by
  induction s with
  | nil => simp [reverseAmount]
  | cons c cs ih =>
    simp only [reverseAmount]
    by_cases h : contains list (c :: cs) = 0
    · rw [if_pos h]
      refine ⟨by simp; exact ih.1, ?_, by simpa using ih.2.2⟩
      intro i hi
      cases i with
      | zero => simpa using contains_zero.mp h
      | succ i => simpa using ih.2.1 i (by omega)
    · rw [if_neg h]
      refine ⟨by simp, by simp, .inr ?_⟩
      have := contains_zero.not.mp h
      simpa using this

theorem SpecLongest_det {list : List Str} {s t t' : Str} (h : SpecLongest list s t) (h' : SpecLongest list s t') :
    t = t' := by
  have a := h.2.2.2 _ h'.1 h'.2.2.1
  have b := h'.2.2.2 _ h.1 h.2.2.1
  rw [List.prefix_iff_eq_take.mp h.2.2.1, List.prefix_iff_eq_take.mp h'.2.2.1]
  congr 1; omega

theorem matchSerie_spec (index : Nat) (gs : List Group) (s : Str) (acc : List Discovery) :
    (∃ ds ts r, SpecSerie gs s ts r ∧ ds.map Discovery.content = ts ∧ (∀ d ∈ ds, d.index = index) ∧
      ds.map Discovery.container = gs.map Container.group ∧
      matchSerie index acc gs s = ⟨true, acc ++ ds, none, r⟩) ∨
    ((∀ ts r, ¬ SpecSerie gs s ts r) ∧ ∃ lost rest g ds, matchSerie index acc gs s = ⟨false, acc ++ ds, some g, rest⟩ ∧
      s = lost ++ rest ∧ lost = (ds.map Discovery.content).flatten) := by
  induction gs generalizing s acc with
  | nil => exact .inl ⟨[], [], s, .nil s, rfl, by simp, rfl, by simp [matchSerie]⟩
  | cons g gs ih =>
    simp only [matchSerie]
    by_cases hs : s = []
    · right
      subst hs
      refine ⟨?_, [], [], g, [], by simp, rfl, by simp⟩
      intro ts r h
      generalize hx : ([] : Str) = x at h
      cases h with
      | cons h1 _ => 
        have := h1.2.1
        rw [eq_comm] at hx
        simp at hx; exact this hx.1
    rw [if_neg hs]
    simp only [matchesGroup, Bool.false_eq_true, if_false]
    by_cases h : contains g.list s = 0
    · right
      rw [if_pos h]
      refine ⟨?_, [], s, g, [], by simp, rfl, by simp⟩
      intro ts r hsp
      have := contains_zero.mp h
      cases hsp with
      | cons h1 _ => exact this ⟨_, h1.1, h1.2.1, h1.2.2.1⟩
    · rw [if_neg h]
      obtain ⟨h1, h2⟩ := contains_pos h
      rw [discoveryNow_ok h1.2.1]
      simp only
      have hsplit : s = s.take (contains g.list s) ++ s.drop (contains g.list s) := (List.take_append_drop _ _).symm
      rcases ih (s.drop (contains g.list s)) (acc ++ [⟨index, s.take (contains g.list s), .group g⟩]) with
        ⟨ds, ts, r, a, b, c, d, e⟩ | ⟨a, lost, rest, g', ds, b, c, d⟩
      · left
        refine ⟨⟨index, s.take (contains g.list s), .group g⟩ :: ds, s.take (contains g.list s) :: ts, r, ?_,
          by simp [b], ?_, by simp [d], ?_⟩
        · have := SpecSerie.cons (g := g) (gs := gs) (t := s.take (contains g.list s))
            (s := s.drop (contains g.list s)) (r := r) (ts := ts) (by rw [← hsplit]; exact h1) a
          rwa [← hsplit] at this
        · intro x hx
          rcases List.mem_cons.mp hx with rfl | hx
          · rfl
          · exact c x hx
        · rw [e]; simp
      · right
        refine ⟨?_, s.take (contains g.list s) ++ lost, rest, g',
          ⟨index, s.take (contains g.list s), .group g⟩ :: ds, by rw [b]; simp, ?_, ?_⟩
        · intro ts r hsp
          generalize hgg : g :: gs = gg at hsp
          generalize hss : s = ss at hsp
          cases hsp with
          | nil => simp at hgg
          | cons k1 k2 =>
            simp only [List.cons.injEq] at hgg
            obtain ⟨rfl, rfl⟩ := hgg
            rw [← hss] at k1
            have := SpecLongest_det k1 h1
            apply a _ r
            rw [contains_longest k1, hss, List.drop_left]
            exact k2
        · rw [List.append_assoc, ← c]; exact hsplit
        · simp [d]

theorem choice_spec (c : Choice) (s : Str) (index : Nat) (hc : c.serie.groups ≠ []) :
    (∃ ds ts r g, SpecChoice c s ts r ∧ ds.map Discovery.content = ts ∧ ds ≠ [] ∧ (∀ d ∈ ds, d.index = index) ∧
      matchChoice c s index = .ok ⟨true, ds, g, r⟩) ∨
    ((∀ ts r, ¬ SpecChoice c s ts r) ∧ ∃ rest g ds, matchChoice c s index = .ok ⟨false, ds, g, rest⟩ ∧
      (c.isReverse = true → rest = [] ∧ g = none) ∧
      (c.isReverse = false → s = (ds.map Discovery.content).flatten ++ rest ∧ g.isSome)) := by
  unfold matchChoice SpecChoice
  cases hr : c.isReverse with
  | false =>
    simp only [Bool.false_eq_true, if_false]
    rcases matchSerie_spec index c.serie.groups s [] with ⟨ds, ts, r, a, b, d, e, f⟩ | ⟨a, lost, rest, g, ds, b, d, e⟩
    · left
      refine ⟨ds, ts, r, none, a, b, ?_, d, by rw [f]; simp⟩
      intro h; rw [h] at e; simp at e; exact hc e
    · right
      refine ⟨a, rest, some g, ds, by rw [b]; simp, by simp, fun _ => ⟨by rw [d, e], rfl⟩⟩
  | true =>
    simp only [if_true]
    unfold matchReversedSerie
    cases hg : c.serie.groups with
    | nil => exact absurd hg hc
    | cons g gs =>
      simp only [matchesGroup, if_true]
      obtain ⟨h1, h2, h3⟩ := reverseAmount_spec g.list s
      by_cases h : reverseAmount g.list s = 0
      · right
        rw [if_pos h]
        refine ⟨?_, [], none, [], rfl, by simp, by simp⟩
        rintro ts r ⟨t, rfl, g', gs', hg', e, hne, k1, k2⟩
        rw [hg] at hg'
        simp only [List.cons.injEq] at hg'
        obtain ⟨rfl, rfl⟩ := hg'
        rw [h] at h3
        simp only [List.drop_zero] at h3
        have hpos := List.length_pos_iff.mpr hne
        rcases h3 with h3 | h3
        · rw [h3] at e; simp at e; exact hne e.1
        · exact k1 0 hpos (by simpa using h3)
      · left
        rw [if_neg h]
        have hne : s.take (reverseAmount g.list s) ≠ [] := by
          intro hn
          have := congrArg List.length hn
          simp at this
          rcases this with this | this
          · omega
          · subst this; simp [reverseAmount] at h
        rw [discoveryNow_ok hne]
        refine ⟨[⟨index, s.take (reverseAmount g.list s), .reverse c.serie⟩], [s.take (reverseAmount g.list s)],
          s.drop (reverseAmount g.list s), some g, ⟨_, rfl, g, gs, hg, (List.take_append_drop _ _).symm, hne, ?_, h3⟩, rfl,
          by simp, by simp, by simp⟩
        intro i hi
        apply h2 i
        simp at hi; omega

theorem SpecSerie_append {gs : List Group} {s : Str} {ts : List Str} {r : Str} (h : SpecSerie gs s ts r) :
    s = ts.flatten ++ r := by
  induction h with
  | nil => simp
  | cons _ _ ih => rw [ih]; simp

theorem SpecSerie_ne {gs : List Group} {s : Str} {ts : List Str} {r : Str} (h : SpecSerie gs s ts r) :
    ∀ t ∈ ts, t ≠ [] := by
  induction h with
  | nil => simp
  | cons h1 _ ih =>
    intro t ht
    rcases List.mem_cons.mp ht with rfl | ht
    · exact h1.2.1
    · exact ih t ht

theorem SpecSerie_length {gs : List Group} {s : Str} {ts : List Str} {r : Str} (h : SpecSerie gs s ts r) :
    ts.length = gs.length := by
  induction h with
  | nil => simp
  | cons h1 _ ih => simp [ih]

theorem SpecChoice_append {c : Choice} {s : Str} {ts : List Str} {r : Str} (h : SpecChoice c s ts r) :
    s = ts.flatten ++ r ∧ ∀ t ∈ ts, t ≠ [] := by
  unfold SpecChoice at h
  split at h
  · obtain ⟨t, rfl, g, gs, _, e, hne, _⟩ := h
    exact ⟨by simpa using e, by simpa using hne⟩
  · exact ⟨SpecSerie_append h, SpecSerie_ne h⟩

theorem SpecSerie_det {gs : List Group} {s : Str} {ts ts' : List Str} {r r' : Str} (h : SpecSerie gs s ts r)
    (h' : SpecSerie gs s ts' r') : ts = ts' ∧ r = r' := by
  induction h generalizing ts' r' with
  | nil s => cases h'; simp
  | cons h1 h2 ih =>
    rename_i g gs t s r ts
    generalize hss : t ++ s = ss at h'
    cases h' with
    | cons k1 k2 =>
      rename_i t' s' ts'
      rw [← hss] at k1
      have := SpecLongest_det h1 k1
      subst this
      have := List.append_cancel_left hss
      subst this
      obtain ⟨rfl, rfl⟩ := ih k2
      simp

theorem SpecReverse_det {serie : Serie} {s t r t' r' : Str} (h : SpecReverse serie s t r)
    (h' : SpecReverse serie s t' r') : t = t' ∧ r = r' := by
  obtain ⟨g, gs, hg, e, hne, k1, k2⟩ := h
  obtain ⟨g', gs', hg', e', hne', k1', k2'⟩ := h'
  rw [hg] at hg'
  simp only [List.cons.injEq] at hg'
  obtain ⟨rfl, rfl⟩ := hg'
  have key : ∀ (t r t' r' : Str), s = t ++ r → s = t' ++ r' → (r = [] ∨ SpecStarts g.list r) →
      (∀ i < t'.length, ¬ SpecStarts g.list (s.drop i)) → t'.length ≤ t.length := by
    intro t r t' r' e e' k2 k1'
    by_contra hlt
    push_neg at hlt
    rcases k2 with rfl | k2
    · have := congrArg List.length (e.symm.trans e')
      simp at this; omega
    · apply k1' t.length hlt
      rw [e, List.drop_left]; exact k2
  have a := key t r t' r' e e' k2 k1'
  have b := key t' r' t r e' e k2' k1
  have := List.append_inj (e.symm.trans e') (by omega)
  exact this

theorem SpecChoice_det {c : Choice} {s : Str} {ts ts' : List Str} {r r' : Str} (h : SpecChoice c s ts r)
    (h' : SpecChoice c s ts' r') : ts = ts' ∧ r = r' := by
  unfold SpecChoice at h h'
  split at h
  · rename_i hr
    rw [if_pos hr] at h'
    obtain ⟨t, rfl, h⟩ := h
    obtain ⟨t', rfl, h'⟩ := h'
    obtain ⟨rfl, rfl⟩ := SpecReverse_det h h'
    simp
  · rename_i hr
    rw [if_neg hr] at h'
    exact SpecSerie_det h h'

theorem SpecLeading_det {cs : List Choice} {s : Str} {ts ts' : List Str} (h : SpecLeading cs s ts)
    (h' : SpecLeading cs s ts') : ts = ts' := by
  induction h generalizing ts' with
  | nil s => cases h'; rfl
  | stop h1 =>
    cases h' with
    | stop => rfl
    | cons k1 _ => exact absurd k1 (h1 _ _)
  | cons h1 h2 ih =>
    cases h' with
    | stop k => exact absurd h1 (k _ _)
    | cons k1 k2 =>
      obtain ⟨rfl, rfl⟩ := SpecChoice_det h1 k1
      rw [ih k2]

theorem SpecLeading_prefix {cs : List Choice} {s : Str} {ts : List Str} (h : SpecLeading cs s ts) :
    ts.flatten <+: s ∧ ∀ t ∈ ts, t ≠ [] := by
  induction h with
  | nil => simp
  | stop => simp
  | cons h1 _ ih =>
    obtain ⟨e, hne⟩ := SpecChoice_append h1
    refine ⟨?_, ?_⟩
    · rw [List.flatten_append, e]
      exact (List.prefix_append_right_inj _).mpr ih.1
    · intro t ht
      rcases List.mem_append.mp ht with ht | ht
      · exact hne t ht
      · exact ih.2 t ht

/-- The loop over the choices computes the leading texts. -/
theorem matchChoices_spec (cs : List Choice) (hc : ∀ c ∈ cs, c.serie.groups ≠ []) (s : Str) (index : Nat)
    (acc : List Discovery) : ∃ ds n r, matchChoices acc index cs s = .ok (acc ++ ds, n, r) ∧
      SpecLeading cs s (ds.map Discovery.content) ∧ (∀ d ∈ ds.head?, d.index = index) := by
  induction cs generalizing s index acc with
  | nil => exact ⟨[], none, s, by simp [matchChoices], .nil s, by simp⟩
  | cons c cs ih =>
    simp only [matchChoices]
    rcases choice_spec c s index (hc c (by simp)) with ⟨ds, ts, r, g, a, b, d, e, f⟩ | ⟨a, rest, g, ds, b, _, _⟩
    · obtain ⟨ds', n, r', h1, h2, h3⟩ := ih (fun x hx => hc x (by simp [hx])) r 0 (acc ++ ds)
      refine ⟨ds ++ ds', n, r', ?_, ?_, ?_⟩
      · rw [f]; simp only [Out.bind_ok, if_true]; rw [h1]; simp
      · rw [List.map_append, b]; exact .cons a h2
      · intro x hx
        cases ds with
        | nil => exact absurd rfl d
        | cons y ds => simp at hx; subst hx; exact e y (by simp)
    · rw [b]
      simp only [Out.bind_ok, Bool.false_eq_true, if_false]
      cases g with
      | none => exact ⟨[], none, rest, by simp, .stop a, by simp⟩
      | some g => exact ⟨[], some ⟨c.isReverse, g⟩, rest, by simp, .stop a, by simp⟩

/-- If all the choices are found, nothing gets lost. -/
theorem matchChoices_all (cs : List Choice) (hc : ∀ c ∈ cs, c.serie.groups ≠ []) (s : Str) (index : Nat)
    (acc : List Discovery) (ts : List Str) (r : Str) (h : SpecAll cs s ts r) :
    ∃ ds, matchChoices acc index cs s = .ok (acc ++ ds, none, r) ∧ ds.map Discovery.content = ts := by
  induction h generalizing index acc with
  | nil s => exact ⟨[], by simp [matchChoices], rfl⟩
  | cons h1 _ ih =>
    rename_i c cs s r r' ts us h2
    simp only [matchChoices]
    rcases choice_spec c s index (hc c (by simp)) with ⟨ds, ts', r1, g, a, b, d, e, f⟩ | ⟨a, _⟩
    · obtain ⟨rfl, rfl⟩ := SpecChoice_det h1 a
      obtain ⟨ds', k1, k2⟩ := ih (fun x hx => hc x (by simp [hx])) 0 (acc ++ ds)
      refine ⟨ds ++ ds', ?_, by rw [List.map_append, b, k2]⟩
      rw [f]; simp only [Out.bind_ok, if_true]; rw [k1]; simp
    · exact absurd h1 (a _ _)

theorem SpecAll_append {cs : List Choice} {s : Str} {ts : List Str} {r : Str} (h : SpecAll cs s ts r) :
    s = ts.flatten ++ r := by
  induction h with
  | nil => simp
  | cons h1 _ ih =>
    rw [(SpecChoice_append h1).1, ih]; simp

theorem matchPattern_spec (p : Pattern) (hp : WellFormed p) (s : Str) (hs : s ≠ []) (index : Nat) :
    (SpecLeading p.choices s [] ∧ matchPattern p s index = .ok none) ∨
    (∃ r, matchPattern p s index = .ok (some r) ∧ r.input = s ∧ r.discoveries ≠ [] ∧
      SpecLeading p.choices s (r.discoveries.map Discovery.content) ∧ r.index = .ok index) := by
  obtain ⟨ds, n, r, h1, h2, h3⟩ := matchChoices_spec p.choices hp.2 s index []
  unfold matchPattern
  rw [h1]
  simp only [List.nil_append, Out.bind_ok]
  cases ds with
  | nil => left; exact ⟨h2, by simp⟩
  | cons d ds =>
    right
    refine ⟨⟨s, d :: ds, r, n⟩, ?_, rfl, by simp, h2, ?_⟩
    · simp [resultNow, hs]
    · simp only [Result.index]
      rw [h3 d (by simp)]

theorem fromPatternAt_spec (p : Pattern) (hp : WellFormed p) (i : Nat) (s : Str) :
    (∃ k r, k < s.length ∧ fromPatternAt p i s = .ok r ∧ r.input = s.drop k ∧ r.discoveries ≠ [] ∧
      SpecLeading p.choices (s.drop k) (r.discoveries.map Discovery.content) ∧ r.index = .ok (i + k) ∧
      ∀ j < k, SpecLeading p.choices (s.drop j) []) ∨
    ((∀ j < s.length, SpecLeading p.choices (s.drop j) []) ∧ fromPatternAt p i s = .err) := by
  induction s generalizing i with
  | nil => right; simp [fromPatternAt]
  | cons c cs ih =>
    simp only [fromPatternAt]
    rcases matchPattern_spec p hp (c :: cs) (by simp) i with ⟨h1, h2⟩ | ⟨r, h1, h2, h3, h4, h5⟩
    · rw [h2]
      simp only [Out.bind_ok]
      rcases ih (i + 1) with ⟨k, r, a, b, d, e, f, g, h⟩ | ⟨a, b⟩
      · left
        refine ⟨k + 1, r, by simp; omega, b, by simpa using d, e, by simpa using f, ?_, ?_⟩
        · rw [g]; congr 1; omega
        · intro j hj
          cases j with
          | zero => simpa using h1
          | succ j => simpa using h j (by omega)
      · right
        refine ⟨?_, b⟩
        intro j hj
        cases j with
        | zero => simpa using h1
        | succ j => simpa using a j (by simpa using hj)
    · left
      rw [h1]
      exact ⟨0, r, by simp, by simp, by simpa using h2, h3, by simpa using h4, by simpa using h5, by simp⟩

end Verif.Patterns
