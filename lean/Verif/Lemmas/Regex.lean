import Verif.Model.Regex

/-! Helper lemmas about the regular expressions. -/

namespace Verif.Regex

/-! ## Every match is a decomposition of the text -/

theorem mem_starRun {p : Cls} {s : Str} {m : M} :
    m ∈ starRun p s ↔ m.caps = [] ∧ m.text ++ m.rest = s ∧ ∀ c ∈ m.text, p c = true := by
  induction s generalizing m with
  | nil =>
    obtain ⟨t, r, k⟩ := m
    simp only [starRun, List.mem_singleton, M.mk.injEq, List.append_eq_nil_iff]
    constructor
    · rintro ⟨rfl, rfl, rfl⟩; simp
    · rintro ⟨h, ⟨rfl, rfl⟩, _⟩; simp [h]
  | cons a s ih =>
    obtain ⟨t, r, k⟩ := m
    unfold starRun
    by_cases ha : p a
    · rw [if_pos ha]
      simp only [List.mem_append, List.mem_map, List.mem_singleton, M.mk.injEq]
      constructor
      · rintro (⟨m, hm, rfl, rfl, rfl⟩ | ⟨rfl, rfl, rfl⟩)
        · obtain ⟨h1, h2, h3⟩ := ih.1 hm
          refine ⟨h1, by simp [h2], ?_⟩
          simp only [List.mem_cons, forall_eq_or_imp]
          exact ⟨ha, h3⟩
        · simp
      · rintro ⟨hk, ht, hp⟩
        cases t with
        | nil => right; simp at ht hk; simp [ht, hk]
        | cons b t =>
          left
          simp only [List.cons_append, List.cons.injEq] at ht
          obtain ⟨rfl, ht⟩ := ht
          refine ⟨⟨t, r, k⟩, ih.2 ⟨hk, ht, fun c hc => hp c (List.mem_cons_of_mem _ hc)⟩, rfl, rfl, rfl⟩
    · rw [if_neg ha]
      simp only [List.mem_singleton, M.mk.injEq]
      constructor
      · rintro ⟨rfl, rfl, rfl⟩; simp
      · rintro ⟨hk, ht, hp⟩
        cases t with
        | nil => simp at ht hk; simp [ht, hk]
        | cons b t =>
          simp only [List.cons_append, List.cons.injEq] at ht
          exact absurd (hp b List.mem_cons_self) (by rw [ht.1]; exact ha)

theorem mem_lazyRun {p : Cls} {s : Str} {m : M} :
    m ∈ lazyRun p s ↔ m.caps = [] ∧ m.text ++ m.rest = s ∧ ∀ c ∈ m.text, p c = true := by
  rw [← mem_starRun]
  induction s generalizing m with
  | nil => simp [starRun, lazyRun]
  | cons a s ih =>
    unfold starRun lazyRun
    by_cases ha : p a
    · rw [if_pos ha, if_pos ha]
      simp only [List.mem_cons, List.mem_append, List.mem_map, List.not_mem_nil, or_false]
      rw [or_comm]
      simp only [ih]
    · rw [if_neg ha, if_neg ha]

theorem run_text {r : Re} {s : Str} {m : M} (h : m ∈ run r s) : m.text ++ m.rest = s := by
  induction r generalizing s m with
  | eps => simp [run] at h; simp [h]
  | chr p =>
    cases s with
    | nil => simp [run] at h
    | cons c s =>
      simp only [run] at h
      split at h
      · simp at h; simp [h]
      · simp at h
  | star p => exact (mem_starRun.1 h).2.1
  | lazy p => exact (mem_lazyRun.1 h).2.1
  | seq a b iha ihb =>
    simp only [run, List.mem_flatMap, List.mem_map] at h
    obtain ⟨x, hx, y, hy, rfl⟩ := h
    have h1 := iha hx
    have h2 := ihb hy
    simp [h2, h1]
  | opt a ih =>
    simp only [run, List.mem_append, List.mem_singleton] at h
    rcases h with h | rfl
    · exact ih h
    · simp
  | grp n a ih =>
    simp only [run, List.mem_map] at h
    obtain ⟨x, hx, rfl⟩ := h
    exact (ih hx : x.text ++ x.rest = s)

/-! ## The preferred match -/

/-- A shorter name for "the preferred match at the beginning of `s` is `m`". -/
abbrev Y (r : Re) (s : Str) (m : M) : Prop := matchAt r s = some m
/-- No match at the beginning of `s`. -/
abbrev F (r : Re) (s : Str) : Prop := run r s = []

theorem Y.mem {r s m} (h : Y r s m) : m ∈ run r s := List.mem_of_head? h
theorem matchAt_none {r s} : matchAt r s = none ↔ F r s := by simp [matchAt, List.head?_eq_none_iff]

theorem y_eps (s) : Y .eps s ⟨[], s, []⟩ := rfl
theorem y_chr {p : Cls} {c s} (h : p c = true) : Y (.chr p) (c :: s) ⟨[c], s, []⟩ := by unfold Y matchAt; simp [run, h]
theorem f_chr_nil {p} : F (.chr p) [] := rfl
theorem f_chr {p : Cls} {c s} (h : p c = false) : F (.chr p) (c :: s) := by simp only [F, run, h]; rfl

/-- A text does not begin with a character of the class. -/
def Stops (p : Cls) (s : Str) : Prop := ∀ c ∈ s.head?, p c = false
@[simp] theorem stops_nil (p) : Stops p [] := by simp [Stops]
@[simp] theorem stops_cons (p c s) : Stops p (c :: s) ↔ p c = false := by simp [Stops]

theorem starRun_append {p : Cls} {u v : Str} (hu : ∀ c ∈ u, p c = true) (hv : Stops p v) :
    ∃ l, starRun p (u ++ v) = ⟨u, v, []⟩ :: l := by
  induction u with
  | nil =>
    cases v with
    | nil => exact ⟨[], rfl⟩
    | cons c v => exact ⟨[], by simp only [List.nil_append, starRun]; rw [if_neg (by simpa using hv)]⟩
  | cons c u ih =>
    obtain ⟨l, hl⟩ := ih (fun c hc => hu c (List.mem_cons_of_mem _ hc))
    refine ⟨l.map (fun m => ⟨c :: m.text, m.rest, m.caps⟩) ++ [⟨[], c :: (u ++ v), []⟩], ?_⟩
    simp only [List.cons_append, starRun, if_pos (hu c List.mem_cons_self), hl, List.map_cons, List.cons_append]

theorem y_star {p : Cls} {u v : Str} (hu : ∀ c ∈ u, p c = true) (hv : Stops p v) : Y (.star p) (u ++ v) ⟨u, v, []⟩ := by
  obtain ⟨l, hl⟩ := starRun_append hu hv
  unfold Y matchAt; simp [run, hl]

theorem y_seq {a b s m k} (ha : Y a s m) (hb : Y b m.rest k) :
    Y (.seq a b) s ⟨m.text ++ k.text, k.rest, m.caps ++ k.caps⟩ := by
  obtain ⟨l, hl⟩ : ∃ l, run a s = m :: l := by
    have := ha; unfold Y matchAt at this
    cases h : run a s with
    | nil => simp [h] at this
    | cons x l => simp [h] at this; exact ⟨l, by rw [this]⟩
  obtain ⟨l', hl'⟩ : ∃ l, run b m.rest = k :: l := by
    have := hb; unfold Y matchAt at this
    cases h : run b m.rest with
    | nil => simp [h] at this
    | cons x l => simp [h] at this; exact ⟨l, by rw [this]⟩
  unfold Y matchAt; simp [run, hl, hl']

theorem f_seq_left {a b s} (ha : F a s) : F (.seq a b) s := by unfold F at *; simp [run, ha]

theorem f_seq {a b s} (h : ∀ m ∈ run a s, F b m.rest) : F (.seq a b) s := by
  unfold F at *; simp only [run, List.flatMap_eq_nil_iff, List.map_eq_nil_iff]
  exact h

theorem f_star_seq {p : Cls} {b s} (h : ∀ u v, u ++ v = s → (∀ c ∈ u, p c = true) → F b v) : F (.seq (.star p) b) s :=
  f_seq (fun m hm => by
    obtain ⟨_, h2, h3⟩ := mem_starRun.1 hm
    exact h m.text m.rest h2 h3)

theorem f_lazy_seq {p : Cls} {b s} (h : ∀ u v, u ++ v = s → (∀ c ∈ u, p c = true) → F b v) : F (.seq (.lazy p) b) s :=
  f_seq (fun m hm => by
    obtain ⟨_, h2, h3⟩ := mem_lazyRun.1 hm
    exact h m.text m.rest h2 h3)

theorem y_opt_some {a s m} (h : Y a s m) : Y (.opt a) s m := by
  unfold Y matchAt at *
  simp only [run]
  cases hr : run a s with
  | nil => simp [hr] at h
  | cons x l => simpa [hr] using h

theorem y_opt_none {a s} (h : F a s) : Y (.opt a) s ⟨[], s, []⟩ := by
  unfold Y matchAt
  simp [run, h]

theorem y_grp {n a s m} (h : Y a s m) : Y (.grp n a) s ⟨m.text, m.rest, (n, m.text) :: m.caps⟩ := by
  unfold Y matchAt at *
  simp only [run, List.head?_map, h, Option.map_some]

theorem f_grp {n a s} (h : F a s) : F (.grp n a) s := by unfold F at *; simp [run, h]

/-- A greedy loop which gives back characters until the rest matches. -/
theorem y_star_back {p : Cls} {b : Re} {u w v : Str} {k : M} (hu : ∀ c ∈ u, p c = true) (hw : ∀ c ∈ w, p c = true) (hv : Stops p v)
    (hf : ∀ w1 w2, w1 ++ w2 = w → w1 ≠ [] → F b (w2 ++ v)) (hb : Y b (w ++ v) k) :
    Y (.seq (.star p) b) (u ++ (w ++ v)) ⟨u ++ k.text, k.rest, k.caps⟩ := by
  induction u with
  | nil =>
    -- all the longer ones fail
    have key : ∀ (w : Str), (∀ c ∈ w, p c = true) → (∀ w1 w2, w1 ++ w2 = w → w1 ≠ [] → F b (w2 ++ v)) →
        ((starRun p (w ++ v)).flatMap (fun m => (run b m.rest).map (fun k => (⟨m.text ++ k.text, k.rest, m.caps ++ k.caps⟩ : M)))) =
          (run b (w ++ v)).map (fun k => (⟨k.text, k.rest, k.caps⟩ : M)) := by
      intro w
      induction w with
      | nil =>
        intro _ _
        cases v with
        | nil => simp [starRun]
        | cons c v =>
          simp only [List.nil_append, starRun]
          rw [if_neg (by simpa using hv)]
          simp
      | cons c w ih =>
        intro h1 h2
        simp only [List.cons_append, starRun, if_pos (h1 c List.mem_cons_self), List.flatMap_append, List.flatMap_map,
          List.flatMap_cons, List.flatMap_nil, List.append_nil, List.nil_append]
        have h0 : (starRun p (w ++ v)).flatMap (fun m => (run b m.rest).map
            (fun k => (⟨c :: (m.text ++ k.text), k.rest, m.caps ++ k.caps⟩ : M))) = [] := by
          rw [List.flatMap_eq_nil_iff]
          intro m hm
          rw [List.map_eq_nil_iff]
          obtain ⟨_, hm2, hm3⟩ := mem_starRun.1 hm
          have hsuf : ∃ w1 w2, w1 ++ w2 = w ∧ m.rest = w2 ++ v := by
            rw [List.append_eq_append_iff] at hm2
            rcases hm2 with ⟨a, h3, h4⟩ | ⟨a, h3, h4⟩
            · exact ⟨m.text, a, h3.symm, h4⟩
            · -- the loop went into v
              cases a with
              | nil => exact ⟨w, [], by simp, by simpa using h4.symm⟩
              | cons x a =>
                exfalso
                have hx : p x = true := hm3 x (by rw [h3]; simp)
                rw [h4] at hv
                simp [hx] at hv
          obtain ⟨w1, w2, h3, h4⟩ := hsuf
          rw [h4]
          exact h2 (c :: w1) w2 (by simp [h3]) (by simp)
        rw [h0]
        simp
    have hk := key w hw hf
    unfold Y matchAt at *
    simp only [run, List.nil_append]
    rw [hk]
    simp only [List.head?_map, hb, Option.map_some]
  | cons c u ih =>
    have h := ih (fun c hc => hu c (List.mem_cons_of_mem _ hc))
    unfold Y matchAt at *
    simp only [run, List.cons_append, starRun, if_pos (hu c List.mem_cons_self), List.flatMap_append, List.flatMap_map] at *
    have hmap : (starRun p (u ++ (w ++ v))).flatMap (fun m => (run b m.rest).map
        (fun k => (⟨c :: (m.text ++ k.text), k.rest, m.caps ++ k.caps⟩ : M))) =
        ((starRun p (u ++ (w ++ v))).flatMap (fun m => (run b m.rest).map
        (fun k => (⟨m.text ++ k.text, k.rest, m.caps ++ k.caps⟩ : M)))).map (fun x => ⟨c :: x.text, x.rest, x.caps⟩) := by
      rw [List.map_flatMap]
      simp [Function.comp_def]
    have hh : ((starRun p (u ++ (w ++ v))).flatMap (fun m => (run b m.rest).map
        (fun k => (⟨c :: (m.text ++ k.text), k.rest, m.caps ++ k.caps⟩ : M)))).head? = some ⟨c :: (u ++ k.text), k.rest, k.caps⟩ := by
      rw [hmap, List.head?_map, h]; simp
    rw [List.head?_append]
    rw [hh]; simp

/-- A lazy loop which takes characters until the rest matches. -/
theorem y_lazy {p : Cls} {b : Re} {u v : Str} {k : M} (hu : ∀ c ∈ u, p c = true)
    (hf : ∀ u1 u2, u1 ++ u2 = u → u2 ≠ [] → F b (u2 ++ v)) (hb : Y b v k) :
    Y (.seq (.lazy p) b) (u ++ v) ⟨u ++ k.text, k.rest, k.caps⟩ := by
  induction u with
  | nil =>
    unfold Y matchAt at *
    cases v with
    | nil => simp only [run, List.nil_append, lazyRun, List.flatMap_cons, List.flatMap_nil, List.append_nil]; simp [hb]
    | cons c v =>
      simp only [run, List.nil_append, lazyRun]
      by_cases hc : p c
      · rw [if_pos hc]
        simp only [List.flatMap_cons, List.head?_append, List.head?_map, hb]
        simp
      · rw [if_neg hc]; simp [hb]
  | cons c u ih =>
    have h := ih (fun c hc => hu c (List.mem_cons_of_mem _ hc)) (fun u1 u2 h1 h2 => hf (c :: u1) u2 (by simp [h1]) h2)
    have h0 : run b (c :: (u ++ v)) = [] := hf [] (c :: u) rfl (by simp)
    unfold Y matchAt at *
    simp only [run, List.cons_append, lazyRun, if_pos (hu c List.mem_cons_self), List.flatMap_cons, List.flatMap_map, h0,
      List.map_nil, List.nil_append] at *
    have hmap : (lazyRun p (u ++ v)).flatMap (fun m => (run b m.rest).map
        (fun k => (⟨c :: (m.text ++ k.text), k.rest, m.caps ++ k.caps⟩ : M))) =
        ((lazyRun p (u ++ v)).flatMap (fun m => (run b m.rest).map
        (fun k => (⟨m.text ++ k.text, k.rest, m.caps ++ k.caps⟩ : M)))).map (fun x => ⟨c :: x.text, x.rest, x.caps⟩) := by
      rw [List.map_flatMap]
      simp [Function.comp_def]
    rw [hmap, List.head?_map, h]; simp

theorem y_text {t s : Str} : Y (.text t) (t ++ s) ⟨t, s, []⟩ := by
  induction t with
  | nil => exact y_eps s
  | cons c t ih =>
    unfold Re.text
    simpa using y_seq (y_chr (p := (· = c)) (c := c) (s := t ++ s) (by simp)) ih

theorem f_text_head {c : UInt8} {t s : Str} (h : ∀ x ∈ s.head?, x ≠ c) : F (.text (c :: t)) s := by
  refine f_seq_left ?_
  cases s with
  | nil => rfl
  | cons x s => exact f_chr (by simpa using h x (by simp))

theorem y_plus {p : Cls} {c : UInt8} {u v : Str} (hc : p c = true) (hu : ∀ c ∈ u, p c = true) (hv : Stops p v) :
    Y (.plus p) (c :: u ++ v) ⟨c :: u, v, []⟩ := by
  unfold Re.plus
  simpa using y_seq (y_chr (s := u ++ v) hc) (y_star hu hv)

/-! ## Searching -/

theorem find_zero {r s m} (h : Y r s m) : find r s = some (0, m) := by
  cases s with
  | nil => simp only [find]; rw [h]; rfl
  | cons c s => simp only [find]; rw [h]

theorem find_skip {r c s} (h : F r (c :: s)) : find r (c :: s) = (find r s).map (fun x => (x.1 + 1, x.2)) := by
  simp only [find]; rw [matchAt_none.2 h]

theorem find_append {r : Re} {u v : Str} {m : M} (hf : ∀ u1 u2, u1 ++ u2 = u → u2 ≠ [] → F r (u2 ++ v)) (hb : Y r v m) :
    find r (u ++ v) = some (u.length, m) := by
  induction u with
  | nil => exact find_zero hb
  | cons c u ih =>
    rw [List.cons_append, find_skip (by simpa using hf [] (c :: u) rfl (by simp))]
    rw [ih (fun u1 u2 h1 h2 => hf (c :: u1) u2 (by simp [h1]) h2)]
    simp

theorem find_none {r : Re} {s : Str} (h : ∀ u v, u ++ v = s → F r v) : find r s = none := by
  induction s with
  | nil => simp only [find]; rw [matchAt_none.2 (h [] [] rfl)]; rfl
  | cons c s ih =>
    rw [find_skip (h [] (c :: s) rfl), ih (fun u v hu => h (c :: u) v (by simp [hu]))]
    rfl

theorem find_some {r : Re} {s : Str} {i : Nat} {m : M} (h : find r s = some (i, m)) :
    ∃ u v, u ++ v = s ∧ u.length = i ∧ m ∈ run r v := by
  induction s generalizing i m with
  | nil =>
    simp only [find, Option.map_eq_some_iff] at h
    obtain ⟨a, h1, h2⟩ := h
    simp only [Prod.mk.injEq] at h2
    exact ⟨[], [], rfl, by simp [h2.1], by rw [← h2.2]; exact Y.mem h1⟩
  | cons c s ih =>
    simp only [find] at h
    cases hm : matchAt r (c :: s) with
    | some k =>
      rw [hm] at h
      simp only [Option.some.injEq, Prod.mk.injEq] at h
      exact ⟨[], c :: s, rfl, by simp [h.1], by rw [← h.2]; exact Y.mem hm⟩
    | none =>
      rw [hm] at h
      simp only [Option.map_eq_some_iff, Prod.mk.injEq] at h
      obtain ⟨⟨j, k⟩, h1, h2, h3⟩ := h
      obtain ⟨u, v, h4, h5, h6⟩ := ih h1
      exact ⟨c :: u, v, by simp [h4], by simp [h5, ← h2], by rw [← h3]; exact h6⟩

/-! ## All the matches -/

theorem findAllLoop_none {r n a s} (h : find r s = none) : findAllLoop r n a s = [] := by
  cases n with
  | zero => rfl
  | succ n => simp only [findAllLoop, h]

theorem findAllLoop_some {r n a s i m} (h : find r s = some (i, m)) (hm : m.text ≠ []) :
    findAllLoop r (n + 1) a s = m :: findAllLoop r n true m.rest := by
  simp only [findAllLoop, h]
  rw [if_neg (by simp [hm])]

theorem findAllLoop_empty {r n a c s m} (h : find r (c :: s) = some (0, m)) (hm : m.text = []) :
    findAllLoop r (n + 1) a (c :: s) = (if a then [] else [m]) ++ findAllLoop r n false s := by
  simp only [findAllLoop, h]
  rw [if_pos (by simp [hm])]

theorem findAllLoop_empty_nil {r n a m} (h : find r [] = some (0, m)) (hm : m.text = []) :
    findAllLoop r (n + 1) a [] = (if a then [] else [m]) := by
  simp only [findAllLoop, h]
  rw [if_pos (by simp [hm])]

/-- Enough fuel. -/
theorem findAllLoop_fuel {r : Re} : ∀ {n k : Nat} {a : Bool} {s : Str}, s.length < n → n ≤ k → findAllLoop r n a s = findAllLoop r k a s
  | 0, _, _, s, h, _ => absurd h (by omega)
  | n + 1, 0, _, s, h, hk => absurd hk (by omega)
  | n + 1, k + 1, a, s, h, hk => by
    simp only [findAllLoop]
    cases hf : find r s with
    | none => rfl
    | some x =>
      obtain ⟨i, m⟩ := x
      dsimp only
      obtain ⟨u, v, h1, h2, h3⟩ := find_some hf
      have h4 := run_text h3
      have hl : s.length = u.length + (m.text.length + m.rest.length) := by rw [← h1, ← h4]; simp
      by_cases hc : i = 0 ∧ m.text = []
      · rw [if_pos hc, if_pos hc]
        cases s with
        | nil => rfl
        | cons c s => dsimp only; rw [findAllLoop_fuel (n := n) (k := k) (by simp at h; omega) (by omega)]
      · rw [if_neg hc, if_neg hc]
        rw [findAllLoop_fuel (n := n) (k := k) ?_ (by omega)]
        have : 0 < u.length + m.text.length := by
          rw [not_and_or] at hc
          rcases hc with hc | hc
          · omega
          · have := List.length_pos_iff.2 hc; omega
        omega

/-! ## Matches of a sequence -/

/-- Go through all matches from here, whether or not the last match ended here (with enough fuel). -/
def scan (r : Re) (a : Bool) (s : Str) : List M := findAllLoop r (s.length + 1) a s

theorem findAll_eq (r : Re) (s : Str) : findAll r s = scan r false s :=
  (findAllLoop_fuel (by omega) (by omega)).symm

theorem scan_none {r a s} (h : find r s = none) : scan r a s = [] := findAllLoop_none h

theorem scan_some {r a s i m} (h : find r s = some (i, m)) (hm : m.text ≠ []) : scan r a s = m :: scan r true m.rest := by
  unfold scan
  rw [findAllLoop_some h hm]
  congr 1
  obtain ⟨u, v, h1, h2, h3⟩ := find_some h
  have h4 := run_text h3
  have hl : s.length = u.length + (m.text.length + m.rest.length) := by rw [← h1, ← h4]; simp
  have := List.length_pos_iff.2 hm
  exact (findAllLoop_fuel (by omega) (by omega)).symm

theorem scan_empty {r a c s m} (h : find r (c :: s) = some (0, m)) (hm : m.text = []) :
    scan r a (c :: s) = (if a then [] else [m]) ++ scan r false s := by
  unfold scan
  rw [List.length_cons, findAllLoop_empty h hm]

theorem scan_empty_nil {r a m} (h : find r [] = some (0, m)) (hm : m.text = []) : scan r a [] = (if a then [] else [m]) := by
  unfold scan
  rw [List.length_nil, findAllLoop_empty_nil h hm]

end Verif.Regex
