import Verif.Lemmas.Grammar

namespace Verif.Lexer
open Verif.Patterns Verif.Cardinality

/-! ## More depth does not change a result -/

def Refines {α : Type} (x y : Out α) : Prop := x ≠ .panic → y = x

theorem Refines.rfl {α : Type} {x : Out α} : Refines x x := fun _ => Eq.refl _

theorem Refines.bind {α β : Type} {x y : Out α} {f h : α → Out β} (h1 : Refines x y) (h2 : ∀ a, Refines (f a) (h a)) :
    Refines (x >>= f) (y >>= h) := by
  cases x with
  | ok a => rw [h1 (by simp)]; exact h2 a
  | err => rw [h1 (by simp)]; exact Refines.rfl
  | panic => intro hp; simp at hp

section steps
variable {g : PathEnv} {rec rec' : GToken → Out (Element × List Element)} {stack : List Str} {parent : Str}

theorem elementToContainer_refines (h : ∀ u, Refines (rec u) (rec' u)) (n : Nat) (e : GElement) :
    Refines (elementToContainer g rec stack parent n e) (elementToContainer g rec' stack parent n e) := by
  unfold elementToContainer
  cases e.content with
  | rule r => exact Refines.rfl
  | token name specs =>
    simp only
    split
    · exact Refines.rfl
    · refine Refines.bind ?_ (fun _ => Refines.rfl)
      unfold tokenReferenceToTokenPath
      split
      · exact Refines.rfl
      · split
        · exact h _
        · exact Refines.rfl
        · exact Refines.rfl

theorem processInstructions_refines (h : ∀ u, Refines (rec u) (rec' u)) (n : Nat) (l : GLine) :
    Refines (processInstructions g rec stack parent n l) (processInstructions g rec' stack parent n l) := by
  induction l with
  | nil => exact Refines.rfl
  | cons i l ih =>
    cases i with
    | channelSwitch => exact Refines.bind ih (fun _ => Refines.rfl)
    | element e =>
      exact Refines.bind (elementToContainer_refines h n e) (fun _ => Refines.bind ih (fun _ => Refines.rfl))

theorem processLines_refines (h : ∀ u, Refines (rec u) (rec' u)) (ls : List GLine) :
    Refines (processLines g rec stack parent ls) (processLines g rec' stack parent ls) := by
  induction ls with
  | nil => exact Refines.rfl
  | cons l ls ih =>
    exact Refines.bind (Refines.bind (processInstructions_refines h _ l) (fun _ => Refines.rfl))
      (fun _ => Refines.bind ih (fun _ => Refines.rfl))

end steps

theorem toElement_refines (g : PathEnv) : ∀ (d d' : Nat), d ≤ d' → ∀ stack t,
    Refines (toElement g d stack t) (toElement g d' stack t) := by
  intro d
  induction d with
  | zero => intro d' _ stack t h; simp [toElement] at h
  | succ d ih =>
    intro d' hd stack t
    obtain ⟨k, rfl⟩ : ∃ k, d' = k + 1 := ⟨d' - 1, by omega⟩
    simp only [toElement]
    have hr : ∀ u : GToken, Refines (toElement g d (u.name :: stack) u) (toElement g k (u.name :: stack) u) :=
      fun u => ih k (by omega) _ u
    refine Refines.bind (processLines_refines hr _) ?_
    rintro ⟨must, ext⟩
    cases t.not with
    | none => exact Refines.rfl
    | some ls => exact Refines.bind (processLines_refines hr _) (fun _ => Refines.rfl)

theorem buildDependencies_refines (g : PathEnv) {d d' : Nat} (h : d ≤ d') (ts : List GToken) :
    Refines (buildDependencies g d ts) (buildDependencies g d' ts) := by
  induction ts with
  | nil => exact Refines.rfl
  | cons t ts ih => exact Refines.bind (toElement_refines g d d' h _ _) (fun _ => Refines.bind ih (fun _ => Refines.rfl))

theorem toPath_refines (g : PathEnv) {d d' : Nat} (h : d ≤ d') (t : GToken) : Refines (toPath g d t) (toPath g d' t) :=
  Refines.bind (buildDependencies_refines g h _) (fun _ => Refines.bind (toElement_refines g d d' h _ _) (fun _ => Refines.rfl))

/-! ## The depth suffices -/

theorem noPanic_bind {α β : Type} {x : Out α} {f : α → Out β} (h1 : x ≠ .panic) (h2 : ∀ a, x = .ok a → f a ≠ .panic) :
    (x >>= f) ≠ .panic := by
  cases x with
  | ok a => exact h2 a rfl
  | err => simp
  | panic => exact absurd rfl h1

theorem buildSpecifiers_noPanic (l : List GSpec) : buildSpecifiers l ≠ .panic := by
  unfold buildSpecifiers
  induction l with
  | nil => simp [mapOut]
  | cons s l ih =>
    simp only [mapOut]
    refine noPanic_bind ?_ (fun _ _ => noPanic_bind ih (fun _ _ => by simp))
    unfold specifierNow
    split <;> simp

section steps
variable {g : PathEnv} {rec : GToken → Out (Element × List Element)} {stack : List Str} {parent : Str}

theorem elementToContainer_noPanic (hf : ∀ n, g.tokens.find n ≠ .panic)
    (h : ∀ name u, name ∉ stack → g.tokens.find name = .ok u → rec u ≠ .panic) (n : Nat) (e : GElement) :
    elementToContainer g rec stack parent n e ≠ .panic := by
  unfold elementToContainer
  cases e.content with
  | rule r => simp
  | token name specs =>
    simp only
    split
    · split
      · simp
      · refine noPanic_bind (buildSpecifiers_noPanic _) (fun _ _ => ?_)
        split <;> simp
    · rename_i hm
      refine noPanic_bind ?_ (fun _ _ => noPanic_bind (buildSpecifiers_noPanic _) (fun _ _ => by simp))
      unfold tokenReferenceToTokenPath
      split
      · simp
      · cases hfn : g.tokens.find name with
        | ok u => exact h name u hm hfn
        | panic => exact absurd hfn (hf name)
        | err => simp only; split <;> simp

theorem processInstructions_noPanic (hf : ∀ n, g.tokens.find n ≠ .panic)
    (h : ∀ name u, name ∉ stack → g.tokens.find name = .ok u → rec u ≠ .panic) (n : Nat) (l : GLine) :
    processInstructions g rec stack parent n l ≠ .panic := by
  induction l with
  | nil => simp [processInstructions]
  | cons i l ih =>
    cases i with
    | channelSwitch => exact noPanic_bind ih (fun _ _ => by simp)
    | element e =>
      exact noPanic_bind (elementToContainer_noPanic hf h n e) (fun _ _ => noPanic_bind ih (fun _ _ => by simp))

theorem processLines_noPanic (hf : ∀ n, g.tokens.find n ≠ .panic)
    (h : ∀ name u, name ∉ stack → g.tokens.find name = .ok u → rec u ≠ .panic) (ls : List GLine) :
    processLines g rec stack parent ls ≠ .panic := by
  induction ls with
  | nil => simp [processLines]
  | cons l ls ih =>
    refine noPanic_bind (noPanic_bind (processInstructions_noPanic hf h _ l) ?_) (fun _ _ => noPanic_bind ih (fun _ _ => by simp))
    intro a _
    simp only
    split <;> simp

end steps

/-- The names of the grammar which are not on the stack. -/
def freeNames (g : PathEnv) (stack : List Str) : Nat := ((g.tokens.list.map GToken.name).filter (fun n => n ∉ stack)).length

theorem filter_lt {α : Type} {p q : α → Bool} {l : List α} (hpq : ∀ x, q x = true → p x = true) {a : α} (ha : a ∈ l)
    (hp : p a = true) (hq : q a = false) : (l.filter q).length < (l.filter p).length := by
  induction l with
  | nil => simp at ha
  | cons b l ih =>
    have hle : (l.filter q).length ≤ (l.filter p).length :=
      (List.monotone_filter_right l hpq).length_le
    rcases List.mem_cons.mp ha with rfl | ha
    · rw [List.filter_cons_of_pos hp, List.filter_cons_of_neg (by simp [hq])]
      simp; omega
    · have := ih ha
      by_cases h1 : q b = true
      · rw [List.filter_cons_of_pos h1, List.filter_cons_of_pos (hpq b h1)]; simpa using this
      · by_cases h2 : p b = true
        · rw [List.filter_cons_of_neg h1, List.filter_cons_of_pos h2]; simp; omega
        · rw [List.filter_cons_of_neg h1, List.filter_cons_of_neg h2]; exact this

theorem freeNames_lt {g : PathEnv} {stack : List Str} {n : Str} (h : n ∈ g.tokens.list.map GToken.name) (hn : n ∉ stack) :
    freeNames g (n :: stack) < freeNames g stack := by
  unfold freeNames
  refine filter_lt (a := n) ?_ h (by simpa using hn) (by simp)
  intro x hx
  simp only [List.mem_cons, not_or, decide_eq_true_eq, decide_not] at hx ⊢
  simp at hx ⊢
  exact hx.2

/-- What is known of a container of tokens made by its builder. -/
structure TokensOk (g : PathEnv) : Prop where
  nodup : (g.tokens.list.map GToken.name).Nodup
  find : ∀ k a, g.tokens.find k = .ok a ↔ a ∈ g.tokens.list ∧ a.name = k
  err : ∀ k, g.tokens.find k = .err ↔ ∀ a ∈ g.tokens.list, a.name ≠ k
  noPanic : ∀ k, g.tokens.find k ≠ .panic

theorem TokensOk.of {g : PathEnv} {ts : List GToken} (h : tokensNow ts = .ok g.tokens) : TokensOk g ∧ g.tokens.list = ts := by
  obtain ⟨h1, h2, h3, h4⟩ := C38_unique_find ts g.tokens h
  have hn := (C38_unique_iff ts).1.mp ⟨_, h⟩
  exact ⟨⟨by rw [h1]; exact hn.2, by rw [h1]; exact h2, by rw [h1]; exact h3, h4⟩, h1⟩

theorem toElement_noPanic {g : PathEnv} (hg : TokensOk g) : ∀ (d : Nat) (stack : List Str) (t : GToken),
    freeNames g stack < d → toElement g d stack t ≠ .panic := by
  intro d
  induction d with
  | zero => intro stack t h; omega
  | succ d ih =>
    intro stack t h
    have hr : ∀ name u, name ∉ stack → g.tokens.find name = .ok u → toElement g d (u.name :: stack) u ≠ .panic := by
      intro name u hn hf
      obtain ⟨h1, h2⟩ := (hg.find name u).mp hf
      apply ih
      have := freeNames_lt (g := g) (stack := stack) (n := u.name) (List.mem_map.mpr ⟨u, h1, rfl⟩) (by rw [h2]; exact hn)
      omega
    have he : ∀ must not, elementNow t.name must not ≠ .panic := by
      intro must not
      unfold elementNow
      split
      · simp
      · split <;> simp
    simp only [toElement]
    refine noPanic_bind (processLines_noPanic hg.noPanic hr _) ?_
    intro a _
    cases t.not with
    | none => exact noPanic_bind (he _ _) (fun _ _ => by simp)
    | some ls =>
      exact noPanic_bind (processLines_noPanic hg.noPanic hr _) (fun _ _ => noPanic_bind (he _ _) (fun _ _ => by simp))

theorem buildDependencies_noPanic {g : PathEnv} (hg : TokensOk g) {d : Nat} (hd : g.tokens.list.length < d) (ts : List GToken) :
    buildDependencies g d ts ≠ .panic := by
  have hf : freeNames g [] < d := by
    refine lt_of_le_of_lt ?_ hd
    unfold freeNames
    exact le_trans (List.length_filter_le _ _) (by simp)
  induction ts with
  | nil => simp [buildDependencies]
  | cons t ts ih => exact noPanic_bind (toElement_noPanic hg d [] t hf) (fun _ _ => noPanic_bind ih (fun _ _ => by simp))

theorem toPath_noPanic {g : PathEnv} (hg : TokensOk g) {d : Nat} (hd : g.tokens.list.length < d) (t : GToken) :
    toPath g d t ≠ .panic := by
  have hf : freeNames g [] < d := by
    refine lt_of_le_of_lt ?_ hd
    unfold freeNames
    exact le_trans (List.length_filter_le _ _) (by simp)
  exact noPanic_bind (buildDependencies_noPanic hg hd _)
    (fun _ _ => noPanic_bind (toElement_noPanic hg d [] t hf) (fun _ _ => by simp))

/-! ## Good grammars are compiled -/

theorem buildSpecifiers_ok {l : List GSpec} : (∃ sp, buildSpecifiers l = .ok sp) ↔ ∀ s ∈ l, s.content.name ≠ [] := by
  unfold buildSpecifiers
  induction l with
  | nil => simp [mapOut]
  | cons s l ih =>
    simp only [mapOut, Out.bind_eq_ok, specifierNow]
    constructor
    · rintro ⟨sp, a, h1, b, h2, h3⟩ x hx
      rcases List.mem_cons.mp hx with rfl | hx
      · intro h0; simp [h0] at h1
      · exact ih.mp ⟨b, h2⟩ x hx
    · intro h
      obtain ⟨b, hb⟩ := ih.mpr (fun x hx => h x (by simp [hx]))
      exact ⟨_, _, by simp [h s (by simp)]; rfl, b, hb, rfl⟩

section steps
variable {g : PathEnv} {rec : GToken → Out (Element × List Element)} {stack : List Str} {parent : Str}

/-- What an element needs to be compiled. -/
def ElementFits (g : PathEnv) (rec : GToken → Out (Element × List Element)) (stack : List Str) (parent : Str) (n : Nat)
    (e : GElement) : Prop :=
  ∀ name specs, e.content = .token name specs → (∀ s ∈ specs, s.content.name ≠ []) ∧
    (name ∈ stack → name ≠ [] ∧ ¬ (parent = name ∧ n ≤ 1)) ∧
    (name ∉ stack → ∃ r, tokenReferenceToTokenPath g rec name = .ok r)

theorem elementToContainer_ok {n : Nat} {e : GElement} (h : ElementFits g rec stack parent n e) :
    ∃ r, elementToContainer g rec stack parent n e = .ok r := by
  unfold elementToContainer
  cases hc : e.content with
  | rule r => exact ⟨_, rfl⟩
  | token name specs =>
    obtain ⟨h1, h2, h3⟩ := h name specs hc
    obtain ⟨sp, hsp⟩ := buildSpecifiers_ok.mpr h1
    simp only
    by_cases hm : name ∈ stack
    · obtain ⟨k1, k2⟩ := h2 hm
      simp [hm, k2, hsp, k1]
    · obtain ⟨⟨a, b⟩, hr⟩ := h3 hm
      simp [hm, hr, hsp]

theorem processInstructions_ok {n : Nat} {l : GLine} (h : ∀ e, .element e ∈ l → ElementFits g rec stack parent n e) :
    ∃ x ext, processInstructions g rec stack parent n l = .ok (x, ext) ∧ x.length = l.length := by
  induction l with
  | nil => exact ⟨[], [], rfl, rfl⟩
  | cons i l ih =>
    obtain ⟨x, ext, h1, h2⟩ := ih (fun e he => h e (by simp [he]))
    cases i with
    | channelSwitch => exact ⟨_, _, by simp [processInstructions, h1]; exact ⟨rfl, rfl⟩, by simp [h2]⟩
    | element e =>
      obtain ⟨⟨c, ext'⟩, hc⟩ := elementToContainer_ok (h e (by simp))
      exact ⟨_, _, by simp [processInstructions, h1, hc]; exact ⟨rfl, rfl⟩, by simp [h2]⟩

theorem processLines_ok {ls : List GLine} (h0 : ∀ l ∈ ls, l ≠ [])
    (h : ∀ l ∈ ls, ∀ e, .element e ∈ l → ElementFits g rec stack parent (elementsIn l) e) :
    ∃ x ext, processLines g rec stack parent ls = .ok (x, ext) ∧ x.length = ls.length := by
  induction ls with
  | nil => exact ⟨[], [], rfl, rfl⟩
  | cons l ls ih =>
    obtain ⟨xs, ext, h1, h2⟩ := ih (fun l hl => h0 l (by simp [hl])) (fun l hl => h l (by simp [hl]))
    obtain ⟨x, ext', h3, h4⟩ := processInstructions_ok (h l (by simp))
    have hx : x ≠ [] := by
      intro h; subst h
      have := h0 l (by simp)
      rw [← List.length_pos_iff] at this
      simp at h4; omega
    exact ⟨_, _, by simp [processLines, processLine, h1, h3, hx]; exact ⟨rfl, rfl⟩, by simp [h2]⟩

end steps

/-- A single element which refers to the token itself. -/
theorem elementsIn_le_one {l : GLine} {e : GElement} (he : .element e ∈ l) (h : elementsIn l ≤ 1) :
    l.filter (fun i => i ≠ .channelSwitch) = [.element e] := by
  unfold elementsIn at h
  have hm : GInstr.element e ∈ l.filter (fun i => i ≠ .channelSwitch) := by
    rw [List.mem_filter]; exact ⟨he, by simp⟩
  cases hf : l.filter (fun i => i ≠ .channelSwitch) with
  | nil => rw [hf] at hm; simp at hm
  | cons a l' =>
    rw [hf] at h hm
    cases l' with
    | nil => simp at hm; simp [hm]
    | cons b l'' => simp at h

theorem toElement_ok {g : PathEnv} (hg : TokensOk g)
    (hts : ∀ u ∈ g.tokens.list, GComplete u ∧ GDeclared g u ∧ GProgress g u) : ∀ (d : Nat) (stack : List Str) (t : GToken),
    freeNames g stack < d → (∀ n ∈ stack, g.replace n = none ∧ ∃ u ∈ g.tokens.list, u.name = n) →
    GComplete t → GDeclared g t → (t.name ∈ stack → GProgress g t) → ∃ r, toElement g d stack t = .ok r := by
  intro d
  induction d with
  | zero => intro stack t h; omega
  | succ d ih =>
    intro stack t hd hst hc hdec hp
    have hfit : ∀ l ∈ t.lines, ∀ e, .element e ∈ l →
        ElementFits g (fun u => toElement g d (u.name :: stack) u) stack t.name (elementsIn l) e := by
      intro l hl e he name specs hcont
      refine ⟨hc.2.2.2 l hl e he name specs hcont, ?_, ?_⟩
      · intro hm
        obtain ⟨k1, u, k2, k3⟩ := hst name hm
        refine ⟨k3 ▸ (hts u k2).1.1, ?_⟩
        rintro ⟨rfl, hn⟩
        exact hp hm k1 l hl e specs hcont (elementsIn_le_one he hn)
      · intro hm
        unfold tokenReferenceToTokenPath
        cases hr : g.replace name with
        | some p => exact ⟨p, rfl⟩
        | none =>
          simp only
          cases hf : g.tokens.find name with
          | panic => exact absurd hf (hg.noPanic name)
          | ok u =>
            obtain ⟨h1, h2⟩ := (hg.find name u).mp hf
            have h3 := freeNames_lt (g := g) (stack := stack) (n := u.name) (List.mem_map.mpr ⟨u, h1, rfl⟩) (by rw [h2]; exact hm)
            obtain ⟨q1, q2, q3⟩ := hts u h1
            refine ih (u.name :: stack) u (by omega) ?_ q1 q2 (fun _ => q3)
            intro n hn
            rcases List.mem_cons.mp hn with rfl | hn
            · exact ⟨h2 ▸ hr, u, h1, rfl⟩
            · exact hst n hn
          | err =>
            simp only
            rcases hdec l hl e he name specs hcont with ⟨r, h1⟩ | ⟨u, h1, h2⟩ | ⟨p, h1⟩
            · rw [hr] at h1; simp at h1
            · exact absurd h2 ((hg.err name).mp hf u h1)
            · rw [h1]; exact ⟨_, rfl⟩
    obtain ⟨must, ext, h1, h2⟩ := processLines_ok (g := g) (rec := fun u => toElement g d (u.name :: stack) u) (stack := stack)
      (parent := t.name) (ls := t.must) (fun l hl => hc.2.2.1 l (by simp [GToken.lines, hl]))
      (fun l hl => hfit l (by simp [GToken.lines, hl]))
    have hmust : must ≠ [] := by
      intro h; subst h
      have := hc.2.1
      rw [← List.length_pos_iff] at this
      simp at h2; omega
    simp only [toElement, h1, Out.bind_ok]
    cases hn : t.not with
    | none => simp [elementNow, hc.1, hmust]
    | some ls =>
      obtain ⟨not, ext', h3, h4⟩ := processLines_ok (g := g) (rec := fun u => toElement g d (u.name :: stack) u) (stack := stack)
        (parent := t.name) (ls := ls) (fun l hl => hc.2.2.1 l (by simp [GToken.lines, hn, hl]))
        (fun l hl => hfit l (by simp [GToken.lines, hn, hl]))
      simp [h3, elementNow, hc.1, hmust]

theorem buildDependencies_ok {g : PathEnv} {d : Nat} {ts : List GToken} (h : ∀ t ∈ ts, ∃ r, toElement g d [] t = .ok r) :
    ∃ l, buildDependencies g d ts = .ok l := by
  induction ts with
  | nil => exact ⟨[], rfl⟩
  | cons t ts ih =>
    obtain ⟨l, hl⟩ := ih (fun t ht => h t (by simp [ht]))
    obtain ⟨⟨e, ext⟩, he⟩ := h t (by simp)
    exact ⟨_, by simp [buildDependencies, hl, he]; rfl⟩

theorem buildDependencies_each {g : PathEnv} {d : Nat} {ts : List GToken} : ∀ {l : List Element},
    buildDependencies g d ts = .ok l → ∀ t ∈ ts, ∃ r, toElement g d [] t = .ok r := by
  induction ts with
  | nil => intro l _ t ht; simp at ht
  | cons t ts ih =>
    intro l h u hu
    simp only [buildDependencies, Out.bind_eq_ok] at h
    obtain ⟨⟨e, ext⟩, h1, l', h2, h3⟩ := h
    rcases List.mem_cons.mp hu with rfl | hu
    · exact ⟨_, h1⟩
    · exact ih h2 u hu

/-! ## What compiled tokens have -/

theorem unfLine_mem {g : PathEnv} {stack : List Str} {parent : Str} {n : Nat} {l : GLine} : ∀ {x : Line},
    UnfLine g stack parent n l x → x.length = l.length ∧ ∀ e, .element e ∈ l → ∃ c, UnfC g stack parent n e c := by
  induction l with
  | nil => intro x h; cases h; simp
  | cons i l ih =>
    intro x h
    cases h with
    | switch h => obtain ⟨a, b⟩ := ih h; exact ⟨by simp [a], by simpa using b⟩
    | elem h1 h2 =>
      obtain ⟨a, b⟩ := ih h2
      refine ⟨by simp [a], ?_⟩
      intro e he
      rcases List.mem_cons.mp he with he | he
      · simp at he; subst he; exact ⟨_, h1⟩
      · exact b e he

theorem unfLines_mem {g : PathEnv} {stack : List Str} {parent : Str} {ls : List GLine} : ∀ {xs : List Line},
    UnfLines g stack parent ls xs → xs.length = ls.length ∧ ∀ l ∈ ls, l ≠ [] ∧
      ∀ e, .element e ∈ l → ∃ c, UnfC g stack parent (elementsIn l) e c := by
  induction ls with
  | nil => intro x h; cases h; simp
  | cons l ls ih =>
    intro x h
    cases h with
    | cons h0 h1 h2 =>
      obtain ⟨a, b⟩ := ih h2
      obtain ⟨c, d⟩ := unfLine_mem h1
      refine ⟨by simp [a], ?_⟩
      intro l' hl
      rcases List.mem_cons.mp hl with rfl | hl
      · refine ⟨?_, d⟩
        rintro rfl
        simp at c; exact h0 c
      · exact b l' hl

theorem unf_lines {g : PathEnv} {stack : List Str} {t : GToken} {e : Element} (h : Unf g stack t e) :
    t.name ≠ [] ∧ t.must ≠ [] ∧ ∀ l ∈ t.lines, l ≠ [] ∧ ∀ e, .element e ∈ l → ∃ c, UnfC g stack t.name (elementsIn l) e c := by
  cases h with
  | mk h1 h2 h3 h4 h5 =>
    obtain ⟨a, b⟩ := unfLines_mem h3
    refine ⟨h1, ?_, ?_⟩
    · intro h0; rw [h0] at a; simp at a; exact h2 a
    · intro l hl
      unfold GToken.lines at hl
      rcases List.mem_append.mp hl with hl | hl
      · exact b l hl
      · cases hn : t.not with
        | none => rw [hn] at hl; simp at hl
        | some ls =>
          rw [hn] at hl
          exact (unfLines_mem (h5 ls hn)).2 l hl

theorem unf_good {g : PathEnv} (hg : TokensOk g) {stack : List Str} {t : GToken} {e : Element} (h : Unf g stack t e)
    (hst : ∀ n ∈ stack, ∃ u ∈ g.tokens.list, u.name = n) : GComplete t ∧ GDeclared g t := by
  obtain ⟨h1, h2, h3⟩ := unf_lines h
  refine ⟨⟨h1, h2, fun l hl => (h3 l hl).1, ?_⟩, ?_⟩
  · intro l hl e he name specs hc
    obtain ⟨c, hcc⟩ := (h3 l hl).2 e he
    cases hcc with
    | recur a _ _ b _ => rw [hc] at a; simp at a; obtain ⟨_, rfl⟩ := a; exact buildSpecifiers_ok.mp ⟨_, b⟩
    | replaced a _ b _ => rw [hc] at a; simp at a; obtain ⟨_, rfl⟩ := a; exact buildSpecifiers_ok.mp ⟨_, b⟩
    | declared a _ b _ _ _ => rw [hc] at a; simp at a; obtain ⟨_, rfl⟩ := a; exact buildSpecifiers_ok.mp ⟨_, b⟩
    | missing a _ b _ _ _ => rw [hc] at a; simp at a; obtain ⟨_, rfl⟩ := a; exact buildSpecifiers_ok.mp ⟨_, b⟩
    | rule a => rw [hc] at a; simp at a
  · intro l hl e he name specs hc
    obtain ⟨c, hcc⟩ := (h3 l hl).2 e he
    cases hcc with
    | recur a m _ b _ => rw [hc] at a; simp at a; obtain ⟨rfl, rfl⟩ := a; exact .inr (.inl (hst _ m))
    | replaced a _ b r => rw [hc] at a; simp at a; obtain ⟨rfl, rfl⟩ := a; exact .inl ⟨_, r⟩
    | declared a _ b _ f _ =>
      rw [hc] at a; simp at a; obtain ⟨rfl, rfl⟩ := a
      exact .inr (.inl ⟨_, (hg.find _ _).mp f⟩)
    | missing a _ b _ _ p => rw [hc] at a; simp at a; obtain ⟨rfl, rfl⟩ := a; exact .inr (.inr ⟨_, p⟩)
    | rule a => rw [hc] at a; simp at a

theorem unf_progress {g : PathEnv} (hg : TokensOk g) {t : GToken} {e : Element} (ht : t ∈ g.tokens.list) (h : Unf g [] t e) :
    GProgress g t := by
  intro hr l hl x specs hc hf
  have hx : GInstr.element x ∈ l := by
    have : GInstr.element x ∈ l.filter (fun i => i ≠ .channelSwitch) := by rw [hf]; simp
    exact (List.mem_filter.mp this).1
  have hn : elementsIn l ≤ 1 := by unfold elementsIn; rw [hf]; simp
  have hfind : g.tokens.find t.name = .ok t := (hg.find _ _).mpr ⟨ht, rfl⟩
  obtain ⟨c, hcc⟩ := ((unf_lines h).2.2 l hl).2 x hx
  cases hcc with
  | recur a m _ b _ => simp at m
  | replaced a _ b r => rw [hc] at a; simp at a; obtain ⟨rfl, rfl⟩ := a; rw [hr] at r; simp at r
  | missing a _ b _ f p =>
    rw [hc] at a; simp at a; obtain ⟨rfl, rfl⟩ := a; rw [hfind] at f; simp at f
  | rule a => rw [hc] at a; simp at a
  | declared a _ b _ f u =>
    rw [hc] at a; simp at a; obtain ⟨rfl, rfl⟩ := a
    rw [hfind] at f; simp at f; subst f
    obtain ⟨c', hcc'⟩ := ((unf_lines u).2.2 l hl).2 x hx
    cases hcc' with
    | recur a m p b _ => rw [hc] at a; simp at a; obtain ⟨rfl, rfl⟩ := a; exact p ⟨rfl, hn⟩
    | replaced a m b r => rw [hc] at a; simp at a; obtain ⟨rfl, rfl⟩ := a; simp at m
    | missing a m b _ f p => rw [hc] at a; simp at a; obtain ⟨rfl, rfl⟩ := a; simp at m
    | rule a => rw [hc] at a; simp at a
    | declared a m b _ f u => rw [hc] at a; simp at a; obtain ⟨rfl, rfl⟩ := a; simp at m

end Verif.Lexer
