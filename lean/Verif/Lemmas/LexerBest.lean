import Verif.Spec.LexerBest
import Verif.Lemmas.LexerSound

namespace Verif.Lexer
open Verif.Patterns Verif.Cardinality

structure BestInv (ms : List (Option (List BlockMatch))) (b : Best) : Prop where
  biggest : ∀ j l', GoodLine ms j l' → (blocksDiscoveries l').length ≤ b.biggest
  valid : ∀ x, b.valid = some x → ∃ i l, x = .mk i l ∧ GoodLine ms i l ∧ b.biggest = (blocksDiscoveries l).length ∧
    ∀ j l', GoodLine ms j l' → j < i → (blocksDiscoveries l').length < (blocksDiscoveries l).length
  noValid : b.valid = none → b.biggest = 0
  invalid : ∀ x, b.invalid = some x → ∃ i l, x = .mk i l ∧ BadLine ms i l ∧ ∀ j l', BadLine ms j l' → j ≤ i
  noInvalid : b.invalid = none → ∀ j l', ¬ BadLine ms j l'

theorem good_snoc {ms : List (Option (List BlockMatch))} {m : Option (List BlockMatch)} {j l} :
    GoodLine (ms ++ [m]) j l ↔ GoodLine ms j l ∨ (j = ms.length ∧ m = some l ∧ blocksValid l = true ∧ blocksDiscoveries l ≠ []) := by
  unfold GoodLine
  rcases lt_trichotomy j ms.length with h | h | h
  · simp [List.getElem?_append_left h, h.ne]
  · subst h; simp
  · have : (ms ++ [m])[j]? = none := by simp; omega
    have h2 : ms[j]? = none := by simp; omega
    simp [this, h2, h.ne']

theorem bad_snoc {ms : List (Option (List BlockMatch))} {m : Option (List BlockMatch)} {j l} :
    BadLine (ms ++ [m]) j l ↔ BadLine ms j l ∨ (j = ms.length ∧ m = some l ∧ blocksValid l = false) := by
  unfold BadLine
  rcases lt_trichotomy j ms.length with h | h | h
  · simp [List.getElem?_append_left h, h.ne]
  · subst h; simp
  · have : (ms ++ [m])[j]? = none := by simp; omega
    have h2 : ms[j]? = none := by simp; omega
    simp [this, h2, h.ne']

theorem good_lt {ms : List (Option (List BlockMatch))} {j l} (h : GoodLine ms j l) : j < ms.length := by
  by_contra hc
  have : ms[j]? = none := by simpa using hc
  simp [GoodLine, this] at h

theorem bad_lt {ms : List (Option (List BlockMatch))} {j l} (h : BadLine ms j l) : j < ms.length := by
  by_contra hc
  have : ms[j]? = none := by simpa using hc
  simp [BadLine, this] at h

theorem BestInv.none {ms b} (h : BestInv ms b) : BestInv (ms ++ [none]) b := by
  obtain ⟨h1, h2, h3, h4, h5⟩ := h
  refine ⟨?_, ?_, h3, ?_, ?_⟩
  · intro j l' hj; exact h1 j l' (by simpa [good_snoc] using hj)
  · intro x hx
    obtain ⟨i, l, rfl, hg, hb, hs⟩ := h2 x hx
    exact ⟨i, l, rfl, by simp [good_snoc, hg], hb, fun j l' hj => hs j l' (by simpa [good_snoc] using hj)⟩
  · intro x hx
    obtain ⟨i, l, rfl, hg, hb⟩ := h4 x hx
    exact ⟨i, l, rfl, by simp [bad_snoc, hg], fun j l' hj => hb j l' (by simpa [bad_snoc] using hj)⟩
  · intro hx j l' hj; exact h5 hx j l' (by simpa [bad_snoc] using hj)

theorem BestInv.step {ms b l} (hl : l ≠ []) (h : BestInv ms b) : BestInv (ms ++ [some l]) (b.step ms.length l) := by
  obtain ⟨h1, h2, h3, h4, h5⟩ := h
  unfold Best.step
  cases hv : blocksValid l with
  | false =>
    have hlen : l.length > 0 := List.length_pos_iff.mpr hl
    have hg : ∀ j l', GoodLine (ms ++ [some l]) j l' ↔ GoodLine ms j l' := by
      intro j l'
      rw [good_snoc]
      constructor
      · rintro (h | ⟨_, h, h', _⟩)
        · exact h
        · simp at h; subst h; simp [hv] at h'
      · exact .inl
    simp only [Bool.not_false, if_true, hlen]
    refine ⟨fun j l' hj => h1 j l' ((hg _ _).mp hj), ?_, h3, ?_, by simp⟩
    · intro x hx
      obtain ⟨i, l0, rfl, hg0, hb, hs⟩ := h2 x hx
      exact ⟨i, l0, rfl, (hg _ _).mpr hg0, hb, fun j l' hj => hs j l' ((hg _ _).mp hj)⟩
    · intro x hx
      simp at hx; subst hx
      refine ⟨_, _, rfl, bad_snoc.mpr (.inr ⟨rfl, rfl, hv⟩), ?_⟩
      intro j l' hj
      have := bad_lt hj
      simp at this; omega
  | true =>
    have hb : ∀ j l', BadLine (ms ++ [some l]) j l' ↔ BadLine ms j l' := by
      intro j l'
      rw [bad_snoc]
      constructor
      · rintro (h | ⟨_, h, h'⟩)
        · exact h
        · simp at h; subst h; simp [hv] at h'
      · exact .inl
    have hd : (LineMatch.mk ms.length l).discoveries = blocksDiscoveries l := by simp [LineMatch.discoveries, hv]
    simp only [Bool.not_true, hd]
    by_cases hgt : (blocksDiscoveries l).length > b.biggest
    · simp only [hgt, if_true]
      have hg : GoodLine (ms ++ [some l]) ms.length l :=
        good_snoc.mpr (.inr ⟨rfl, rfl, hv, by intro hc; simp [hc] at hgt⟩)
      refine ⟨?_, ?_, by simp, ?_, ?_⟩
      · intro j l' hj
        rcases good_snoc.mp hj with hj | ⟨_, hj, _⟩
        · have := h1 j l' hj; simp; omega
        · simp at hj; subst hj; simp
      · intro x hx
        simp at hx; subst hx
        refine ⟨_, _, rfl, hg, by simp, ?_⟩
        intro j l' hj hlt
        rcases good_snoc.mp hj with hj | ⟨hj, _⟩
        · have := h1 j l' hj; omega
        · omega
      · intro x hx
        obtain ⟨i, l0, rfl, hg0, hb0⟩ := h4 x (by simpa using hx)
        exact ⟨i, l0, rfl, (hb _ _).mpr hg0, fun j l' hj => hb0 j l' ((hb _ _).mp hj)⟩
      · intro hx j l' hj
        exact h5 (by simpa using hx) j l' ((hb _ _).mp hj)
    · simp only [hgt, if_false]
      refine ⟨?_, ?_, h3, ?_, ?_⟩
      · intro j l' hj
        rcases good_snoc.mp hj with hj | ⟨_, hj, _⟩
        · exact h1 j l' hj
        · simp at hj; subst hj; simpa using hgt
      · intro x hx
        obtain ⟨i, l0, rfl, hg0, hb0, hs⟩ := h2 x hx
        refine ⟨i, l0, rfl, good_snoc.mpr (.inl hg0), hb0, ?_⟩
        intro j l' hj hlt
        rcases good_snoc.mp hj with hj | ⟨hj, _⟩
        · exact hs j l' hj hlt
        · have := good_lt hg0; omega
      · intro x hx
        obtain ⟨i, l0, rfl, hg0, hb0⟩ := h4 x (by simpa using hx)
        exact ⟨i, l0, rfl, (hb _ _).mpr hg0, fun j l' hj => hb0 j l' ((hb _ _).mp hj)⟩
      · intro hx j l' hj
        exact h5 (by simpa using hx) j l' ((hb _ _).mp hj)

theorem lineLoop_ne {f : PContainer → Str → Bool → Bool → M (Option BlockMatch)} (is : List Instruction) :
    ∀ a b rem acc s l s', lineLoop f is a b rem acc s = some (.ok (some l), s') → l ≠ [] := by
  induction is with
  | nil =>
    intro a b rem acc s l s' h
    simp only [lineLoop, M.pure_run, Option.some.injEq, Prod.mk.injEq, Out.ok.injEq] at h
    obtain ⟨h, _⟩ := h
    split at h
    · simp at h
    · rename_i hn
      simp at h; subst h
      simpa using hn
  | cons i is ih =>
    intro a b rem acc s l s' h
    cases i with
    | channelSwitch => exact ih _ _ _ _ _ _ _ h
    | container c =>
      obtain ⟨m, s1, hm, h⟩ := M.bind_ok.mp h
      cases m with
      | none =>
        simp only [M.pure_run, Option.some.injEq, Prod.mk.injEq, Out.ok.injEq] at h
        obtain ⟨h, _⟩ := h
        split at h
        · simp at h
        · rename_i hn
          simp at h; subst h
          simpa using hn
      | some x =>
        dsimp only at h
        split at h
        · simp at h; obtain ⟨rfl, _⟩ := h; simp
        · split at h
          · simp at h
          · exact ih _ _ _ _ _ _ _ h

theorem bestLoop_inv {env fuel deps script chans} (ls : List Line) : ∀ ms b s b' s', BestInv ms b →
    bestLoop (fun l => lineToMatches env fuel l deps script chans) ls ms.length b s = some (.ok b', s') →
    ∃ ms', LineRuns env fuel deps script chans ls s ms' s' ∧ BestInv (ms ++ ms') b' := by
  induction ls with
  | nil =>
    intro ms b s b' s' hb h
    simp [bestLoop] at h
    obtain ⟨rfl, rfl⟩ := h
    exact ⟨[], .nil _, by simpa using hb⟩
  | cons l ls ih =>
    intro ms b s b' s' hb h
    obtain ⟨m, s1, hm, h⟩ := M.bind_ok.mp h
    cases m with
    | none =>
      obtain ⟨ms', h1, h2⟩ := ih (ms ++ [none]) b s1 b' s' hb.none (by simpa using h)
      exact ⟨none :: ms', .cons hm h1, by simpa using h2⟩
    | some m =>
      have hne : m ≠ [] := by
        cases fuel with
        | zero => simp [lineToMatches] at hm
        | succ n => exact lineLoop_ne _ _ _ _ _ _ _ _ (by simpa only [lineToMatches] using hm)
      obtain ⟨ms', h1, h2⟩ := ih (ms ++ [some m]) _ s1 b' s' (hb.step hne) (by simpa using h)
      exact ⟨some m :: ms', .cons hm h1, by simpa using h2⟩

theorem BestInv.result {ms b} (h : BestInv ms b) : BestSpec ms b.result := by
  unfold Best.result
  cases hv : b.valid with
  | some x =>
    obtain ⟨i, l, rfl, hg, hb, hs⟩ := h.valid x hv
    exact .good hg (fun j l' hj => hb ▸ h.biggest j l' hj) hs
  | none =>
    have h0 := h.noValid hv
    have hn : ∀ j l', ¬ GoodLine ms j l' := by
      intro j l' hj
      have := h.biggest j l' hj
      rw [h0] at this
      exact hj.2.2 (by simpa using this)
    cases hi : b.invalid with
    | none => exact .nothing hn (h.noInvalid hi)
    | some x =>
      obtain ⟨i, l, rfl, hb, hs⟩ := h.invalid x hi
      exact .bad hn hb hs

theorem BestSpec_unique {ms : List (Option (List BlockMatch))} {r r' : Option LineMatch} (h : BestSpec ms r)
    (h' : BestSpec ms r') : r = r' := by
  have good : ∀ {i j l l'}, GoodLine ms i l → GoodLine ms j l' → i = j → l = l' := by
    rintro i j l l' ⟨h1, _⟩ ⟨h2, _⟩ rfl
    simpa using h1.symm.trans h2
  have bad : ∀ {i j l l'}, BadLine ms i l → BadLine ms j l' → i = j → l = l' := by
    rintro i j l l' ⟨h1, _⟩ ⟨h2, _⟩ rfl
    simpa using h1.symm.trans h2
  cases h with
  | good a b c =>
    cases h' with
    | good a' b' c' =>
      rename_i i l i' l'
      have e : i = i' := by
        rcases lt_trichotomy i i' with hlt | he | hlt
        · have := c' _ _ a hlt; have := b _ _ a'; omega
        · exact he
        · have := c _ _ a' hlt; have := b' _ _ a; omega
      subst e
      rw [good a a' rfl]
    | bad a' _ _ => exact absurd a (a' _ _)
    | nothing a' _ => exact absurd a (a' _ _)
  | bad a b c =>
    cases h' with
    | good a' _ _ => exact absurd a' (a _ _)
    | bad a' b' c' =>
      have e := le_antisymm (c' _ _ b) (c _ _ b')
      subst e
      rw [bad b b' rfl]
    | nothing _ b' => exact absurd b (b' _ _)
  | nothing a b =>
    cases h' with
    | good a' _ _ => exact absurd a' (a _ _)
    | bad _ b' _ => exact absurd b' (b _ _)
    | nothing => rfl

end Verif.Lexer
