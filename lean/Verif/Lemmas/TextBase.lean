import Verif.Lemmas.Regex
import Verif.Lemmas.Strings
import Verif.Model.Text
import Verif.Spec.TextTokens
import Verif.Props.Cardinality

/-! Helper lemmas about the text adapters: captured groups, character classes, blanks. -/

namespace Verif.Regex

/-- The text of a group. -/
def look (caps : List (Nat × Str)) (n : Nat) : Str := ((caps.find? (fun x => x.1 = n)).map Prod.snd).getD []
theorem group_eq (m : M) (n : Nat) : m.group n = look m.caps n := rfl
@[simp] theorem look_nil (n) : look [] n = [] := rfl
theorem look_cons (k t l n) : look ((k, t) :: l) n = if k = n then t else look l n := by
  unfold look
  by_cases h : k = n <;> simp [h]

/-- The numbers of the groups of a pattern. -/
def Re.groups : Re → List Nat
  | .eps => []
  | .chr _ => []
  | .star _ => []
  | .lazy _ => []
  | .seq a b => a.groups ++ b.groups
  | .opt a => a.groups
  | .grp n a => n :: a.groups

theorem caps_groups {r : Re} {s : Str} {m : M} (h : m ∈ run r s) : ∀ x ∈ m.caps, x.1 ∈ r.groups := by
  induction r generalizing s m with
  | eps => simp [run] at h; simp [h]
  | chr p =>
    cases s with
    | nil => simp [run] at h
    | cons c s =>
      simp only [run] at h
      split at h
      · simp at h; simp [h]
      · simp at h
  | star p => simp [(mem_starRun.1 h).1]
  | lazy p => simp [(mem_lazyRun.1 h).1]
  | seq a b iha ihb =>
    simp only [run, List.mem_flatMap, List.mem_map] at h
    obtain ⟨x, hx, y, hy, rfl⟩ := h
    intro z hz
    simp only [List.mem_append, Re.groups] at hz ⊢
    rcases hz with hz | hz
    · exact .inl (iha hx z hz)
    · exact .inr (ihb hy z hz)
  | opt a ih =>
    simp only [run, List.mem_append, List.mem_singleton] at h
    rcases h with h | rfl
    · exact ih h
    · simp
  | grp n a ih =>
    simp only [run, List.mem_map] at h
    obtain ⟨x, hx, rfl⟩ := h
    intro z hz
    simp only [List.mem_cons, Re.groups] at hz ⊢
    rcases hz with rfl | hz
    · exact .inl rfl
    · exact .inr (ih hx z hz)

theorem look_none {caps : List (Nat × Str)} {n : Nat} (h : ∀ x ∈ caps, x.1 ≠ n) : look caps n = [] := by
  unfold look
  rw [List.find?_eq_none.2 (by intro x hx; simpa using h x hx)]
  rfl

theorem look_out {r : Re} {s : Str} {m : M} {n : Nat} (h : m ∈ run r s) (hn : n ∉ r.groups) : look m.caps n = [] :=
  look_none (fun x hx he => hn (he ▸ caps_groups h x hx))

theorem look_append_right {a b : List (Nat × Str)} {n : Nat} (h : ∀ x ∈ a, x.1 ≠ n) : look (a ++ b) n = look b n := by
  unfold look
  rw [List.find?_append, List.find?_eq_none.2 (by intro x hx; simpa using h x hx)]
  rfl

theorem look_append_left {a b : List (Nat × Str)} {n : Nat} (h : ∀ x ∈ b, x.1 ≠ n) : look (a ++ b) n = look a n := by
  unfold look
  rw [List.find?_append]
  cases ha : a.find? (fun x => decide (x.1 = n)) with
  | none => rw [List.find?_eq_none.2 (by intro x hx; simpa using h x hx)]; rfl
  | some x => rfl

theorem f_opt_seq {a b s} (ha : F a s) (hb : F b s) : F (.seq (.opt a) b) s :=
  f_seq (fun m hm => by
    simp only [run, List.mem_append, List.mem_singleton] at hm
    rcases hm with hm | rfl
    · rw [show run a s = [] from ha] at hm; simp at hm
    · exact hb)

theorem f_star_stop {p : Cls} {b s} (hs : Stops p s) (hb : F b s) : F (.seq (.star p) b) s :=
  f_star_seq (fun u v h1 h2 => by
    cases u with
    | nil => simp at h1; rw [h1]; exact hb
    | cons c u =>
      subst h1
      have h3 := h2 c List.mem_cons_self
      simp [h3] at hs)

end Verif.Regex

namespace Verif.Text
open Verif.Regex Verif.Patterns Verif.Cardinality Verif.Lexer

/-! ## Classes -/

theorem ws_iff {c : UInt8} : ws c = true ↔ c = 32 ∨ c = 9 ∨ c = 13 ∨ c = 10 := by simp [ws, oneOf]
theorem blank_ws {w : Str} (h : Blank w) : ∀ c ∈ w, ws c = true := fun c hc => ws_iff.2 (h c hc)
theorem lower_iff {c : UInt8} : lower c = true ↔ LowerLetter c := by
  simp [lower, range, LowerLetter, UInt8.le_iff_toNat_le]
theorem upper_iff {c : UInt8} : upper c = true ↔ UpperLetter c := by
  simp [upper, range, UpperLetter, UInt8.le_iff_toNat_le]
theorem letter_iff {c : UInt8} : letter c = true ↔ LowerLetter c ∨ UpperLetter c := by
  simp [letter, Cls.or, lower_iff, upper_iff]
theorem upperU_iff {c : UInt8} : upperU c = true ↔ UpperLetter c ∨ c = 95 := by
  simp [upperU, Cls.or, upper_iff, oneOf]
theorem lowerU_iff {c : UInt8} : lowerU c = true ↔ LowerLetter c ∨ c = 95 := by
  simp [lowerU, Cls.or, lower_iff, oneOf]
theorem noneOf_iff {l : Str} {c : UInt8} : noneOf l c = true ↔ c ∉ l := by simp [noneOf]

/-- Characters which are no letters, underscores, blanks or special. -/
theorem not_blank {c : UInt8} (h : LowerLetter c ∨ UpperLetter c ∨ c = 95 ∨ c = hashC) : ws c = false := by
  rw [Bool.eq_false_iff]
  intro h1
  rw [ws_iff] at h1
  rcases h1 with rfl | rfl | rfl | rfl <;> simp [LowerLetter, UpperLetter, hashC] at h

/-! ## Trimming blanks -/

theorem trimLeft_blank {n : Nat} {w t : Str} (hw : Blank w) (hn : w.length ≤ n) (seqs : List Str)
    (hseq : ∀ c, c = 32 ∨ c = 9 ∨ c = 13 ∨ c = 10 → [c] ∈ seqs) (hone : ∀ q ∈ seqs, ∀ c ∈ q.head?, (c = 32 ∨ c = 9 ∨ c = 13 ∨ c = 10) → q = [c])
    (hne : ∀ q ∈ seqs, q ≠ []) :
    trimLeft seqs n (w ++ t) = trimLeft seqs (n - w.length) t := by
  induction w generalizing n with
  | nil => simp
  | cons c w ih =>
    cases n with
    | zero => simp at hn
    | succ n =>
      have hc := hw c List.mem_cons_self
      have hfind : seqs.find? (fun q => q.isPrefixOf (c :: (w ++ t))) = some [c] := by
        cases hf : seqs.find? (fun q => q.isPrefixOf (c :: (w ++ t))) with
        | none =>
          rw [List.find?_eq_none] at hf
          have := hf [c] (hseq c hc)
          simp at this
        | some q =>
          have h1 := List.mem_of_find?_eq_some hf
          have h2 := List.find?_some hf
          cases q with
          | nil => exact absurd rfl (hne _ h1)
          | cons x q =>
            have hx : x = c := by
              obtain ⟨u, hu⟩ := List.isPrefixOf_iff_prefix.1 h2
              simp only [List.cons_append, List.cons.injEq] at hu; exact hu.1
            subst hx
            exact congrArg some (hone _ h1 x (by simp) hc)
      rw [List.cons_append, trimLeft, hfind]
      simp only [List.length_singleton, List.drop_succ_cons, List.drop_zero]
      rw [ih (fun c hc => hw c (List.mem_cons_of_mem _ hc)) (by simp at hn; omega)]
      simp

theorem trimSpace_pad {a t b : Str} (ha : Blank a) (hb : Blank b) (h1 : ∀ c ∈ t.head?, Visible c) (h2 : ∀ c ∈ t.getLast?, Visible c) :
    trimSpace (a ++ t ++ b) = t := by
  have hid := trimSpace_id h1 h2
  by_cases ht : t = []
  · subst ht
    simp only [List.append_nil]
    unfold trimSpace
    have : trimLeft spaceSeqs (a ++ b).length (a ++ b) = [] := by
      have h : Blank (a ++ b) := by intro c hc; rw [List.mem_append] at hc; exact hc.elim (ha c) (hb c)
      have := trimLeft_blank (t := []) h (Nat.le_refl _) spaceSeqs (by rintro c (rfl | rfl | rfl | rfl) <;> decide) (by decide) (by decide)
      simp only [List.append_nil] at this
      rw [this]; simp [trimLeft]
    simp only [this]; rfl
  · unfold trimSpace
    have e1 : trimLeft spaceSeqs (a ++ t ++ b).length (a ++ t ++ b) = t ++ b := by
      rw [List.append_assoc, trimLeft_blank ha (by simp) spaceSeqs (by rintro c (rfl | rfl | rfl | rfl) <;> decide) (by decide) (by decide)]
      apply trimLeft_id
      intro q hq hp
      obtain ⟨x, hx, _, _, hab, _⟩ := spaceSeqs_visible q hq
      cases t with
      | nil => exact ht rfl
      | cons c t =>
        cases q with
        | nil => simp at hx
        | cons y q =>
          have : y = c := by
            obtain ⟨u, hu⟩ := hp
            simp only [List.cons_append, List.cons.injEq] at hu; exact hu.1
          simp at hx; subst hx; subst this
          have := h1 y (by simp)
          unfold Visible at this; omega
    simp only [e1]
    have e2 : trimLeft (spaceSeqs.map List.reverse) (t ++ b).length (t ++ b).reverse = t.reverse := by
      rw [List.reverse_append, trimLeft_blank (w := b.reverse) (fun c hc => hb c (List.mem_reverse.1 hc)) (by simp) _
        (by rintro c (rfl | rfl | rfl | rfl) <;> decide) (by decide) (by decide)]
      apply trimLeft_id
      intro q hq hp
      simp only [List.mem_map] at hq
      obtain ⟨p, hp', rfl⟩ := hq
      obtain ⟨_, _, y, hy, _, hab⟩ := spaceSeqs_visible p hp'
      rw [List.reverse_prefix] at hp
      obtain ⟨u, hu⟩ := hp
      have : y ∈ t.getLast? := by
        rw [← hu, List.getLast?_append]; simp at hy; simp [hy]
      have := h2 y this
      unfold Visible at this; omega
    rw [e2, List.reverse_reverse]

end Verif.Text
