import Verif.Model.Grammar
import Verif.Spec.Containers

namespace Verif.Lexer
open Verif.Patterns Verif.Cardinality

variable {α : Type} {name : α → Str}

theorem mapByName_spec (l : List α) : ∀ (m : GoMap α) (k : Str),
    (∃ a, mapByName name l m k = some a ∧ LastNamed name l k a) ∨
    (mapByName name l m k = m k ∧ ∀ a ∈ l, name a ≠ k) := by
  induction l with
  | nil => intro m k; right; simp [mapByName]
  | cons a l ih =>
    intro m k
    rcases ih (m.set (name a) a) k with ⟨b, h1, pre, post, h2, h3, h4⟩ | ⟨h1, h2⟩
    · exact .inl ⟨b, h1, a :: pre, post, by simp [h2], h3, h4⟩
    · by_cases hk : name a = k
      · left
        refine ⟨a, ?_, [], l, rfl, hk, h2⟩
        rw [mapByName, h1]; simp [GoMap.set, hk]
      · right
        refine ⟨?_, ?_⟩
        · rw [mapByName, h1]; simp [GoMap.set, Ne.symm hk]
        · simpa [hk] using h2

theorem mapUnique_spec (l : List α) : ∀ (m : GoMap α),
    ((l.map name).Nodup ∧ (∀ a ∈ l, m (name a) = none) ∧ mapUnique name l m = .ok (mapByName name l m)) ∨
    (¬ ((l.map name).Nodup ∧ (∀ a ∈ l, m (name a) = none)) ∧ mapUnique name l m = .err) := by
  induction l with
  | nil => intro m; left; simp [mapUnique, mapByName]
  | cons a l ih =>
    intro m
    by_cases hs : (m (name a)).isSome
    · right
      refine ⟨?_, by simp [mapUnique, hs]⟩
      rintro ⟨_, h⟩
      have := h a (by simp)
      rw [this] at hs; simp at hs
    · have hn : m (name a) = none := by simpa using hs
      have he : mapUnique name (a :: l) m = mapUnique name l (m.set (name a) a) := by simp [mapUnique, hs]
      rw [he]
      have hiff : (∀ b ∈ l, (m.set (name a) a) (name b) = none) ↔ (name a ∉ l.map name ∧ ∀ b ∈ l, m (name b) = none) := by
        constructor
        · intro h
          refine ⟨?_, ?_⟩
          · intro hmem
            obtain ⟨b, hb, e⟩ := List.mem_map.mp hmem
            have := h b hb
            simp [GoMap.set, e] at this
          · intro b hb
            have := h b hb
            simp only [GoMap.set] at this
            split at this
            · simp at this
            · exact this
        · rintro ⟨h1, h2⟩ b hb
          have : name b ≠ name a := by
            intro e; exact h1 (List.mem_map.mpr ⟨b, hb, e⟩)
          simp [GoMap.set, this, h2 b hb]
      rcases ih (m.set (name a) a) with ⟨h1, h2, h3⟩ | ⟨h1, h2⟩
      · left
        rw [hiff] at h2
        refine ⟨by rw [List.map_cons, List.nodup_cons]; exact ⟨h2.1, h1⟩, ?_, h3⟩
        intro b hb
        rcases List.mem_cons.mp hb with rfl | hb
        · exact hn
        · exact h2.2 b hb
      · right
        refine ⟨?_, h2⟩
        rintro ⟨k1, k2⟩
        rw [List.map_cons, List.nodup_cons] at k1
        exact h1 ⟨k1.2, hiff.mpr ⟨k1.1, fun b hb => k2 b (by simp [hb])⟩⟩

theorem last_unique {l : List α} {k : Str} {a b : α} (h : LastNamed name l k a) (h' : LastNamed name l k b) : a = b := by
  obtain ⟨p, q, e, h1, h2⟩ := h
  obtain ⟨p', q', e', h1', h2'⟩ := h'
  rw [e] at e'
  rcases List.append_eq_append_iff.mp e' with ⟨x, hx1, hx2⟩ | ⟨x, hx1, hx2⟩
  · cases x with
    | nil => simp at hx2; exact hx2.1
    | cons y ys =>
      simp at hx2
      exact absurd h1' (h2 b (by rw [hx2.2]; simp))
  · cases x with
    | nil => simp at hx2; exact hx2.1.symm
    | cons y ys =>
      simp at hx2
      exact absurd h1 (h2' a (by rw [hx2.2]; simp))

theorem last_nodup {l : List α} (hn : (l.map name).Nodup) {k : Str} {a : α} : LastNamed name l k a ↔ a ∈ l ∧ name a = k := by
  constructor
  · rintro ⟨p, q, rfl, h1, _⟩
    exact ⟨by simp, h1⟩
  · rintro ⟨h1, h2⟩
    obtain ⟨p, q, rfl⟩ := List.append_of_mem h1
    refine ⟨p, q, rfl, h2, ?_⟩
    intro b hb e
    rw [List.map_append, List.map_cons] at hn
    have := (List.nodup_cons.mp (List.nodup_append.mp hn).2.1).1
    exact this (List.mem_map.mpr ⟨b, hb, by rw [e, h2]⟩)

theorem find_reverse (l : List α) (k : Str) : FindsLast name l k
    (match l.reverse.find? (fun d => name d = k) with | some d => .ok d | none => .err) := by
  cases h : l.reverse.find? (fun d => name d = k) with
  | none =>
    right
    refine ⟨rfl, ?_⟩
    rw [List.find?_eq_none] at h
    intro a ha
    simpa using h a (by simpa using ha)
  | some d =>
    left
    refine ⟨d, rfl, ?_⟩
    rw [List.find?_eq_some_iff_append] at h
    obtain ⟨h1, as, bs, h2, h3⟩ := h
    refine ⟨bs.reverse, as.reverse, ?_, by simpa using h1, ?_⟩
    · have := congrArg List.reverse h2
      simpa using this
    · intro b hb
      simpa using h3 b (by simpa using hb)

theorem goFind_last (l : List α) (k : Str) : FindsLast name l k ((mapByName name l GoMap.empty).find k) := by
  rcases mapByName_spec (name := name) l GoMap.empty k with ⟨a, h1, h2⟩ | ⟨h1, h2⟩
  · exact .inl ⟨a, by simp [GoMap.find, h1], h2⟩
  · exact .inr ⟨by simp [GoMap.find, h1, GoMap.empty], h2⟩

theorem findsLast_unique {l : List α} {k : Str} {r r' : Out α} (h : FindsLast name l k r) (h' : FindsLast name l k r') :
    r = r' := by
  have aux : ∀ {a}, LastNamed name l k a → ¬ ∀ a ∈ l, name a ≠ k := by
    rintro a ⟨p, q, rfl, h1, _⟩ h
    exact h a (by simp) h1
  rcases h with ⟨a, rfl, h1⟩ | ⟨rfl, h1⟩ <;> rcases h' with ⟨b, rfl, h2⟩ | ⟨rfl, h2⟩
  · rw [last_unique h1 h2]
  · exact absurd h2 (aux h1)
  · exact absurd h1 (aux h2)
  · rfl

theorem refLoop_spec (l : List Link) : ∀ (m : GoMap (GoMap Link)) (i k : Str),
    (∃ a, (refLoop l m i).bind (fun inner => inner k) = some a ∧
      LastNamed Link.refToken (l.filter (fun x => x.includeName = i)) k a) ∨
    ((refLoop l m i).bind (fun inner => inner k) = (m i).bind (fun inner => inner k) ∧
      ∀ a ∈ l, a.includeName = i → a.refToken ≠ k) := by
  induction l with
  | nil => intro m i k; right; simp [refLoop]
  | cons a l ih =>
    intro m i k
    have step : ∃ m', refLoop (a :: l) m = refLoop l m' ∧ (∀ j, j ≠ a.includeName → m' j = m j) ∧
        ∃ inner, m' a.includeName = some inner ∧ inner a.refToken = some a ∧
          ∀ k, k ≠ a.refToken → inner k = (m a.includeName).bind (fun x => x k) := by
      cases hm : m a.includeName with
      | some inner =>
        refine ⟨m.set a.includeName (inner.set a.refToken a), ?_, ?_, inner.set a.refToken a, ?_, ?_, ?_⟩
        · simp [refLoop, hm]
        · intro j hj; simp [GoMap.set, hj]
        · simp [GoMap.set]
        · simp [GoMap.set]
        · intro k hk; simp [GoMap.set, hk]
      | none =>
        refine ⟨(m.set a.includeName GoMap.empty).set a.includeName (GoMap.empty.set a.refToken a), ?_, ?_,
          GoMap.empty.set a.refToken a, ?_, ?_, ?_⟩
        · simp only [refLoop, hm]
          simp [GoMap.set]
        · intro j hj; simp [GoMap.set, hj]
        · simp [GoMap.set]
        · simp [GoMap.set]
        · intro k hk; simp [GoMap.set, GoMap.empty, hk]
    obtain ⟨m', e, h1, inner, h2, h3, h4⟩ := step
    rw [e]
    rcases ih m' i k with ⟨b, k1, pre, post, k2, k3, k4⟩ | ⟨k1, k2⟩
    · left
      by_cases hi : a.includeName = i
      · exact ⟨b, k1, a :: pre, post, by simp [hi, k2], k3, k4⟩
      · exact ⟨b, k1, pre, post, by simp [hi, k2], k3, k4⟩
    · by_cases hi : a.includeName = i
      · subst hi
        by_cases hk : a.refToken = k
        · subst hk
          left
          refine ⟨a, by rw [k1, h2]; simpa using h3, [], l.filter (fun x => x.includeName = a.includeName), by simp, rfl, ?_⟩
          intro b hb
          simp at hb
          exact k2 b hb.1 hb.2
        · right
          refine ⟨by rw [k1, h2]; simpa using h4 k (Ne.symm hk), ?_⟩
          intro b hb hbi
          rcases List.mem_cons.mp hb with rfl | hb
          · exact hk
          · exact k2 b hb hbi
      · right
        refine ⟨by rw [k1, h1 i (Ne.symm hi)], ?_⟩
        intro b hb hbi
        rcases List.mem_cons.mp hb with rfl | hb
        · exact absurd hbi hi
        · exact k2 b hb hbi

end Verif.Lexer
