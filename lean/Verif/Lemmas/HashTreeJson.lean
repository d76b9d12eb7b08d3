import Verif.Model.HashTreeJson
import Verif.Props.Cipher
import Verif.Props.HashTree

/-!
# Lemmas for hash trees and JSON
-/

namespace Verif.HashTree
open Verif

theorem skipBlanks_blank {w : Str} (h : ∀ c ∈ w, isJsonBlank c = true) (s : Str) : skipBlanks (w ++ s) = skipBlanks s := by
  induction w with
  | nil => rfl
  | cons a w ih =>
    have ha := h a (by simp)
    rw [List.cons_append]
    unfold skipBlanks at *
    rw [List.dropWhile_cons_of_pos (by simpa using ha)]
    exact ih (fun c hc => h c (by simp [hc]))

theorem skipBlanks_cons {c : UInt8} (h : isJsonBlank c = false) (s : Str) : skipBlanks (c :: s) = c :: s := by
  unfold skipBlanks
  rw [List.dropWhile_cons_of_neg (by simp [h])]

theorem skipBlanks_all {w : Str} (h : ∀ c ∈ w, isJsonBlank c = true) : skipBlanks w = [] := by
  have := skipBlanks_blank h []
  simpa [skipBlanks] using this

theorem jsonString_read (s t : Str) (h : ∀ c ∈ s, c ≠ 34 ∧ c ≠ 92 ∧ ¬ c < 32) : jsonString (s ++ 34 :: t) = .ok (s, t) := by
  induction s with
  | nil => rfl
  | cons a s ih =>
    obtain ⟨h1, h2, h3⟩ := h a (by simp)
    simp only [List.cons_append, jsonString, h1, h2, h3, or_self, if_false]
    rw [ih (fun c hc => h c (by simp [hc]))]

theorem hex_plain : ∀ c ∈ Codec.hexAlphabet, c ≠ 34 ∧ c ≠ 92 ∧ ¬ c < 32 := by decide +kernel

theorem jsonStrings_read (l : List Str) : ∀ (a : Str) (fuel : Nat) (rest : Str), l.length < fuel → (∀ s ∈ a :: l, ∀ c ∈ s, c ≠ 34 ∧ c ≠ 92 ∧ ¬ c < 32) →
    jsonStrings fuel (marshalList ((a :: l).map .text) ++ 93 :: rest) = .ok (a :: l, rest) := by
  induction l with
  | nil =>
    intro a fuel rest hf h
    obtain ⟨fuel, rfl⟩ : ∃ k, fuel = k + 1 := ⟨fuel - 1, by simp at hf; omega⟩
    have e : marshalList ([a].map .text) ++ 93 :: rest = 34 :: (a ++ 34 :: (93 :: rest)) := by
      simp [marshalList, marshal, lit]
    rw [e]
    unfold jsonStrings
    rw [skipBlanks_cons (by decide)]
    simp only [ne_eq, not_true, if_false]
    rw [jsonString_read _ _ (h a (by simp))]
    simp only
    rw [skipBlanks_cons (by decide)]
    simp
  | cons b l ih =>
    intro a fuel rest hf h
    obtain ⟨fuel, rfl⟩ : ∃ k, fuel = k + 1 := ⟨fuel - 1, by simp at hf; omega⟩
    have e : marshalList ((a :: b :: l).map .text) ++ 93 :: rest = 34 :: (a ++ 34 :: (44 :: (marshalList ((b :: l).map .text) ++ 93 :: rest))) := by
      simp [marshalList, marshal, lit]
    rw [e]
    unfold jsonStrings
    rw [skipBlanks_cons (by decide)]
    simp only [ne_eq, not_true, if_false]
    rw [jsonString_read _ _ (h a (by simp))]
    simp only
    rw [skipBlanks_cons (by decide)]
    simp only [show (44 : UInt8) ≠ 93 by decide, if_false, if_true]
    rw [ih b fuel rest (by simp at hf; omega) (fun s hs => h s (by simp [hs]))]

end Verif.HashTree
