import Verif.Model.Text
import Verif.Lemmas.BaseTextData

/-!
# Texts without the keywords of references
-/

set_option maxRecDepth 100000

namespace Verif.Text
open Verif.Regex Verif.Patterns Verif.Lexer

theorem lazyRun_rest {p : Cls} : ∀ {s : Str} {m : M}, m ∈ lazyRun p s → s = m.text ++ m.rest
  | [], m, h => by simp [lazyRun] at h; subst h; rfl
  | c :: s, m, h => by
    unfold lazyRun at h
    split at h
    · rcases List.mem_cons.mp h with rfl | h
      · rfl
      · obtain ⟨k, hk, rfl⟩ := List.mem_map.mp h
        have := lazyRun_rest hk
        simp [← this]
    · simp at h; subst h; rfl

theorem text_rest : ∀ {w s : Str} {m : M}, m ∈ run (Re.text w) s → s = w ++ m.rest
  | [], s, m, h => by simp [Re.text, run] at h; subst h; rfl
  | c :: w, s, m, h => by
    simp only [Re.text, run, List.mem_flatMap, List.mem_map] at h
    obtain ⟨k, hk, k', hk', rfl⟩ := h
    cases s with
    | nil => simp at hk
    | cons d s =>
      simp only at hk
      split at hk
      · rename_i hd
        simp at hk hd
        subst hk
        have := text_rest hk'
        simp [hd, ← this]
      · simp at hk

theorem keyword_infix {w : Str} {l : List Re} {s : Str} {m : M} (h : m ∈ run (.all (.lazy ws :: .text w :: l)) s) : w <:+: s := by
  simp only [Re.all, run, List.mem_flatMap, List.mem_map] at h
  obtain ⟨k, hk, k', ⟨j, hj, j', hj', rfl⟩, rfl⟩ := h
  have h1 := lazyRun_rest hk
  have h2 := text_rest hj
  rw [h1, h2]
  exact ⟨k.text, j.rest, by simp⟩

theorem find_none {r : Re} : ∀ {s : Str}, (∀ t, t <:+ s → run r t = []) → find r s = none
  | [], h => by simp [find, matchAt, h [] (List.suffix_refl _)]
  | c :: s, h => by
    simp [find, matchAt, h (c :: s) (List.suffix_refl _), find_none (s := s) (fun t ht => h t (ht.trans (List.suffix_cons _ _)))]

theorem findAll_no_keyword {w : Str} {l : List Re} {s : Str} (h : ¬ w <:+: s) : findAll (.all (.lazy ws :: .text w :: l)) s = [] := by
  have : find (.all (.lazy ws :: .text w :: l)) s = none := by
    refine find_none ?_
    intro t ht
    rw [List.eq_nil_iff_forall_not_mem]
    intro m hm
    exact h ((keyword_infix hm).trans ht.isInfix)
  simp [findAll, findAllLoop, this]

/-- Without the three keywords there are no references. -/
theorem no_references {s : Str} (h1 : ¬ lit "include" <:+: s) (h2 : ¬ lit "reference" <:+: s) (h3 : ¬ lit "replace" <:+: s) :
    toReferences s = .ok ⟨none, none⟩ := by
  have e1 : findAll reInclude s = [] := findAll_no_keyword h1
  have e2 : findAll reReference s = [] := findAll_no_keyword h2
  have e3 : findAll reReplace s = [] := findAll_no_keyword h3
  simp [toReferences, includes, refLinks, replLinks, e1, e2, e3, includeLoop, mapOut]

/-- Whether a text occurs in another one. -/
def occursIn (w : Str) : Str → Bool
  | [] => w.isEmpty
  | c :: s => w.isPrefixOf (c :: s) || occursIn w s

theorem occursIn_iff {w : Str} : ∀ {s : Str}, w <:+: s ↔ occursIn w s = true
  | [] => by simp [occursIn]
  | c :: s => by
    rw [List.infix_cons_iff, occursIn, Bool.or_eq_true, occursIn_iff, List.isPrefixOf_iff_prefix]

end Verif.Text

namespace Verif.Base
open Verif.Text Verif.Lexer Verif.Patterns

theorem base_no_references : toReferences tokensAlex = .ok ⟨none, none⟩ := by
  have e : tokensAlex = tokensPiecesB.flatten ++ tokensEnd := by rw [tokensAlex, tokensPieces_eq]
  have k1 : lit "include" = [105, 110, 99, 108, 117, 100, 101] := by decide
  have k2 : lit "reference" = [114, 101, 102, 101, 114, 101, 110, 99, 101] := by decide
  have k3 : lit "replace" = [114, 101, 112, 108, 97, 99, 101] := by decide
  have k4 : tokensEnd = [10] := by decide
  apply no_references
  · rw [occursIn_iff, e, k1, k4]; decide +kernel
  · rw [occursIn_iff, e, k2, k4]; decide +kernel
  · rw [occursIn_iff, e, k3, k4]; decide +kernel

end Verif.Base
