import Verif.Model.Grammar

/-!
# More stack gives the same matcher
-/

namespace Verif.Lexer

section
variable (g : PathEnv) {rec rec' : GToken → Out (Element × List Element)} (hrec : ∀ t x, rec t = .ok x → rec' t = .ok x)
include hrec

theorem tokenReference_mono {name : Str} {x : Element × List Element} (h : tokenReferenceToTokenPath g rec name = .ok x) :
    tokenReferenceToTokenPath g rec' name = .ok x := by
  unfold tokenReferenceToTokenPath at h ⊢
  repeat' split at h
  all_goals simp_all only [Out.ok.injEq]
  all_goals first | exact h | exact hrec _ _ h | cases h

theorem elementToContainer_mono {stack : List Str} {parent : Str} {amount : Nat} {e : GElement} {x : PContainer × List Element}
    (h : elementToContainer g rec stack parent amount e = .ok x) : elementToContainer g rec' stack parent amount e = .ok x := by
  unfold elementToContainer at h ⊢
  dsimp only at h ⊢
  cases hc : e.content with
  | rule r => rw [hc] at h; exact h
  | token name specs =>
    rw [hc] at h
    dsimp only at h ⊢
    split at h
    · rename_i hm; simp only [hm, if_true]; exact h
    · rename_i hm
      simp only [hm, if_false]
      simp only [Out.bind_eq_ok] at h
      obtain ⟨y, h1, h2⟩ := h
      rw [tokenReference_mono g hrec h1]
      simpa only [Out.bind_ok, Out.bind_eq_ok] using h2

theorem processInstructions_mono {stack : List Str} {parent : Str} {amount : Nat} : ∀ {l : GLine} {x : Line × List Element},
    processInstructions g rec stack parent amount l = .ok x → processInstructions g rec' stack parent amount l = .ok x
  | [], _, h => h
  | .channelSwitch :: is, x, h => by
    simp only [processInstructions, Out.bind_eq_ok] at h ⊢
    obtain ⟨y, h1, h2⟩ := h
    exact ⟨y, processInstructions_mono h1, h2⟩
  | .element e :: is, x, h => by
    simp only [processInstructions, Out.bind_eq_ok] at h ⊢
    obtain ⟨y, h1, z, h2, h3⟩ := h
    exact ⟨y, elementToContainer_mono g hrec h1, z, processInstructions_mono h2, h3⟩

theorem processLine_mono {stack : List Str} {parent : Str} {l : GLine} {x : Line × List Element} (h : processLine g rec stack parent l = .ok x) :
    processLine g rec' stack parent l = .ok x := by
  simp only [processLine, Out.bind_eq_ok] at h ⊢
  obtain ⟨y, h1, h2⟩ := h
  exact ⟨y, processInstructions_mono g hrec h1, h2⟩

theorem processLines_mono {stack : List Str} {parent : Str} : ∀ {ls : List GLine} {x : List Line × List Element},
    processLines g rec stack parent ls = .ok x → processLines g rec' stack parent ls = .ok x
  | [], _, h => h
  | l :: ls, x, h => by
    simp only [processLines, Out.bind_eq_ok] at h ⊢
    obtain ⟨y, h1, z, h2, h3⟩ := h
    exact ⟨y, processLine_mono g hrec h1, z, processLines_mono h2, h3⟩
end

theorem toElement_mono (g : PathEnv) : ∀ {d d' : Nat} (_ : d ≤ d') {stack : List Str} {t : GToken} {x : Element × List Element},
    toElement g d stack t = .ok x → toElement g d' stack t = .ok x
  | 0, _, _, _, _, _, h => by cases h
  | d + 1, 0, hd, _, _, _, h => by omega
  | d + 1, d' + 1, hd, stack, t, x, h => by
    have ih : ∀ (u : GToken) y, toElement g d (u.name :: stack) u = .ok y → toElement g d' (u.name :: stack) u = .ok y :=
      fun u y => toElement_mono g (by omega)
    simp only [toElement, Out.bind_eq_ok] at h ⊢
    obtain ⟨y, h1, h2⟩ := h
    refine ⟨y, processLines_mono g ih h1, ?_⟩
    cases hn : t.not with
    | none => rw [hn] at h2; exact h2
    | some ls =>
      rw [hn] at h2
      simp only [Out.bind_eq_ok] at h2 ⊢
      obtain ⟨z, h3, h4⟩ := h2
      exact ⟨z, processLines_mono g ih h3, h4⟩

theorem buildDependencies_mono (g : PathEnv) {d d' : Nat} (hd : d ≤ d') : ∀ {l : List GToken} {x : List Element},
    buildDependencies g d l = .ok x → buildDependencies g d' l = .ok x
  | [], _, h => h
  | t :: l, x, h => by
    simp only [buildDependencies, Out.bind_eq_ok] at h ⊢
    obtain ⟨y, h1, z, h2, h3⟩ := h
    exact ⟨y, toElement_mono g hd h1, z, buildDependencies_mono g hd h2, h3⟩

theorem toPath_mono (g : PathEnv) {d d' : Nat} (hd : d ≤ d') {t : GToken} {x : Path} (h : toPath g d t = .ok x) : toPath g d' t = .ok x := by
  simp only [toPath, Out.bind_eq_ok] at h ⊢
  obtain ⟨y, h1, z, h2, h3⟩ := h
  exact ⟨y, buildDependencies_mono g hd h1, z, toElement_mono g hd h2, h3⟩

theorem channelPaths_mono (g : PathEnv) {d d' : Nat} (hd : d ≤ d') : ∀ {l : List GToken} {x : List Path},
    channelPaths g d l = .ok x → channelPaths g d' l = .ok x
  | [], _, h => h
  | t :: l, x, h => by
    simp only [channelPaths, Out.bind_eq_ok] at h ⊢
    obtain ⟨y, h1, z, h2, h3⟩ := h
    exact ⟨y, toPath_mono g hd h1, z, channelPaths_mono g hd h2, h3⟩

theorem matcherNow_mono (g : PathEnv) {d d' : Nat} (hd : d ≤ d') {t : GToken} {cs : Option TokenSet} {x : Path × List Path}
    (h : matcherNow g d t cs = .ok x) : matcherNow g d' t cs = .ok x := by
  simp only [matcherNow, Out.bind_eq_ok] at h ⊢
  obtain ⟨y, h1, h2⟩ := h
  refine ⟨y, toPath_mono g hd h1, ?_⟩
  cases cs with
  | none => exact h2
  | some cs =>
    simp only [Out.bind_eq_ok] at h2 ⊢
    obtain ⟨z, h3, h4⟩ := h2
    exact ⟨z, channelPaths_mono g hd h3, h4⟩

end Verif.Lexer
