import Verif.Model.Grammar

/-!
# The compiler looks neither at the codes of the elements nor at the tests
-/

namespace Verif.Lexer
open Verif.Patterns Verif.Cardinality

/-- The same instruction, perhaps with another code. -/
def SameInstr : GInstr → GInstr → Prop
  | .channelSwitch, .channelSwitch => True
  | .element e, .element e' => e.content = e'.content ∧ e.card = e'.card
  | _, _ => False
def SameLines (l l' : List GLine) : Prop := List.Forall₂ (List.Forall₂ SameInstr) l l'
/-- The same token, perhaps with other codes and tests. -/
def SameToken (t t' : GToken) : Prop := t.name = t'.name ∧ SameLines t.must t'.must ∧
  match t.not, t'.not with
  | none, none => True
  | some l, some l' => SameLines l l'
  | _, _ => False
/-- The same answer. -/
def SameFind (x y : Out GToken) : Prop :=
  match x, y with
  | .ok t, .ok t' => SameToken t t'
  | .err, .err => True
  | .panic, .panic => True
  | _, _ => False
/-- Environments with the same tokens. -/
structure SameEnv (g g' : PathEnv) : Prop where
  notFound : g.notFound = g'.notFound
  replace : g.replace = g'.replace
  find : ∀ n, SameFind (g.tokens.find n) (g'.tokens.find n)

section
variable {g g' : PathEnv} (hs : SameEnv g g')
include hs

section
variable {rec rec' : GToken → Out (Element × List Element)} (hrec : ∀ t t', SameToken t t' → rec t = rec' t')
include hrec

theorem same_reference (name : Str) : tokenReferenceToTokenPath g rec name = tokenReferenceToTokenPath g' rec' name := by
  unfold tokenReferenceToTokenPath
  rw [hs.replace]
  cases g'.replace name with
  | some r => rfl
  | none =>
    have := hs.find name
    unfold SameFind at this
    cases h1 : g.tokens.find name <;> cases h2 : g'.tokens.find name <;> rw [h1, h2] at this <;> simp only at this ⊢
    · exact hrec _ _ this
    · rw [hs.notFound]
  
theorem same_container {stack : List Str} {parent : Str} {n : Nat} {e e' : GElement} (h1 : e.content = e'.content) (h2 : e.card = e'.card) :
    elementToContainer g rec stack parent n e = elementToContainer g' rec' stack parent n e' := by
  unfold elementToContainer
  rw [h1, h2]
  cases e'.content with
  | rule r => rfl
  | token name specs => simp only [same_reference hs hrec]

theorem same_instructions {stack : List Str} {parent : Str} {n : Nat} {l l' : GLine} (h : List.Forall₂ SameInstr l l') :
    processInstructions g rec stack parent n l = processInstructions g' rec' stack parent n l' := by
  induction h with
  | nil => rfl
  | @cons a b l l' hab _ ih =>
    cases a <;> cases b <;> simp only [SameInstr] at hab
    · simp only [processInstructions, ih]
    · simp only [processInstructions, ih, same_container hs hrec hab.1 hab.2]

omit hs hrec in
theorem same_elements {l l' : GLine} (h : List.Forall₂ SameInstr l l') : elementsIn l = elementsIn l' := by
  unfold elementsIn
  induction h with
  | nil => rfl
  | @cons a b l l' hab _ ih =>
    cases a <;> cases b <;> simp only [SameInstr] at hab <;> simp [List.filter_cons, ih]
    · simpa using ih
    · simpa using ih

theorem same_lines {stack : List Str} {parent : Str} {l l' : List GLine} (h : SameLines l l') :
    processLines g rec stack parent l = processLines g' rec' stack parent l' := by
  unfold SameLines at h
  induction h with
  | nil => rfl
  | @cons a b l l' hab _ ih => simp only [processLines, processLine, ih, same_instructions hs hrec hab, same_elements hab]
end

theorem same_element : ∀ (d : Nat) (stack : List Str) (t t' : GToken), SameToken t t' → toElement g d stack t = toElement g' d stack t'
  | 0, _, _, _, _ => rfl
  | d + 1, stack, t, t', h => by
    obtain ⟨h1, h2, h3⟩ := h
    have hrec : ∀ u u', SameToken u u' → (fun u : GToken => toElement g d (u.name :: stack) u) u = (fun u : GToken => toElement g' d (u.name :: stack) u) u' := by
      intro u u' hu
      simp only [hu.1]
      exact same_element d _ u u' hu
    unfold toElement
    simp only [h1, same_lines hs hrec h2]
    cases hn : t.not <;> cases hn' : t'.not <;> rw [hn, hn'] at h3 <;> simp only at h3 ⊢
    simp only [same_lines hs hrec h3]

theorem same_dependencies (d : Nat) {l l' : List GToken} (h : List.Forall₂ SameToken l l') : buildDependencies g d l = buildDependencies g' d l' := by
  induction h with
  | nil => rfl
  | @cons a b l l' hab _ ih => simp only [buildDependencies, ih, same_element hs d [] a b hab]

variable (hl : List.Forall₂ SameToken g.tokens.list g'.tokens.list)
include hl

theorem same_path (d : Nat) {t t' : GToken} (h : SameToken t t') : toPath g d t = toPath g' d t' := by
  simp only [toPath, same_dependencies hs d hl, same_element hs d [] t t' h]

theorem same_channelPaths (d : Nat) {l l' : List GToken} (h : List.Forall₂ SameToken l l') : channelPaths g d l = channelPaths g' d l' := by
  induction h with
  | nil => rfl
  | @cons a b l l' hab _ ih => simp only [channelPaths, ih, same_path hs hl d hab]

theorem same_matcher (d : Nat) {t t' : GToken} (h : SameToken t t') {cs cs' : TokenSet} (hc : List.Forall₂ SameToken cs.list cs'.list) :
    matcherNow g d t (some cs) = matcherNow g' d t' (some cs') := by
  simp only [matcherNow, same_path hs hl d h, same_channelPaths hs hl d hc]
end

end Verif.Lexer
