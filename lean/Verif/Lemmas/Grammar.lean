import Verif.Spec.Grammar
import Verif.Lemmas.Containers
import Verif.Props.Containers

namespace Verif.Lexer
open Verif.Patterns Verif.Cardinality

/-! ## The compiled element, as a relation -/

mutual
inductive Unf (g : PathEnv) : List Str → GToken → Element → Prop
  | mk {stack : List Str} {t : GToken} {must not : List Line} : t.name ≠ [] → must ≠ [] →
      UnfLines g stack t.name t.must must → (t.not = none → not = []) →
      (∀ ls, t.not = some ls → UnfLines g stack t.name ls not) → Unf g stack t (.mk t.name must not)
inductive UnfLines (g : PathEnv) : List Str → Str → List GLine → List Line → Prop
  | nil {stack : List Str} {parent : Str} : UnfLines g stack parent [] []
  | cons {stack : List Str} {parent : Str} {l : GLine} {ls : List GLine} {x : Line} {xs : List Line} : x ≠ [] →
      UnfLine g stack parent (elementsIn l) l x → UnfLines g stack parent ls xs → UnfLines g stack parent (l :: ls) (x :: xs)
inductive UnfLine (g : PathEnv) : List Str → Str → Nat → GLine → Line → Prop
  | nil {stack : List Str} {parent : Str} {n : Nat} : UnfLine g stack parent n [] []
  | switch {stack : List Str} {parent : Str} {n : Nat} {is : GLine} {xs : Line} : UnfLine g stack parent n is xs →
      UnfLine g stack parent n (.channelSwitch :: is) (.channelSwitch :: xs)
  | elem {stack : List Str} {parent : Str} {n : Nat} {e : GElement} {c : PContainer} {is : GLine} {xs : Line} :
      UnfC g stack parent n e c → UnfLine g stack parent n is xs →
      UnfLine g stack parent n (.element e :: is) (.container c :: xs)
inductive UnfC (g : PathEnv) : List Str → Str → Nat → GElement → PContainer → Prop
  | recur {stack : List Str} {parent : Str} {n : Nat} {e : GElement} {name : Str} {specs : List GSpec} {sp : List Spec} :
      e.content = .token name specs → name ∈ stack → ¬ (parent = name ∧ n ≤ 1) → buildSpecifiers specs = .ok sp → name ≠ [] →
      UnfC g stack parent n e (.recursive name sp (e.card.getD .mandatory))
  | replaced {stack : List Str} {parent : Str} {n : Nat} {e : GElement} {name : Str} {specs : List GSpec} {sp : List Spec}
      {el : Element} {ext : List Element} :
      e.content = .token name specs → name ∉ stack → buildSpecifiers specs = .ok sp → g.replace name = some (el, ext) →
      UnfC g stack parent n e (.token el sp (e.card.getD .mandatory))
  | declared {stack : List Str} {parent : Str} {n : Nat} {e : GElement} {name : Str} {specs : List GSpec} {sp : List Spec}
      {el : Element} {u : GToken} :
      e.content = .token name specs → name ∉ stack → buildSpecifiers specs = .ok sp → g.replace name = none →
      g.tokens.find name = .ok u → Unf g (u.name :: stack) u el →
      UnfC g stack parent n e (.token el sp (e.card.getD .mandatory))
  | missing {stack : List Str} {parent : Str} {n : Nat} {e : GElement} {name : Str} {specs : List GSpec} {sp : List Spec}
      {p : Path} :
      e.content = .token name specs → name ∉ stack → buildSpecifiers specs = .ok sp → g.replace name = none →
      g.tokens.find name = .err → g.notFound name = some p →
      UnfC g stack parent n e (.token p.element sp (e.card.getD .mandatory))
  | rule {stack : List Str} {parent : Str} {n : Nat} {e : GElement} {r : Rule} :
      e.content = .rule r → UnfC g stack parent n e (.rule r (e.card.getD .mandatory))
end

section steps
variable {g : PathEnv} {rec : GToken → Out (Element × List Element)} {stack : List Str} {parent : Str}

theorem elementToContainer_unf {n : Nat} {e : GElement} {c : PContainer} {ext : List Element}
    (hrec : ∀ u e' x, rec u = .ok (e', x) → Unf g (u.name :: stack) u e')
    (h : elementToContainer g rec stack parent n e = .ok (c, ext)) : UnfC g stack parent n e c := by
  unfold elementToContainer at h
  cases hc : e.content with
  | rule r =>
    rw [hc] at h
    simp at h
    obtain ⟨rfl, rfl⟩ := h
    exact .rule hc
  | token name specs =>
    simp only [hc] at h
    by_cases hm : name ∈ stack
    · simp only [hm, if_true] at h
      by_cases hp : parent = name ∧ n ≤ 1
      · simp [hp] at h
      · simp only [hp, if_false, Out.bind_eq_ok] at h
        obtain ⟨sp, h1, h2⟩ := h
        by_cases hn : name = []
        · simp [hn] at h2
        · simp [hn] at h2
          obtain ⟨rfl, rfl⟩ := h2
          exact .recur hc hm hp h1 hn
    · simp only [hm, if_false, Out.bind_eq_ok] at h
      obtain ⟨⟨el, x⟩, h1, sp, h2, h3⟩ := h
      simp at h3
      obtain ⟨rfl, rfl⟩ := h3
      unfold tokenReferenceToTokenPath at h1
      cases hr : g.replace name with
      | some p =>
        obtain ⟨a, b⟩ := p
        simp [hr] at h1
        obtain ⟨rfl, rfl⟩ := h1
        exact .replaced hc hm h2 hr
      | none =>
        simp only [hr] at h1
        cases hf : g.tokens.find name with
        | ok u => simp only [hf] at h1; exact .declared hc hm h2 hr hf (hrec _ _ _ h1)
        | panic => simp [hf] at h1
        | err =>
          simp only [hf] at h1
          cases hn : g.notFound name with
          | none => simp [hn] at h1
          | some p =>
            simp [hn] at h1
            obtain ⟨rfl, rfl⟩ := h1
            exact .missing hc hm h2 hr hf hn

theorem processInstructions_unf {n : Nat}
    (hrec : ∀ u e' x, rec u = .ok (e', x) → Unf g (u.name :: stack) u e') : ∀ {l : GLine} {x : Line} {ext : List Element},
    processInstructions g rec stack parent n l = .ok (x, ext) → UnfLine g stack parent n l x := by
  intro l
  induction l with
  | nil => intro x ext h; simp [processInstructions] at h; obtain ⟨rfl, rfl⟩ := h; exact .nil
  | cons i l ih =>
    intro x ext h
    cases i with
    | channelSwitch =>
      simp only [processInstructions, Out.bind_eq_ok] at h
      obtain ⟨⟨a, b⟩, h1, h2⟩ := h
      simp at h2
      obtain ⟨rfl, rfl⟩ := h2
      exact .switch (ih h1)
    | element e =>
      simp only [processInstructions, Out.bind_eq_ok] at h
      obtain ⟨⟨c, b⟩, h1, ⟨a, b'⟩, h2, h3⟩ := h
      simp at h3
      obtain ⟨rfl, rfl⟩ := h3
      exact .elem (elementToContainer_unf hrec h1) (ih h2)

theorem processLines_unf
    (hrec : ∀ u e' x, rec u = .ok (e', x) → Unf g (u.name :: stack) u e') :
    ∀ {ls : List GLine} {xs : List Line} {ext : List Element},
    processLines g rec stack parent ls = .ok (xs, ext) → UnfLines g stack parent ls xs := by
  intro ls
  induction ls with
  | nil => intro x ext h; simp [processLines] at h; obtain ⟨rfl, rfl⟩ := h; exact .nil
  | cons l ls ih =>
    intro xs ext h
    simp only [processLines, processLine, Out.bind_eq_ok] at h
    obtain ⟨⟨x, b⟩, ⟨⟨x', b'⟩, h1, h2⟩, ⟨xs', b''⟩, h3, h4⟩ := h
    simp at h4
    obtain ⟨rfl, rfl⟩ := h4
    simp only at h2
    by_cases hx : x' = []
    · simp [hx] at h2
    · simp [hx] at h2
      obtain ⟨rfl, rfl⟩ := h2
      exact .cons hx (processInstructions_unf hrec h1) (ih h3)

end steps

theorem toElement_unf {g : PathEnv} : ∀ (d : Nat) {stack : List Str} {t : GToken} {e : Element} {ext : List Element},
    toElement g d stack t = .ok (e, ext) → Unf g stack t e := by
  intro d
  induction d with
  | zero => intro stack t e ext h; simp [toElement] at h
  | succ d ih =>
    intro stack t e ext h
    simp only [toElement, Out.bind_eq_ok] at h
    obtain ⟨⟨must, x⟩, h1, h2⟩ := h
    have hrec : ∀ u e' x, toElement g d (u.name :: stack) u = .ok (e', x) → Unf g (u.name :: stack) u e' :=
      fun u e' x h => ih h
    have hm := processLines_unf hrec h1
    have hfin : ∀ {not : List Line} {e : Element}, elementNow t.name must not = .ok e →
        t.name ≠ [] ∧ must ≠ [] ∧ e = .mk t.name must not := by
      intro not e h
      unfold elementNow at h
      by_cases h1 : t.name = [] <;> by_cases h2 : must = [] <;> simp [h1, h2] at h
      exact ⟨h1, h2, h.symm⟩
    cases hn : t.not with
    | none =>
      simp only [hn, Out.bind_eq_ok] at h2
      obtain ⟨e', h3, h4⟩ := h2
      simp at h4
      obtain ⟨rfl, rfl⟩ := h4
      obtain ⟨k1, k2, rfl⟩ := hfin h3
      exact .mk k1 k2 hm (fun _ => rfl) (by simp [hn])
    | some ls =>
      simp only [hn, Out.bind_eq_ok] at h2
      obtain ⟨⟨not, x'⟩, h3, e', h4, h5⟩ := h2
      simp at h5
      obtain ⟨rfl, rfl⟩ := h5
      obtain ⟨k1, k2, rfl⟩ := hfin h4
      refine .mk k1 k2 hm (by simp [hn]) ?_
      intro ls' hls
      rw [hn] at hls
      simp at hls
      subst hls
      exact processLines_unf hrec h3

end Verif.Lexer
