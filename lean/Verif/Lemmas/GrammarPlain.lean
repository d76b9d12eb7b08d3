import Verif.Lemmas.GrammarLang
import Verif.Spec.Derivation

/-! # Grammars without recursion are compiled to plain elements -/

namespace Verif.Lexer
open Verif.Patterns Verif.Cardinality

theorem GSimple.acc {ts : List GToken} {t : GToken} (h : GSimple ts t) : Acc (GMention ts) t := by
  induction h with
  | mk _ _ _ _ ih =>
    constructor
    rintro u ⟨hu, l, hl, e, he, specs, hc⟩
    exact ih l hl e he u.name specs hc u hu rfl

theorem acc_irrefl {α : Type} {r : α → α → Prop} {a : α} (h : Acc r a) : ¬ r a a := by
  induction h with
  | intro x _ ih => intro h; exact ih x h h

theorem GSimple.no_cycle {ts : List GToken} {t : GToken} (h : GSimple ts t) : ¬ Relation.TransGen (GMention ts) t t :=
  acc_irrefl h.acc.transGen

/-- The tokens of the stack lead to `t`. -/
def Leads (g : PathEnv) (stack : List Str) (t : GToken) : Prop :=
  ∀ n ∈ stack, ∃ u ∈ g.tokens.list, u.name = n ∧ Relation.ReflTransGen (GMention g.tokens.list) t u

theorem unfLine_inst {g : PathEnv} {stack : List Str} {parent : Str} {n : Nat} {l : GLine} : ∀ {x : Line},
    UnfLine g stack parent n l x → ∀ c, .container c ∈ x → ∃ e, .element e ∈ l ∧ UnfC g stack parent n e c := by
  induction l with
  | nil => intro x h c hc; cases h; simp at hc
  | cons i is ih =>
    intro x h c hc
    cases h with
    | switch h =>
      simp at hc
      obtain ⟨e, he, hu⟩ := ih h c hc
      exact ⟨e, by simp [he], hu⟩
    | elem h1 h2 =>
      simp only [List.mem_cons, Instruction.container.injEq] at hc
      rcases hc with rfl | hc
      · exact ⟨_, by simp, h1⟩
      · obtain ⟨e, he, hu⟩ := ih h2 c hc
        exact ⟨e, by simp [he], hu⟩

theorem unfC_card {g : PathEnv} {stack : List Str} {parent : Str} {n : Nat} {e : GElement} {c : PContainer}
    (h : UnfC g stack parent n e c) : c.cardinality = .ok (e.card.getD .mandatory) := by
  cases h <;> rfl

theorem unfLine_optional {g : PathEnv} {stack : List Str} {parent : Str} {n : Nat} {l : GLine} : ∀ {x : Line},
    UnfLine g stack parent n l x → GOptionalTail l → OptionalTail x := by
  induction l with
  | nil => intro x h _; cases h; trivial
  | cons i is ih =>
    intro x h ho
    cases h with
    | switch h => exact (ih h ho : OptionalTail _)
    | elem h1 h2 =>
      refine ⟨?_, ih h2 ho.2⟩
      intro card hcard hv d hd
      rw [unfC_card h1] at hcard
      obtain rfl : _ = card := by simpa using hcard
      obtain ⟨e', he', hu'⟩ := unfLine_inst h2 d hd
      exact ⟨_, unfC_card hu', ho.1 hv e' he'⟩

theorem unf_plain {g : PathEnv} (hg : TokensOk g) (hclosed : GClosed g) {t : GToken} (h : GSimple g.tokens.list t) :
    ∀ {stack : List Str} {e : Element}, Leads g stack t → Unf g stack t e → Plain e ∧ AllLines OptionalTail e := by
  have hcyc := h
  induction h with
  | @mk t h0 h1 hrule h2 ih =>
    intro stack e hs hu
    cases hu with
    | @mk _ _ must not k1 k2 k3 k4 k5 =>
      have hnot := k4 h0
      subst hnot
      have key : ∀ x ∈ must, ∀ c, Instruction.container c ∈ x → PlainC c ∧ AllLinesC OptionalTail c := by
        intro x hx c hc
        obtain ⟨l, hl, _, hxl⟩ := (unfLines_get k3).2 x hx
        obtain ⟨el, hel, huc⟩ := unfLine_inst hxl c hc
        cases huc with
        | rule a => exact ⟨.rule (hrule l hl el hel _ a), .rule⟩
        | replaced _ _ _ h => rw [hclosed.1] at h; simp at h
        | missing _ _ _ _ _ h => rw [hclosed.2] at h; simp at h
        | recur a m _ _ _ =>
          obtain ⟨u, hu, hn, hr⟩ := hs _ m
          have hm : GMention g.tokens.list u t := ⟨hu, l, hl, el, hel, _, hn ▸ a⟩
          exact absurd (Relation.TransGen.head' hm hr) (acc_irrefl (hcyc.acc.inv hm).transGen)
        | declared a m b r f u =>
          obtain ⟨q1, q2⟩ := (hg.find _ _).mp f
          have := ih l hl el hel _ _ a _ q1 q2 (h2 l hl el hel _ _ a _ q1 q2) (stack := _ :: stack) ?_ u
          · exact ⟨.token this.1, .token this.2⟩
          · intro n hn
            rcases List.mem_cons.mp hn with rfl | hn
            · exact ⟨_, q1, rfl, .refl⟩
            · obtain ⟨v, v1, v2, v3⟩ := hs n hn
              exact ⟨v, v1, v2, .head ⟨q1, l, hl, el, hel, _, q2 ▸ a⟩ v3⟩
      refine ⟨.mk (fun x hx c hc => (key x hx c hc).1), .mk ?_ (fun x hx c hc => (key x hx c hc).2)⟩
      intro x hx
      obtain ⟨l, hl, _, hxl⟩ := (unfLines_get k3).2 x hx
      exact unfLine_optional hxl (h1 l hl)

end Verif.Lexer
