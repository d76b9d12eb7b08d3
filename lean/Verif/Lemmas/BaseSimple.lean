import Verif.Lemmas.BaseLexer

/-!
# The tokens of the shipped grammar without recursion
-/

namespace Verif.Base
open Verif.Patterns Verif.Lexer Verif.Cardinality

def Piece.mustB : Piece → Bool
  | .switch => true
  | .part _ .one _ => true
  | .part _ .plus _ => true
  | _ => false

/-- Only the last part may be missing. -/
def tailB : List Piece → Bool
  | [] => true
  | [_] => true
  | p :: l => p.mustB && tailB l

def simpleB : Nat → Kind → Bool
  | 0, _ => false
  | n + 1, k => (source k).all fun l => tailB l && l.all fun
    | .part (.tok k') _ _ => simpleB n k'
    | _ => true

section
variable {rs : RuleSet} {ts cs : TokenSet} (h : BaseRead rs ts cs)
include h

theorem tailB_sound : ∀ {l : List Piece} {gl : GLine}, List.Forall₂ (PieceIs rs) l gl → tailB l = true → GOptionalTail gl
  | [], _, .nil, _ => trivial
  | p :: l, i :: gl, .cons hp hl, ht => by
    have htl : tailB l = true := by
      cases l with
      | nil => rfl
      | cons q l => simp only [tailB, Bool.and_eq_true] at ht; exact ht.2
    have ih := tailB_sound hl htl
    cases i with
    | channelSwitch => exact ih
    | element e =>
      refine ⟨fun hz e' he' => ?_, ih⟩
      cases l with
      | nil => cases hl; cases he'
      | cons q l =>
        exfalso
        simp only [tailB, Bool.and_eq_true] at ht
        have hc : ∃ rep, e.card = Rep.card rep ∧ (rep = .one ∨ rep = .plus) := by
          cases p with
          | switch => cases hp
          | part s rep spec =>
            refine ⟨rep, ?_, ?_⟩
            · cases s with
              | tok k => obtain ⟨e', h1, h2, _⟩ := hp; cases h1; exact h2
              | rule s => obtain ⟨e', r, h1, h2, _⟩ := hp; cases h1; exact h2
            · cases rep <;> simp [Piece.mustB] at ht ⊢
        obtain ⟨rep, h1, rfl | rfl⟩ := hc
        · rw [h1] at hz; exact absurd hz (by decide)
        · rw [h1] at hz; exact absurd hz (by decide)

theorem simpleB_sound : ∀ (n : Nat) (k : Kind), simpleB n k = true → ∀ t ∈ ts.list, TokenIs rs k t → GSimple ts.list t
  | 0, _, hk, _, _, _ => by cases hk
  | n + 1, k, hk, t, ht, hkt => by
    simp only [simpleB, List.all_eq_true, Bool.and_eq_true] at hk
    refine .mk hkt.2.1 ?_ ?_ ?_
    · intro gl hgl
      obtain ⟨l, hl, hp⟩ := h.line hkt hgl
      exact tailB_sound h hp (hk l hl).1
    · exact h.ordinary.rules t (List.mem_append.mpr (.inl ht))
    · intro gl hgl e he name specs hc u hu hn
      obtain ⟨l, hl, hp⟩ := h.line hkt hgl
      obtain ⟨s, rep, spec, hs, hp⟩ := part_of h hp he
      cases s with
      | rule s => obtain ⟨e', r', h1, _, h2, _⟩ := hp; cases h1; rw [hc] at h2; cases h2
      | tok k' =>
        obtain ⟨e', h1, _, h2⟩ := hp
        cases h1; rw [hc] at h2; cases h2
        have := (hk l hl).2 _ hs
        obtain ⟨t', ht', hk'⟩ := h.kind k'
        have e1 := ((C38_unique_find _ _ h.tokensNow).2.1 k'.name u).mpr ⟨hu, hn⟩
        have e2 := ((C38_unique_find _ _ h.tokensNow).2.1 k'.name t').mpr ⟨ht', hk'.1⟩
        rw [e1] at e2
        cases e2
        exact simpleB_sound n k' this u hu hk'

theorem channels_simple {c : GToken} (hc : c ∈ cs.list) : GSimple ts.list c := by
  obtain ⟨x, _, _, h1, h2, r, e, h3, h4, h5, h6⟩ := h.channel hc
  refine .mk h1 ?_ (h.ordinary.rules c (List.mem_append.mpr (.inr hc))) ?_
  · rw [h3]
    intro l hl
    simp at hl
    subst hl
    exact ⟨fun _ _ hx => absurd hx (List.not_mem_nil), trivial⟩
  · rw [h3]
    intro l hl e' he' name specs hx
    simp at hl
    subst hl
    simp at he'
    subst he'
    rw [h4] at hx
    cases hx
end

end Verif.Base
