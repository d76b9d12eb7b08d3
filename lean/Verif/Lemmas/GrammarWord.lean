import Verif.Spec.GrammarRec
import Verif.Spec.Grammar
import Verif.Lemmas.LexerDiverge

/-! # The words of some recursive grammars, without channels -/

namespace Verif.Lexer
open Verif.Patterns Verif.Cardinality

variable {ts : List GToken}

theorem gword_gap {g : Str} (h : GWord ts [] .gap g) : g = [] := by
  cases h with
  | gapNil => rfl
  | gapCons h _ _ => simp at h

theorem gword_nil {w : Str} : GWord ts [] (.line []) w ↔ w = [] :=
  ⟨fun h => by cases h; rfl, fun h => h ▸ .nil⟩

theorem gword_cons {e : GElement} {is : GLine} {w : Str} :
    GWord ts [] (.line (.element e :: is)) w ↔ ∃ u v, w = u ++ v ∧ GWord ts [] (.elem e) u ∧ GWord ts [] (.line is) v := by
  constructor
  · intro h
    cases h with
    | cons h1 h2 h3 => exact ⟨_, _, by rw [gword_gap h1]; rfl, h2, h3⟩
  · rintro ⟨u, v, rfl, h1, h2⟩
    exact .cons (g := []) .gapNil h1 h2

theorem gword_tok {t : GToken} {w : Str} : GWord ts [] (.tok t) w ↔ ∃ l ∈ t.must, GWord ts [] (.line l) w := by
  constructor
  · intro h
    cases h with
    | tok h1 h2 => exact ⟨_, h1, h2⟩
  · rintro ⟨l, h1, h2⟩; exact .tok h1 h2

theorem mandatory_one (n : Nat) : SpecAllows .mandatory n ↔ n = 1 := by
  simp [SpecAllows]

theorem gword_rule {r : Rule} {c : Str} (hc : r.content = .constant c) (h0 : c ≠ []) {w : Str} {x : Str} :
    GWord ts [] (.elem ⟨.rule r, x, none⟩) w ↔ w = c := by
  constructor
  · intro h
    cases h with
    | ref h => simp at h
    | @rule _ r' ws h1 h2 h3 =>
      simp at h1; subst h1
      simp only [Option.getD_none, mandatory_one] at h3
      obtain ⟨u, rfl⟩ := List.length_eq_one_iff.mp h3
      have := h2 u (by simp)
      simp [RuleText, hc] at this
      simp [this.1]
  · rintro rfl
    have : GWord ts [] (.elem ⟨.rule r, x, none⟩) [w].flatten :=
      .rule rfl (by simp [RuleText, hc, h0]) (by simp [mandatory_one])
    simpa using this

theorem gword_ref {n : Str} {w : Str} {x : Str} :
    GWord ts [] (.elem ⟨.token n [], x, none⟩) w ↔ ∃ t ∈ ts, t.name = n ∧ GWord ts [] (.tok t) w := by
  constructor
  · intro h
    cases h with
    | rule h => simp at h
    | @ref _ n' sp t ws h1 h2 h3 h4 h5 =>
      simp at h1; obtain ⟨rfl, rfl⟩ := h1
      simp only [Option.getD_none, mandatory_one] at h5
      obtain ⟨u, rfl⟩ := List.length_eq_one_iff.mp h5
      exact ⟨t, h2, h3, by simpa using h4 u (by simp)⟩
  · rintro ⟨t, h1, h2, h3⟩
    have : GWord ts [] (.elem ⟨.token n [], x, none⟩) [w].flatten :=
      .ref rfl h1 h2 (by simpa using h3) (by simp [mandatory_one])
    simpa using this

section
variable {name : Str} {a b c d : Rule} {ca cb cc cd : Str} (ha : a.content = .constant ca) (hb : b.content = .constant cb)
  (ha0 : ca ≠ []) (hb0 : cb ≠ [])
include ha hb ha0 hb0

theorem right_step_word {w : Str} : GWord [rightRec name a b] [] (.tok (rightRec name a b)) w ↔
    w = cb ∨ ∃ v, w = ca ++ v ∧ GWord [rightRec name a b] [] (.tok (rightRec name a b)) v := by
  conv_lhs => rw [gword_tok]
  simp only [rightRec, gRule, gTok, List.mem_cons, List.not_mem_nil, or_false, exists_eq_or_imp, exists_eq_left, gword_cons,
    gword_nil, gword_rule ha ha0, gword_rule hb hb0, gword_ref, true_and]
  constructor
  · rintro (⟨u, v, rfl, rfl, u', v', rfl, h, rfl⟩ | ⟨u, v, rfl, rfl, rfl⟩)
    · exact .inr ⟨u', by simp, h⟩
    · exact .inl (by simp)
  · rintro (rfl | ⟨v, rfl, h⟩)
    · exact .inr ⟨w, [], by simp, rfl, rfl⟩
    · exact .inl ⟨ca, v, rfl, rfl, v, [], by simp, h, rfl⟩

theorem right_word {w : Str} : GWord [rightRec name a b] [] (.tok (rightRec name a b)) w ↔ ∃ k, w = copies ca k ++ cb := by
  constructor
  · induction hn : w.length using Nat.strong_induction_on generalizing w with
    | _ n ih =>
      intro h
      rcases (right_step_word ha hb ha0 hb0).mp h with rfl | ⟨v, rfl, hv⟩
      · exact ⟨0, by simp [copies]⟩
      · have : 0 < ca.length := List.length_pos_iff.mpr ha0
        obtain ⟨k, rfl⟩ := ih v.length (by simp at hn; omega) rfl hv
        exact ⟨k + 1, by simp [copies_succ]⟩
  · rintro ⟨k, rfl⟩
    induction k with
    | zero => exact (right_step_word ha hb ha0 hb0).mpr (.inl (by simp [copies]))
    | succ k ih => exact (right_step_word ha hb ha0 hb0).mpr (.inr ⟨_, by simp [copies_succ], ih⟩)

theorem left_step_word {w : Str} : GWord [leftRec name a b] [] (.tok (leftRec name a b)) w ↔
    w = cb ∨ ∃ v, w = v ++ ca ∧ GWord [leftRec name a b] [] (.tok (leftRec name a b)) v := by
  conv_lhs => rw [gword_tok]
  simp only [leftRec, gRule, gTok, List.mem_cons, List.not_mem_nil, or_false, exists_eq_or_imp, exists_eq_left, gword_cons,
    gword_nil, gword_rule ha ha0, gword_rule hb hb0, gword_ref, true_and]
  constructor
  · rintro (⟨u, v, rfl, h, u', v', rfl, rfl, rfl⟩ | ⟨u, v, rfl, rfl, rfl⟩)
    · exact .inr ⟨u, by simp, h⟩
    · exact .inl (by simp)
  · rintro (rfl | ⟨v, rfl, h⟩)
    · exact .inr ⟨w, [], by simp, rfl, rfl⟩
    · exact .inl ⟨v, ca, rfl, h, ca, [], by simp, rfl, rfl⟩

theorem left_word {w : Str} : GWord [leftRec name a b] [] (.tok (leftRec name a b)) w ↔ ∃ k, w = cb ++ copies ca k := by
  have hc : ∀ k, copies ca (k + 1) = copies ca k ++ ca := by intro k; simp [copies, List.replicate_succ']
  constructor
  · induction hn : w.length using Nat.strong_induction_on generalizing w with
    | _ n ih =>
      intro h
      rcases (left_step_word ha hb ha0 hb0).mp h with rfl | ⟨v, rfl, hv⟩
      · exact ⟨0, by simp [copies]⟩
      · have : 0 < ca.length := List.length_pos_iff.mpr ha0
        obtain ⟨k, rfl⟩ := ih v.length (by simp at hn; omega) rfl hv
        exact ⟨k + 1, by simp [hc]⟩
  · rintro ⟨k, rfl⟩
    induction k with
    | zero => exact (left_step_word ha hb ha0 hb0).mpr (.inl (by simp [copies]))
    | succ k ih => exact (left_step_word ha hb ha0 hb0).mpr (.inr ⟨_, by simp [hc], ih⟩)

theorem two_word (hc : c.content = .constant cc) (hc0 : cc ≠ []) : GWord [leftRec2 name a c b] [] (.tok (leftRec2 name a c b)) cb := by
  rw [gword_tok]
  refine ⟨[gRule b], by simp [leftRec2], ?_⟩
  rw [gRule, gword_cons]
  exact ⟨cb, [], by simp, (gword_rule hb hb0).mpr rfl, .nil⟩

/-- A word of `R := a R c | a R d | b` is `b` or longer than `a`. -/
theorem nested_word {start : Str} (hne : start ≠ name) (hc : c.content = .constant cc) (hc0 : cc ≠ [])
    (hd : d.content = .constant cd) (hd0 : cd ≠ []) {w : Str}
    (h : GWord [startAt start name, nestedRec name a b c d] [] (.tok (startAt start name)) w) : w = cb ∨ ca.length < w.length := by
  have key : ∀ w, GWord [startAt start name, nestedRec name a b c d] [] (.tok (nestedRec name a b c d)) w →
      w = cb ∨ ca.length < w.length := by
    intro w h
    rw [gword_tok] at h
    have h1 : 0 < cc.length := List.length_pos_iff.mpr hc0
    have h2 : 0 < cd.length := List.length_pos_iff.mpr hd0
    simp only [nestedRec, gRule, gTok, List.mem_cons, List.not_mem_nil, or_false, exists_eq_or_imp, exists_eq_left, gword_cons,
      gword_nil, gword_rule ha ha0, gword_rule hb hb0, gword_rule hc hc0, gword_rule hd hd0, true_and] at h
    rcases h with ⟨u, v, rfl, rfl, u', v', rfl, _, u'', v'', rfl, rfl, rfl⟩ |
      ⟨u, v, rfl, rfl, u', v', rfl, _, u'', v'', rfl, rfl, rfl⟩ | ⟨u, v, rfl, rfl, rfl⟩
    · right; simp; omega
    · right; simp; omega
    · left; simp
  rw [gword_tok] at h
  simp only [startAt, gTok, List.mem_cons, List.not_mem_nil, or_false, exists_eq_left, gword_cons,
      gword_nil, gword_ref] at h
  obtain ⟨u, v, rfl, ⟨t, ht, hn, hw⟩, rfl⟩ := h
  simp only [List.append_nil]
  rcases ht with rfl | rfl
  · exact absurd hn hne
  · exact key _ hw

end

end Verif.Lexer
