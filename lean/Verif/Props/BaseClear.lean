import Verif.Lemmas.BaseClear
import Verif.Props.BaseConfusion
import Verif.Lemmas.BaseClash

/-! # C81: clear programs have one reading -/

namespace Verif.Base
open Verif.Patterns Verif.Lexer

/-- C81: a clear tree of the grammar has one reading: all the executions of its root have the same outcome. -/
theorem C81_token (cfg : Cfg) (k : Kind) (r : Root) (h : Conf cfg k r) (hc : Clear r) (x y : Out (List V))
    (hx : ExecuteRun (baseEvents cfg) r x) (hy : ExecuteRun (baseEvents cfg) r y) : x = y := by
  have hname : r.name = k.name := by obtain ⟨l, h⟩ := h.line; exact h.name
  have key : ∀ {a b}, EventsRun (baseEvents cfg) r.name r a → EventsRun (baseEvents cfg) r.name r b → a = b := by
    rw [hname]
    exact fun h1 h2 => events_det (fun h1 h2 => prog_det r h hc (asks_evOf h) h1 h2) h1 h2
  cases hx with
  | err a =>
    cases hy with
    | err b => rfl
    | panic b => exact absurd (key a b) (by simp)
    | ok b => exact absurd (key a b) (by simp)
  | panic a =>
    cases hy with
    | err b => exact absurd (key a b) (by simp)
    | panic b => rfl
    | ok b => exact absurd (key a b) (by simp)
  | ok a =>
    cases hy with
    | err b => exact absurd (key a b) (by simp)
    | panic b => exact absurd (key a b) (by simp)
    | ok b =>
      have := key a b
      simp only [Out.ok.injEq] at this
      rw [this]

/-- C81: the parser reads every clear program, and in one way only. -/
theorem C81_program (cfg : Cfg) (r : Root) (h : Conf cfg .program r) (hc : Clear r) :
    ∃ p : Program, AppRun (some (baseEvents cfg)) r (.ok (.other (.program p))) ∧
      ∀ x, AppRun (some (baseEvents cfg)) r x → x = .ok (.other (.program p)) := by
  obtain ⟨⟨x, hx⟩, h1⟩ := C79_program cfg r h
  obtain ⟨p, rfl⟩ := h1 x hx
  refine ⟨p, hx, fun y hy => ?_⟩
  obtain ⟨q, rfl⟩ := h1 y hy
  obtain ⟨e, l, h2, _, h3⟩ := (C48_application _ _ _).mp hx
  obtain ⟨e', l', h4, _, h5⟩ := (C48_application _ _ _).mp hy
  simp only [Option.some.injEq] at h2 h4
  subst h2
  subst h4
  have := C81_token cfg .program r h hc _ _ h3 h5
  simp only [Out.ok.injEq, List.cons.injEq] at this
  rw [this.1]

/-! A checker, used for the example only. -/
def clearB : Nat → Root → Bool
  | 0, _ => false
  | f + 1, r => (confusable.all fun p => r.name ≠ lit p.1 || p.2.all fun s => r.nodes.all fun m => m.name = lit s || !(nodeNames m).contains (lit s)) &&
      r.nodes.all fun n => n.containers.all fun c => match c.root with
        | some u => clearB f u
        | none => true

theorem clearB_sound (f : Nat) : ∀ r, clearB f r = true → Clear r := by
  induction f with
  | zero => intro r h; simp [clearB] at h
  | succ f ih =>
    intro r h
    simp only [clearB, Bool.and_eq_true, List.all_eq_true, Bool.or_eq_true, decide_eq_true_eq, Bool.not_eq_true', ] at h
    refine .mk ?_ ?_
    · intro p hp hn s hs m hm hms g hg he
      rcases h.1 p hp with h1 | h1
      · exact h1 hn
      · rcases h1 s hs m hm with h2 | h2
        · exact hms h2
        · have := reachNode_names hg
          rw [he] at this
          simp_all
    · intro n hn c hc u hu
      have := h.2 n hn c hc
      rw [hu] at this
      exact ih u this

/-- `if ab { break }` is read in one way. -/
example : Conf exCfg .program exIf ∧ Clear exIf := ⟨exIf_conf, clearB_sound 20 _ (by decide +kernel)⟩

/-- `a + b` and `if a { if b { … } … }` are not clear. -/
example : clearB 20 exSum = false ∧ clearB 20 exNestedIf = false := by decide +kernel

end Verif.Base
