import Verif.Lemmas.BaseWritten3
import Verif.Props.BaseClear
import Verif.Props.BaseApp
import Verif.Lemmas.BaseTexts

/-!
# C107: the parser reads the object which is written

`Written cfg k r v` (`Spec/BaseWritten.lean`): the object written in the tree `r` of a text of the token `k` is `v`.
-/

set_option maxRecDepth 100000

namespace Verif.Base
open Verif.Patterns Verif.Lexer

/-- C107: in every tree of the grammar an object is written, and the parser reads it in one of its runs. -/
theorem C107_written (cfg : Cfg) (k : Kind) (r : Root) (h : Conf cfg k r) :
    ∃ v, Written cfg k r v ∧ ExecuteRun (baseEvents cfg) r (.ok [v]) := by
  obtain ⟨v, hv⟩ := written_exists r h
  exact ⟨v, hv, written_reads r h hv⟩

/-- C107: whatever is written in a tree of the grammar can be read from it. -/
theorem C107_read (cfg : Cfg) (k : Kind) (r : Root) (h : Conf cfg k r) (v : V) (hv : Written cfg k r v) :
    ExecuteRun (baseEvents cfg) r (.ok [v]) := written_reads r h hv

/-- C107: from a clear tree of the grammar the parser reads exactly the written object, for every token of the language. -/
theorem C107_only (cfg : Cfg) (k : Kind) (r : Root) (h : Conf cfg k r) (hc : Clear r) (x : Out (List V)) :
    ExecuteRun (baseEvents cfg) r x ↔ ∃ v, x = .ok [v] ∧ Written cfg k r v := by
  constructor
  · intro hx
    obtain ⟨v, hv, hr⟩ := C107_written cfg k r h
    exact ⟨v, C81_token cfg k r h hc _ _ hx hr, hv⟩
  · rintro ⟨v, rfl, hv⟩
    exact written_reads r h hv

/-- C107: the object written in a clear tree is unique. -/
theorem C107_unique (cfg : Cfg) (k : Kind) (r : Root) (h : Conf cfg k r) (hc : Clear r) (v w : V) (hv : Written cfg k r v)
    (hw : Written cfg k r w) : v = w := by
  have := C81_token cfg k r h hc _ _ (written_reads r h hv) (written_reads r h hw)
  simpa using this

/-- C107: the application reads the program which is written in a clear tree, and nothing else. -/
theorem C107_program (cfg : Cfg) (r : Root) (h : Conf cfg .program r) (hc : Clear r) (x : Out V) :
    AppRun (some (baseEvents cfg)) r x ↔ ∃ p : Program, x = .ok (.other (.program p)) ∧ Written cfg .program r (.other (.program p)) := by
  have hne : baseEvents cfg ≠ [] := by simp [baseEvents]
  constructor
  · intro hx
    obtain ⟨p, rfl⟩ := (C79_program cfg r h).2 x hx
    obtain ⟨e, l, h2, _, h3⟩ := (C48_application _ _ _).mp hx
    simp only [Option.some.injEq] at h2
    subst h2
    obtain ⟨v, hv, hw⟩ := (C107_only cfg .program r h hc _).mp h3
    simp only [Out.ok.injEq, List.cons.injEq] at hv
    rw [← hv.1] at hw
    exact ⟨p, rfl, hw⟩
  · rintro ⟨p, rfl, hw⟩
    exact (C48_application _ _ _).mpr ⟨_, [], rfl, hne, written_reads r h hw⟩

/-- C107: from the text to the object. If the lexer recognises a program in the script, its tree conforms to the grammar and no equal texts are
matched differently, then `Root` gives a root; if the root is clear, the parser reads from it exactly the program which is written in it. -/
theorem C107_text (x : Setting) (order : List Path → Nat → List Path) (fuel : Nat) (script : Str) (a : AToken)
    (h : x.ast order fuel (Kind.name .program) script = some (.ok (.success a))) (cfg : Cfg) (hc : ConfT cfg .program a) (heq : EqualTexts a) :
    ∃ r, x.root order fuel (Kind.name .program) script = some (.ok (.inl (some r))) ∧ (Clear r → ∀ y, AppRun (some (baseEvents cfg)) r y ↔
      ∃ p : Program, y = .ok (.other (.program p)) ∧ Written cfg .program r (.other (.program p))) := by
  obtain ⟨r, h1, h2, _⟩ := C82_program cfg a hc heq
  exact ⟨r, x.root_eq h h1, fun hr y => C107_program cfg r h2 hr y⟩

/-! The hypotheses are met: `if ab { break }`, from the text to the program. -/

theorem has_part {cfg : Cfg} {r u : Root} {k : Kind} {v : V} (h1 : (r.nodes.find? fun n => n.name = k.name).map (fun n => n.containers) =
    some [.mk u.content u.name (some u)]) (h : Written cfg k u v) : Has (Written cfg) r k v := by
  obtain ⟨n, h2, h3⟩ := Option.map_eq_some_iff.mp h1
  exact .mk ⟨n, List.mem_of_find?_eq_some h2, by simpa using List.find?_some h2, _, h3, rfl⟩ h

theorem exIf_written (cfg : Cfg) : Written cfg .program exIf (.other (.program ifProgram)) := by
  refine .program (.none (by decide +kernel)) ?_
  refine has_part (by rfl) (.instructions (l := [_]) (.mk (us := [_]) ⟨_, .head _, rfl, rfl⟩ (.cons ?_ .nil)))
  refine .instrIf (has_part (by rfl) (.ifDecl (b := some _) ?_ (.some ?_)))
  · refine has_part (by rfl) (.ifOperation (has_part (by rfl) (.operation (has_part (by rfl) (.plain (has_part (by rfl) (.elementVariable ?_)) ?_ ?_)))))
    · exact has_part (by rfl) (.name (a := lit "a") (b := lit "b") ⟨_, .head _, rfl, rfl⟩ ⟨_, .tail _ (.head _), rfl, rfl⟩)
    · decide +kernel
    · intro o; simp
  · refine has_part (by rfl) (.instructions (l := [_]) (.mk (us := [_]) ⟨_, .head _, rfl, rfl⟩ (.cons ?_ .nil)))
    exact .instrDirection (has_part (by rfl) (.brk (by decide +kernel)))

/-- `if ab { break }` is read as this program, and as nothing else. -/
example (x : Out V) : AppRun (some (baseEvents exCfg)) exIf x ↔ x = .ok (.other (.program ifProgram)) := by
  have hc : Clear exIf := clearB_sound 20 _ (by decide +kernel)
  rw [C107_program exCfg exIf exIf_conf hc]
  constructor
  · rintro ⟨p, rfl, hp⟩
    rw [C107_unique exCfg .program exIf exIf_conf hc _ _ hp (exIf_written exCfg)]
  · rintro rfl
    exact ⟨_, rfl, exIf_written exCfg⟩

end Verif.Base
