import Verif.Lemmas.BaseLexer
import Verif.Lemmas.BaseTreeCheck

/-!
# Runs of the shipped lexer in the kernel
-/

set_option maxRecDepth 100000

namespace Verif.Base
open Verif.Lexer

def onSuccess (f : AToken → Bool) : AST → Bool
  | .success a => f a
  | .mistake _ => false

def onMistake : AST → Bool
  | .success _ => false
  | .mistake _ => true

/-- A run with the tables. -/
def baseRun (k : Kind) (script : Str) : Option (Out AST) :=
  baseMatcher (setB tokensData) (setB channelsData) 64 (fun ps _ => ps) 3000 k.name ⟨script, false, false⟩

def okRun (f : AST → Bool) : Option (Out AST) → Bool
  | some (.ok a) => f a
  | _ => false

theorem run_all {k : Kind} {script : Str} {f : AST → Bool} (h : okRun f (baseRun k script) = true) :
    ∃ a, f a = true ∧ ∀ (x : Setting) (order : List Path → Nat → List Path), AnyOrder order → ∀ fuel, 3000 ≤ fuel →
      x.ast order fuel k.name script = some (.ok a) := by
  apply base_witness (F := 3000)
  unfold okRun baseRun at h
  exact h

theorem run_success {k : Kind} {script : Str} {f : AToken → Bool} (h : okRun (onSuccess f) (baseRun k script) = true) :
    ∃ a, f a = true ∧ ∀ (x : Setting) (order : List Path → Nat → List Path), AnyOrder order → ∀ fuel, 3000 ≤ fuel →
      x.ast order fuel k.name script = some (.ok (.success a)) := by
  obtain ⟨a, h1, h2⟩ := run_all h
  cases a with
  | success a => exact ⟨a, h1, h2⟩
  | mistake m => cases h1

theorem run_mistake {k : Kind} {script : Str} (h : okRun onMistake (baseRun k script) = true) :
    ∃ m, ∀ (x : Setting) (order : List Path → Nat → List Path), AnyOrder order → ∀ fuel, 3000 ≤ fuel →
      x.ast order fuel k.name script = some (.ok (.mistake m)) := by
  obtain ⟨a, h1, h2⟩ := run_all h
  cases a with
  | success a => cases h1
  | mistake m => exact ⟨m, h2⟩

/-- One declaration for all, so that the grammar is compiled only once. -/
theorem runs : (okRun (onSuccess fun a => confTB exCfg 60 .program a && equalTextsB a) (baseRun .program (lit "if ab { break }")) &&
    okRun (onSuccess fun a => a.discovery = lit "if ab {") (baseRun .program (lit "if ab {")) &&
    okRun (onSuccess fun a => a.discovery = lit "xy = [") (baseRun .program (lit "xy = [")) &&
    okRun (onSuccess fun a => a.discovery = lit "list<int") (baseRun .program (lit "list<int> xy")) &&
    okRun (onSuccess fun a => a.discovery = lit "break") (baseRun .program (lit "break }")) &&
    okRun onMistake (baseRun .program (lit "}")) &&
    okRun onMistake (baseRun .program (lit "if ab { break")) &&
    okRun (onSuccess fun a => a.discovery = lit "xyz") (baseRun .variableName (lit "xyz = 12"))) = true := by decide +kernel

end Verif.Base
