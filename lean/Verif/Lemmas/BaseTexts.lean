import Verif.Lemmas.Interpret
import Verif.Lemmas.BaseRuns
import Verif.Lemmas.BaseCheck
import Verif.Props.BaseClear
import Verif.Props.BaseSource
import Verif.Props.BaseApp
import Verif.Props.BaseRuns

/-! # Texts and the programs read from them, by computation -/

set_option maxRecDepth 100000

namespace Verif.Base
open Verif.Patterns Verif.Lexer

/-- The root of the tree conforms, and this run of the parser gives such a program. -/
def readsB (o : List Node → List Node) (g : Root → Program → Bool) (a : AToken) : Bool :=
  confTB exCfg 60 .program a && equalTextsB a &&
  match toRoot a with
  | .ok (some r) => match executeAt (baseEvents exCfg) o 100 r with
    | some (.ok [.other (.program p)]) => g r p
    | _ => false
  | _ => false

theorem readsB_sound {o : List Node → List Node} (ho : ∀ l, (o l).Perm l) {g : Root → Program → Bool} {a : AToken} (h : readsB o g a = true) :
    ∃ r p, toRoot a = .ok (some r) ∧ Conf exCfg .program r ∧ g r p = true ∧ ExecuteRun (baseEvents exCfg) r (.ok [.other (.program p)]) := by
  unfold readsB at h
  rw [Bool.and_eq_true, Bool.and_eq_true] at h
  obtain ⟨⟨h1, h2⟩, h3⟩ := h
  obtain ⟨r, h4, h5, _⟩ := C82_program exCfg a (confTB_sound _ _ _ _ h1) (equalTextsB_sound a h2)
  rw [h4] at h3
  dsimp only at h3
  cases hx : executeAt (baseEvents exCfg) o 100 r with
  | none => rw [hx] at h3; cases h3
  | some x =>
    rw [hx] at h3
    have hx := executeAt_sound ho hx
    match x, h3, hx with
    | .ok [.other (.program p)], h3, hx => exact ⟨r, p, h4, h5, h3, hx⟩

/-- `ab = true`, with the name `true`. -/
def isTrueName : Program → Bool
  | ⟨[.assignment ⟨.name [.var s], [.list (.listValue (.var t))]⟩], none⟩ => decide (s = lit "ab") && decide (t = lit "true")
  | _ => false

/-- The program which assigns a list held by a variable of the name `true`. -/
def trueName : Program := ⟨[.assignment ⟨.name [.var (lit "ab")], [.list (.listValue (.var (lit "true")))]⟩], none⟩

theorem isTrueName_eq {p : Program} (h : isTrueName p = true) : p = trueName := by
  unfold isTrueName at h
  split at h
  · simp only [Bool.and_eq_true, decide_eq_true_eq] at h
    rw [h.1, h.2, trueName]
  · cases h

/-- `ab = x + y`. -/
def sumProgram (x y : Str) : Program := ⟨[.assignment ⟨.name [.var (lit "ab")], [.single (.op (.suffixed (.var x) (.mk 3 (.var y))))]⟩], none⟩

def isSum (x y : Str) : Program → Bool
  | ⟨[.assignment ⟨.name [.var s], [.single (.op (.suffixed (.var x') (.mk n (.var y'))))]⟩], none⟩ =>
    decide (s = lit "ab") && decide (x' = x) && decide (n = 3) && decide (y' = y)
  | _ => false

theorem isSum_eq {x y : Str} {p : Program} (h : isSum x y p = true) : p = sumProgram x y := by
  unfold isSum at h
  split at h
  · simp only [Bool.and_eq_true, decide_eq_true_eq] at h
    obtain ⟨⟨⟨h1, h2⟩, h3⟩, h4⟩ := h
    rw [h1, h2, h3, h4, sumProgram]
  · cases h

/-- `if ab { break }`. -/
def ifProgram : Program := ⟨[.ifDecl (.plain (.var (lit "ab"))) (some [.direction .brk])], none⟩

def isIf : Program → Bool
  | ⟨[.ifDecl (.plain (.var s)) (some [.direction .brk])], none⟩ => decide (s = lit "ab")
  | _ => false

theorem isIf_eq {p : Program} (h : isIf p = true) : p = ifProgram := by
  unfold isIf at h
  split at h
  · simp only [decide_eq_true_eq] at h
    rw [h, ifProgram]
  · cases h

/-- `int ab`. -/
def declProgram : Program := ⟨[.declaration ⟨⟨0, integerFlag⟩, lit "ab"⟩], none⟩

def isDecl : Program → Bool
  | ⟨[.declaration d], none⟩ => decide (d = ⟨⟨0, integerFlag⟩, lit "ab"⟩)
  | _ => false

theorem isDecl_eq {p : Program} (h : isDecl p = true) : p = declProgram := by
  unfold isDecl at h
  split at h
  · simp only [decide_eq_true_eq] at h
    rw [h, declProgram]
  · cases h

theorem text_runs : (okRun (onSuccess fun a => readsB id (fun r p => clearB 60 r && isTrueName p) a) (baseRun .program (lit "ab = true")) &&
    okRun (onSuccess fun a => readsB id (fun r p => clearB 60 r && isIf p) a) (baseRun .program (lit "if ab { break }")) &&
    okRun (onSuccess fun a => readsB id (fun r p => clearB 60 r && isDecl p) a && decide (a.discovery = lit "int ab")) (baseRun .program (lit "int ab = 1")) &&
    okRun (onSuccess fun a => readsB id (fun _ p => isSum (lit "cd") (lit "ef") p) a && readsB List.reverse (fun _ p => isSum (lit "ef") (lit "ef") p) a)
      (baseRun .program (lit "ab = cd + ef"))) = true := by decide +kernel

end Verif.Base
