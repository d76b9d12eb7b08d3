import Verif.Model.Go
import Lean

/-!
# Texts as explicit lists of bytes

The kernel is slow with the characters of string literals; `bytes% "…"` is the list of the bytes of a text and the simplification procedure `litBytes`
replaces `lit "…"` by it.
-/

namespace Verif
open Lean Meta Elab

theorem lit_ofList (l : List Char) : lit (String.ofList l) = l.map (fun c => UInt8.ofNat c.toNat) := by
  unfold lit; rw [String.toList_ofList]

/-- The list of the bytes of a text. -/
def mkBytes (s : String) : Expr := toExpr (s.toList.map (fun c => UInt8.ofNat c.toNat))

elab "bytes% " s:str : term => do
  return mkBytes s.getString

/-- The proof of `lit "…" = bytes% "…"`. -/
def mkLitProof (s : String) : MetaM Expr := do
  let lhs := mkApp (mkConst ``Verif.lit) (mkRawStrLit s)
  let type ← mkEq lhs (mkBytes s)
  mkExpectedTypeHint (mkApp (mkConst ``Verif.lit_ofList) (toExpr s.toList)) type
where mkRawStrLit (s : String) : Expr := .lit (.strVal s)

simproc_decl litBytes (Verif.lit _) := fun e => do
  match e.appArg! with
  | .lit (.strVal s) => return .done { expr := mkBytes s, proof? := some (← mkLitProof s) }
  | _ => return .continue

end Verif
