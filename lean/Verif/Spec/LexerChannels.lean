import Verif.Model.Lexer

/-! # Lines of constants with channel switches, and the texts they stand for -/

namespace Verif.Lexer

/-- A line of mandatory constants (`some c`) and channel switches (`none`). -/
def IsConstLine : List (Option Str) → Line → Prop
  | [], l => l = []
  | none :: is, l => ∃ l', l = .channelSwitch :: l' ∧ IsConstLine is l'
  | some c :: is, l => ∃ r l', l = .container (.rule r .mandatory) :: l' ∧ r.content = .constant c ∧ IsConstLine is l'

/-- The texts of such a line with the channel text `z`: in front of a constant there are `j` copies of the channel text. As long
as the channels are on any number of copies is allowed. Behind a first switch at most one copy is allowed in front of the next
constant, and then none for the rest of the line. -/
inductive SwitchText (z : Str) : Bool → Bool → List (Option Str) → Str → Prop
  | nil {open_ on : Bool} : SwitchText z open_ on [] []
  | switch {open_ on : Bool} {is : List (Option Str)} {w : Str} : SwitchText z open_ (!on) is w →
      SwitchText z open_ on (none :: is) w
  | const {open_ on : Bool} {c : Str} {is : List (Option Str)} {w : Str} {j : Nat} : (open_ = false → j = 0) →
      (on = false → j ≤ 1) → SwitchText z (open_ && on) on is w →
      SwitchText z open_ on (some c :: is) ((List.replicate j z).flatten ++ c ++ w)

/-- The only channel is a token with one line, the constant `z`. -/
def ConstChannel (env : Env) (z : Str) : Prop := z ≠ [] ∧ ∃ zn rz zd, zn ≠ [] ∧ rz.content = .constant z ∧
  ∀ k, env.channels k = [⟨.mk zn [[.container (.rule rz .mandatory)]] [], zd⟩]

/-- The root is a token with one line of constants and switches. -/
def ConstRoot (env : Env) (items : List (Option Str)) : Prop :=
  ∃ name line, name ≠ [] ∧ IsConstLine items line ∧ env.root.element = .mk name [line] []

/-- The constants are not empty, and none of them begins with the channel text or is a beginning of it. -/
def ConstsFit (z : Str) (items : List (Option Str)) : Prop := ∀ c, some c ∈ items → c ≠ [] ∧ ¬ z <+: c ∧ ¬ c <+: z

end Verif.Lexer
