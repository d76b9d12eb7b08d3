import Verif.Model.Go

/-! # Entries of lists, by name -/

namespace Verif.Lexer

/-- `a` is the last entry of the list with the name `k`. -/
def LastNamed {α : Type} (name : α → Str) (l : List α) (k : Str) (a : α) : Prop :=
  ∃ pre post, l = pre ++ a :: post ∧ name a = k ∧ ∀ b ∈ post, name b ≠ k

/-- Looking up the name `k` yields the last entry with this name, and an error if there is none. -/
def FindsLast {α : Type} (name : α → Str) (l : List α) (k : Str) (r : Out α) : Prop :=
  (∃ a, r = .ok a ∧ LastNamed name l k a) ∨ (r = .err ∧ ∀ a ∈ l, name a ≠ k)

end Verif.Lexer
