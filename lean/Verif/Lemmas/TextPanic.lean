import Verif.Model.Text
import Verif.Props.Containers
import Verif.Props.Cardinality

/-! Helper lemmas: what cannot panic. -/

namespace Verif.Text
open Verif.Regex Verif.Patterns Verif.Cardinality Verif.Lexer

theorem bind_no_panic {α β : Type} {x : Out α} {f : α → Out β} (h1 : x ≠ .panic) (h2 : ∀ a, x = .ok a → f a ≠ .panic) : (x >>= f) ≠ .panic := by
  cases x with
  | ok a => simpa using h2 a rfl
  | err => simp
  | panic => exact absurd rfl h1

theorem map_no_panic {α β : Type} {x : Out α} {f : α → β} (h1 : x ≠ .panic) : (f <$> x) ≠ .panic := by
  cases x with
  | ok a => simp
  | err => simp
  | panic => exact absurd rfl h1

theorem mapOut_no_panic {α β : Type} {f : α → Out β} {l : List α} (h : ∀ a ∈ l, f a ≠ .panic) : mapOut f l ≠ .panic := by
  induction l with
  | nil => simp [mapOut]
  | cons a l ih =>
    simp only [mapOut]
    refine bind_no_panic (h a List.mem_cons_self) (fun b _ => bind_no_panic (ih (fun x hx => h x (List.mem_cons_of_mem _ hx))) (fun c _ => ?_))
    simp

theorem goFind_no_panic {α : Type} (m : GoMap α) (k : Str) : m.find k ≠ .panic := by
  unfold GoMap.find
  split <;> simp

end Verif.Text
