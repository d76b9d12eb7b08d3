import Mathlib.Data.List.Forall2

/-!
# Go basics shared by all the model modules

Go strings and byte slices are both modelled by `Str`, a list of bytes (Go string indexing, slicing and
`len` are byte based, so this is exact).  Outcomes of calls are explicit: a Go function returning
`(T, error)` is modelled by `Out T`, where `panic` is a run-time panic (index out of range, nil
dereference, ...).  Error messages are not modelled, only the fact that an error is returned.
-/

namespace Verif

/-- A Go `string` or `[]byte`. As in every Go file of the repository, for example `hash/adapter.go:47`. -/
abbrev Str := List UInt8

/-- The bytes of a literal written in the model (all literals used are ASCII). No Go counterpart: a literal of the source, for example `peers/sdk.go`. -/
def lit (s : String) : Str := s.toList.map (fun c => UInt8.ofNat c.toNat)

/-- The outcome of a Go call with result type `(T, error)`. The convention of every fallible function of the repository, for example `hash/adapter.go:47-59`. -/
inductive Out (α : Type _) where
  | ok (a : α)
  | err
  | panic
  deriving DecidableEq, Repr

namespace Out

/-- `x, err := f(); if err != nil { return nil, err }`, for example `hash/adapter.go:48-51`. -/
def bind {α β} : Out α → (α → Out β) → Out β
  | ok a, f => f a
  | err, _ => err
  | panic, _ => panic

instance : Monad Out where
  pure := ok
  bind := bind

@[simp] theorem bind_ok {α β} (a : α) (f : α → Out β) : (Out.ok a >>= f) = f a := rfl
@[simp] theorem bind_err {α β} (f : α → Out β) : ((Out.err : Out α) >>= f) = Out.err := rfl
@[simp] theorem bind_panic {α β} (f : α → Out β) : ((Out.panic : Out α) >>= f) = Out.panic := rfl
@[simp] theorem pure_eq {α} (a : α) : (pure a : Out α) = Out.ok a := rfl
@[simp] theorem map_ok {α β} (f : α → β) (a : α) : f <$> (Out.ok a) = Out.ok (f a) := rfl
@[simp] theorem map_err {α β} (f : α → β) : f <$> (Out.err : Out α) = Out.err := rfl
@[simp] theorem map_panic {α β} (f : α → β) : f <$> (Out.panic : Out α) = Out.panic := rfl

/-- The value, if the call succeeded. No Go counterpart: an observer for the statements, as in `hash/adapter.go:47-59` the first result. -/
def toOption {α} : Out α → Option α
  | ok a => some a
  | _ => none

/-- `err == nil`, as tested for example at `hash/adapter.go:49`. -/
def isOk {α} : Out α → Bool
  | ok _ => true
  | _ => false

theorem bind_eq_ok {α β} {x : Out α} {f : α → Out β} {b : β} :
    (x >>= f) = ok b ↔ ∃ a, x = ok a ∧ f a = ok b := by
  cases x <;> simp

theorem bind_eq_err {α β} {x : Out α} {f : α → Out β} :
    (x >>= f) = err ↔ x = err ∨ ∃ a, x = ok a ∧ f a = err := by
  cases x <;> simp

theorem bind_eq_panic {α β} {x : Out α} {f : α → Out β} :
    (x >>= f) = panic ↔ x = panic ∨ ∃ a, x = ok a ∧ f a = panic := by
  cases x <;> simp

end Out

/-- Go slice indexing `l[i]`: out of range panics. For example `references/adapter.go:116`. -/
def index {α} (l : List α) (i : Nat) : Out α :=
  match l[i]? with
  | some a => .ok a
  | none => .panic

/-- Sequential map that stops at the first failure, as the Go loops
`for … { x, err := f(…); if err != nil { return nil, err }; out = append(out, x) }`. For example `containers/rules/adapter.go:108-121`. -/
def mapOut {α β} (f : α → Out β) : List α → Out (List β)
  | [] => .ok []
  | a :: l => do
    let b ← f a
    let bs ← mapOut f l
    return b :: bs

theorem mapOut_eq_ok {α β} {f : α → Out β} {l : List α} {r : List β} :
    mapOut f l = .ok r ↔ List.Forall₂ (fun a b => f a = .ok b) l r := by
  induction l generalizing r with
  | nil =>
    constructor
    · intro h; simp [mapOut] at h; subst h; exact .nil
    · intro h; cases h; rfl
  | cons a l ih =>
    constructor
    · intro h
      simp only [mapOut, Out.bind_eq_ok] at h
      obtain ⟨b, hb, bs, hbs, hr⟩ := h
      simp at hr; subst hr
      exact .cons hb (ih.mp hbs)
    · intro h
      cases h with
      | cons hb hbs => simp [mapOut, hb, ih.mpr hbs]

/-- `strconv.Itoa` / `strconv.FormatUint` on a non-negative number: decimal digits. Go library; called at `transactions/secrets/secret_builder.go:86` and the like. -/
def itoaNat (n : Nat) : Str := (Nat.toDigits 10 n).map (fun c => UInt8.ofNat c.toNat)

/-- `strconv.Itoa` on an `int`. Go library; called at `transactions/content_builder.go:98` and the like. -/
def itoa (n : Int) : Str :=
  if n < 0 then 45 :: itoaNat n.natAbs else itoaNat n.natAbs

/-- Value of a string of ASCII digits, with an accumulator; `none` on another character. Go library; called at `peers/peer_builder.go:64`, `cardinality/specific_adapter.go:52,61,69`. -/
def digitsVal (acc : Nat) : Str → Option Nat
  | [] => some acc
  | c :: rest => if 48 ≤ c.toNat ∧ c.toNat ≤ 57 then digitsVal (acc * 10 + (c.toNat - 48)) rest else none

/-- A non-empty string of ASCII digits. Go library; called at `peers/peer_builder.go:64`, `cardinality/specific_adapter.go:52,61,69`. -/
def digits1 (s : Str) : Option Nat := if s = [] then none else digitsVal 0 s

/-- `strconv.Atoi`: optional sign, decimal digits, 64-bit range. Go library; called at `peers/peer_builder.go:64`, `cardinality/specific_adapter.go:52,61,69`. -/
def atoi (s : Str) : Out Int :=
  let v : Option Int := match s with
    | 43 :: rest => (digits1 rest).map (fun (n : Nat) => (n : Int))
    | 45 :: rest => (digits1 rest).map (fun (n : Nat) => -(n : Int))
    | _ => (digits1 s).map (fun (n : Nat) => (n : Int))
  match v with
  | none => .err
  | some n => if -2 ^ 63 ≤ n ∧ n < 2 ^ 63 then .ok n else .err

end Verif
