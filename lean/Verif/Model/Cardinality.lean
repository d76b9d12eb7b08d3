import Verif.Model.Strings

/-!
# Model of `domain/languages/lexers/cardinality`

A `uint` has 64 bits.
-/

namespace Verif.Cardinality

/-- `cardinality/range.go:3-6`. -/
structure Range where
  min : UInt64
  max : Option UInt64
  deriving DecidableEq, Repr

/-- `cardinality/specific.go:3-6`: exactly one of amount and range is set by the builder. -/
inductive Specific where
  | amount (n : UInt64)
  | range (r : Range)
  deriving DecidableEq, Repr

/-- `cardinality/cardinality.go:3-9`: exactly one of the five fields is set by the builder. -/
inductive Card where
  | optional
  | mandatory
  | nonZeroMultiple
  | zeroMultiple
  | specific (s : Specific)
  deriving DecidableEq, Repr

/-- `cardinality/range_builder.go:35-41`, `Now`. -/
def rangeNow (min : UInt64) (max : Option UInt64) : Out Range :=
  match max with
  | some m => .ok ⟨min, some m⟩
  | none => .ok ⟨min, none⟩

/-- `cardinality/specific_builder.go:39-54`, `Now`. -/
def specificNow (amount : Option UInt64) (rnge : Option Range) : Out Specific :=
  match amount with
  | some a => if a ≤ 0 then .err else .ok (.amount a)
  | none =>
    match rnge with
    | some r => .ok (.range r)
    | none => .err

/-- The fields of `cardinality/builder.go:5-11`. -/
structure Builder where
  isOptional : Bool := false
  isMandatory : Bool := false
  isNonZeroMultiple : Bool := false
  isZeroMultiple : Bool := false
  specific : Option Specific := none

/-- `cardinality/builder.go:61-83`, `Now`. -/
def Builder.now (b : Builder) : Out Card :=
  if b.isOptional then .ok .optional
  else if b.isMandatory then .ok .mandatory
  else if b.isNonZeroMultiple then .ok .nonZeroMultiple
  else if b.isZeroMultiple then .ok .zeroMultiple
  else match b.specific with
    | some s => .ok (.specific s)
    | none => .err

/-- `cardinality/specific.go:45-53`, `Delimiter`. -/
def Specific.delimiter : Specific → UInt64 × Option UInt64
  | .amount n => (n, some n)
  | .range r => (r.min, r.max)

/-- `cardinality/cardinality.go:62-86`, `Delimiter`. -/
def Card.delimiter : Card → UInt64 × Option UInt64
  | .optional => (0, some 1)
  | .mandatory => (1, some 1)
  | .nonZeroMultiple => (1, none)
  | .zeroMultiple => (0, none)
  | .specific s => s.delimiter

/-- `cardinality/cardinality.go:50-59`, `IsValid` (and `cardinality/specific.go:33-42`, which is the same code). -/
def isValidDelim (d : UInt64 × Option UInt64) (amount : UInt64) : Bool :=
  let matchMin : Bool := decide (amount ≥ d.1)
  match d.2 with
  | none => matchMin
  | some max => matchMin && decide (amount ≤ max)

/-- `cardinality/cardinality.go:50-59`, `IsValid`. -/
def Card.isValid (c : Card) (amount : UInt64) : Bool := isValidDelim c.delimiter amount
/-- `cardinality/specific.go:33-42`, `IsValid`. -/
def Specific.isValid (s : Specific) (amount : UInt64) : Bool := isValidDelim s.delimiter amount

/-- `cardinality/sdk.go:8-10,30-32`: the literals. -/
def plusC : UInt8 := 43
/-- `cardinality/sdk.go:8`. -/
def starC : UInt8 := 42
/-- `cardinality/sdk.go:9`. -/
def optC : UInt8 := 63
/-- `cardinality/sdk.go:29`. -/
def openC : UInt8 := 123
/-- `cardinality/sdk.go:30`. -/
def closeC : UInt8 := 125
/-- `cardinality/sdk.go:31`. -/
def commaC : UInt8 := 44

/-- `cardinality/specific_adapter.go:41-43`: remove the first byte of the trimmed content `t` if the untrimmed content begins with
the brace.  A slice of an empty string would panic. -/
def stripOpen (content t : Str) : Out Str :=
  if [openC] <+: content then (match t with | [] => .panic | _ :: r => .ok r) else .ok t

/-- `cardinality/specific_adapter.go:45-47`: the same for the last byte. -/
def stripClose (content t : Str) : Out Str :=
  if [closeC] <:+ content then (if t = [] then .panic else .ok t.dropLast) else .ok t

/-- `cardinality/specific_adapter.go:49-85`: everything behind the removal of the braces. -/
def parseSpecific (t : Str) : Out Specific :=
  match splitSep commaC [] t with
  | [a] => do
    let n ← atoi a
    specificNow (some (UInt64.ofInt n)) none
  | [a, b] => do
    let min ← atoi a
    let b := trimSpace b
    if b ≠ [] then do
      let max ← atoi b
      let r ← rangeNow (UInt64.ofInt min) (some (UInt64.ofInt max))
      specificNow none (some r)
    else do
      let r ← rangeNow (UInt64.ofInt min) none
      specificNow none (some r)
  | _ => specificNow none none

/-- `cardinality/specific_adapter.go:39-86`, `ToSpecific`. -/
def toSpecific (content : Str) : Out Specific := do
  let t ← stripOpen content (trimSpace content)
  let t ← stripClose content t
  parseSpecific t

/-- `cardinality/specific_adapter.go:89-103`, `ToPatternString`. -/
def specificStr : Specific → Str
  | .amount n => [openC] ++ itoaNat n.toNat ++ [closeC]
  | .range ⟨min, some max⟩ => [openC] ++ itoaNat min.toNat ++ [commaC] ++ itoaNat max.toNat ++ [closeC]
  | .range ⟨min, none⟩ => [openC] ++ itoaNat min.toNat ++ [commaC] ++ [closeC]

/-- `cardinality/adapter.go:34-55`, `ToCardinality`. -/
def toCardinality (content : Str) : Out Card :=
  let t := trimSpace content
  if t = [plusC] then Builder.now { isNonZeroMultiple := true }
  else if t = [starC] then Builder.now { isZeroMultiple := true }
  else if t = [optC] then Builder.now { isOptional := true }
  else do
    let s ← toSpecific t
    Builder.now { specific := some s }

/-- `cardinality/adapter.go:58-73`, `ToPatternString`: a mandatory cardinality has no specific part, so the call on the nil
interface panics. -/
def toPatternString : Card → Out Str
  | .optional => .ok [optC]
  | .nonZeroMultiple => .ok [plusC]
  | .zeroMultiple => .ok [starC]
  | .mandatory => .panic
  | .specific s => .ok (specificStr s)

end Verif.Cardinality
