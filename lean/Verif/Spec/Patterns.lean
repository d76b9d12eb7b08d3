import Verif.Model.Patterns

/-!
# What the patterns mean (independent of the matching code)
-/

namespace Verif.Patterns

/-- A non-empty element of the group begins at the front of `s`. -/
def SpecStarts (list : List Str) (s : Str) : Prop := ∃ e ∈ list, e ≠ [] ∧ e <+: s

/-- `t` is the longest of the non-empty elements with which `s` begins. -/
def SpecLongest (list : List Str) (s t : Str) : Prop :=
  t ∈ list ∧ t ≠ [] ∧ t <+: s ∧ ∀ e ∈ list, e <+: s → e.length ≤ t.length

/-- A serie: one longest element per group, one behind the other. -/
inductive SpecSerie : List Group → Str → List Str → Str → Prop
  | nil (s : Str) : SpecSerie [] s [] s
  | cons {g : Group} {gs : List Group} {t s r : Str} {ts : List Str} :
      SpecLongest g.list (t ++ s) t → SpecSerie gs s ts r → SpecSerie (g :: gs) (t ++ s) (t :: ts) r

/-- A reversed serie: everything up to the first place where an element of its first group begins, or up to the end. -/
def SpecReverse (serie : Serie) (s t r : Str) : Prop :=
  ∃ g gs, serie.groups = g :: gs ∧ s = t ++ r ∧ t ≠ [] ∧ (∀ i < t.length, ¬ SpecStarts g.list (s.drop i)) ∧
    (r = [] ∨ SpecStarts g.list r)

/-- A choice finds the texts `ts` at the front of `s` and leaves `r`. -/
def SpecChoice (c : Choice) (s : Str) (ts : List Str) (r : Str) : Prop :=
  if c.isReverse then ∃ t, ts = [t] ∧ SpecReverse c.serie s t r
  else SpecSerie c.serie.groups s ts r

/-- The texts found by the leading choices of a pattern up to the first one that finds nothing. -/
inductive SpecLeading : List Choice → Str → List Str → Prop
  | nil (s : Str) : SpecLeading [] s []
  | stop {c : Choice} {cs : List Choice} {s : Str} :
      (∀ ts r, ¬ SpecChoice c s ts r) → SpecLeading (c :: cs) s []
  | cons {c : Choice} {cs : List Choice} {s r : Str} {ts us : List Str} :
      SpecChoice c s ts r → SpecLeading cs r us → SpecLeading (c :: cs) s (ts ++ us)

/-- All the choices, one behind the other. -/
inductive SpecAll : List Choice → Str → List Str → Str → Prop
  | nil (s : Str) : SpecAll [] s [] s
  | cons {c : Choice} {cs : List Choice} {s r r' : Str} {ts us : List Str} :
      SpecChoice c s ts r → SpecAll cs r us r' → SpecAll (c :: cs) s (ts ++ us) r'

/-- The series of a pattern are not empty (the builder guarantees it, see `C34_builders`). -/
def WellFormed (p : Pattern) : Prop := p.choices ≠ [] ∧ ∀ c ∈ p.choices, c.serie.groups ≠ []

end Verif.Patterns
