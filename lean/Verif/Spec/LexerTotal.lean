import Verif.Spec.Derivation

/-!
# Grammars whose left recursion is guarded

The matcher remembers, for each token, the text at which it was last tried recursively, and gives up when it meets the same token
at the same text again. A class of tokens which begin with each other is safe if this memory cannot be lost in between.
-/

namespace Verif.Lexer
open Verif.Patterns Verif.Cardinality

/-- The token with the name `a` mentions the name `b`. -/
def MentionsName (ts : List GToken) (a b : Str) : Prop :=
  ∃ t ∈ ts, t.name = a ∧ ∃ l ∈ t.must, ∃ e, .element e ∈ l ∧ ∃ specs, e.content = .token b specs

/-- From the token `a` the token `b` can be reached (in any number of steps). -/
def ReachesName (ts : List GToken) : Str → Str → Prop := Relation.ReflTransGen (MentionsName ts)

/-- The elements of a line. -/
def GLine.Has (l : GLine) (u : Str) : Prop := ∃ e, .element e ∈ l ∧ ∃ specs, e.content = .token u specs

/-- `e` is an element of the line `l` of `t` in front of which nothing needs to be read; `before` are the lines of `t` in front of `l`, and `pre`
is the part of `l` in front of `e`. -/
structure LeftPart (t : GToken) (before : List GLine) (pre : GLine) (e : GElement) : Prop where
  at_ : ∃ post after, t.must = before ++ (pre ++ .element e :: post) :: after
  optional : ∀ x, .element x ∈ pre → SpecAllows x.times 0

/-- `rank` numbers the classes of tokens which may begin with each other: what a token begins with is of a lower class, or of the own class; but then
nothing which is tried before it (the lines before, and the optional elements before it in its line) may lead to a token of this class, and there is
no channel switch before it. The first elements of the first lines lead to rules. -/
structure WellGuarded (ts : List GToken) (rank first : Str → Nat) : Prop where
  ordinary : ∀ t ∈ ts, t.not = none ∧ RulesOk t
  first : ∀ t ∈ ts, ∀ pre e post after, t.must = (pre ++ .element e :: post) :: after → (∀ x, .element x ∉ pre) →
    ∀ u specs, e.content = .token u specs → first u < first t.name
  left : ∀ t ∈ ts, ∀ before pre e, LeftPart t before pre e → ∀ u specs, e.content = .token u specs →
    rank u < rank t.name ∨ (rank u = rank t.name ∧ .channelSwitch ∉ pre ∧
      ∀ l, l = pre ∨ l ∈ before → ∀ v, GLine.Has l v → ∀ w, ReachesName ts v w → rank w ≠ rank t.name)

end Verif.Lexer
