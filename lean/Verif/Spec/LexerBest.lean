import Verif.Spec.Lexer

/-! # The best line: what the alternatives of an element compete for -/

namespace Verif.Lexer

/-- The lines are tried one after the other; `ms` are their results. -/
inductive LineRuns (env : Env) (fuel : Nat) (deps : List Element) (script : Str) (chans : Bool) :
    List Line → St → List (Option (List BlockMatch)) → St → Prop
  | nil (s : St) : LineRuns env fuel deps script chans [] s [] s
  | cons {l : Line} {ls : List Line} {s s1 s2 : St} {m : Option (List BlockMatch)} {ms : List (Option (List BlockMatch))} :
      lineToMatches env fuel l deps script chans s = some (.ok m, s1) → LineRuns env fuel deps script chans ls s1 ms s2 →
      LineRuns env fuel deps script chans (l :: ls) s (m :: ms) s2

/-- The line at index `i` matched with the blocks `l`, validly and with at least one byte. -/
def GoodLine (ms : List (Option (List BlockMatch))) (i : Nat) (l : List BlockMatch) : Prop :=
  ms[i]? = some (some l) ∧ blocksValid l = true ∧ blocksDiscoveries l ≠ []

/-- The line at index `i` was rejected at a block. -/
def BadLine (ms : List (Option (List BlockMatch))) (i : Nat) (l : List BlockMatch) : Prop :=
  ms[i]? = some (some l) ∧ blocksValid l = false

/-- What the choice of the best line should be: the first of the longest good lines; if there is none, the last rejected
line; if there is none, nothing. -/
inductive BestSpec (ms : List (Option (List BlockMatch))) : Option LineMatch → Prop
  | good {i : Nat} {l : List BlockMatch} : GoodLine ms i l →
      (∀ j l', GoodLine ms j l' → (blocksDiscoveries l').length ≤ (blocksDiscoveries l).length) →
      (∀ j l', GoodLine ms j l' → j < i → (blocksDiscoveries l').length < (blocksDiscoveries l).length) →
      BestSpec ms (some (.mk i l))
  | bad {i : Nat} {l : List BlockMatch} : (∀ j l', ¬ GoodLine ms j l') → BadLine ms i l →
      (∀ j l', BadLine ms j l' → j ≤ i) → BestSpec ms (some (.mk i l))
  | nothing : (∀ j l', ¬ GoodLine ms j l') → (∀ j l', ¬ BadLine ms j l') → BestSpec ms none

end Verif.Lexer
