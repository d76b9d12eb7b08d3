import Verif.Spec.Lexer

/-! # The repetitions which a token reports -/

namespace Verif.Lexer
open Verif.Patterns Verif.Cardinality

/-- One repeated part of a token: its cardinality, the number of repetitions which were found, and whether the part was
considered valid. -/
structure Rep where
  card : Card
  amount : Nat
  valid : Bool

/-! All the repeated parts of a token, at every depth: in must and not parts, in skipped parts and in channels. -/
mutual
def Token.reps : Token → List Rep
  | .mk _ none => []
  | .mk _ (some (.mk m none)) => m.reps
  | .mk _ (some (.mk m (some n))) => m.reps ++ n.reps
def LineMatch.reps : LineMatch → List Rep
  | .mk _ l => blocksReps l
def blocksReps : List BlockMatch → List Rep
  | [] => []
  | b :: bs => b.reps ++ blocksReps bs
def BlockMatch.reps : BlockMatch → List Rep
  | .mk none c => c.reps
  | .mk (some p) c => p.reps ++ c.reps
def BlockContent.reps : BlockContent → List Rep
  | .container m => m.reps
  | .block b => b.reps
  | .next _ => []
def Match.reps : Match → List Rep
  | .token t => t.reps
  | .rule r => [⟨r.card, r.amount, r.isValid⟩]
  | .skipToken t => t.reps
  | .skipRule r => [⟨r.card, r.amount, r.isValid⟩]
  | .line l => l.reps
def TokenMatch.reps : TokenMatch → List Rep
  | .mk n (.mk i c l) sp => ⟨c, l.length, TokenMatch.isValid (.mk n (.mk i c l) sp)⟩ :: tokensReps l
def tokensReps : List Token → List Rep
  | [] => []
  | t :: ts => t.reps ++ tokensReps ts
end

end Verif.Lexer
