import Verif.Model.Lexer

/-!
# The parts of a token
-/

namespace Verif.Lexer
open Verif

mutual
/-- The matches of tokens of which the text of a token consists, on all levels: those in the chosen lines, in the order of the text, but neither those in channels,
nor those which were skipped. -/
def Token.parts : Token → List TokenMatch
  | .mk _ none => []
  | .mk _ (some (.mk m _)) => m.parts
def LineMatch.parts : LineMatch → List TokenMatch
  | .mk _ l => blocksParts l
def blocksParts : List BlockMatch → List TokenMatch
  | [] => []
  | b :: bs => b.parts ++ blocksParts bs
def BlockMatch.parts : BlockMatch → List TokenMatch
  | .mk _ c => c.parts
def BlockContent.parts : BlockContent → List TokenMatch
  | .container m => m.parts
  | .block b => b.parts
  | .next _ => []
def Match.parts : Match → List TokenMatch
  | .token (.mk n (.mk i c l) sp) => .mk n (.mk i c l) sp :: tokensParts l
  | _ => []
def tokensParts : List Token → List TokenMatch
  | [] => []
  | t :: ts => t.parts ++ tokensParts ts
end

/-- The token was made from an element without alternatives which must not match. -/
def Token.Plain (t : Token) : Prop := ∀ c, t.content = some c → c.not = none

/-- Neither the token nor one of its parts has alternatives which must not match. -/
def Token.AllPlain (t : Token) : Prop := t.Plain ∧ ∀ m ∈ t.parts, ∀ u ∈ m.result.list, u.Plain

/-- What `Input` gives for a part of the grammar which was tried on a text. -/
def inputOf : PContainer → Str → Out Str
  | .rule r _, _ => .ok r.code
  | .token _ _ _, text => .ok text
  | .recursive _ _ _, text => .ok text
  | .lines _, _ => .panic

end Verif.Lexer
