import Verif.Model.Ast

/-!
# What an AST keeps of a token, and where a mistake is
-/

namespace Verif.Lexer
open Verif.Patterns Verif.Cardinality

/-! The matches of a token in the order of the source; those of the channels are in front of what they precede. -/
mutual
def blocksLeaves : List BlockMatch → List Match
  | [] => []
  | b :: bs => b.leaves ++ blocksLeaves bs
def BlockMatch.leaves : BlockMatch → List Match
  | .mk none c => c.leaves
  | .mk (some (.mk _ p)) c => blocksLeaves p ++ c.leaves
def BlockContent.leaves : BlockContent → List Match
  | .container m => m.leaves
  | .block b => b.leaves
  | .next _ => []
def Match.leaves : Match → List Match
  | .line (.mk _ l) => blocksLeaves l
  | m => [m]
end

def Token.leaves : Token → List Match
  | .mk _ none => []
  | .mk _ (some c) => blocksLeaves c.must.list

/-- The discoveries of the results of a rule, up to the first result without matches. -/
def ruleDiscoveries : List RuleResult → List Discovery
  | [] => []
  | r :: rs => match r.results with
    | none => []
    | some l => l.flatMap Result.discoveries ++ ruleDiscoveries rs

/-! The AST token has the name of the token, the number of its line and, in the order of the source, its matches, except for the
optional ones which are not there. -/
mutual
inductive Mirror : Token → AToken → Prop
  | mk {name : Str} {i : Nat} {l : List BlockMatch} {n : Option LineMatch} {ms : List AMatch} :
      MirrorMatches (blocksLeaves l) ms → Mirror (.mk name (some (.mk (.mk i l) n))) (.mk name i ms)
inductive MirrorMatches : List Match → List AMatch → Prop
  | nil : MirrorMatches [] []
  | skipToken {t : TokenMatch} {l : List Match} {ms : List AMatch} : MirrorMatches l ms → MirrorMatches (.skipToken t :: l) ms
  | skipRule {r : RuleMatch} {l : List Match} {ms : List AMatch} : MirrorMatches l ms → MirrorMatches (.skipRule r :: l) ms
  | noToken {name inp : Str} {card : Card} {specs : List Spec} {l : List Match} {ms : List AMatch} : MirrorMatches l ms →
      MirrorMatches (.token (.mk name (.mk inp card []) specs) :: l) ms
  | noRule {r : RuleMatch} {l : List Match} {ms : List AMatch} : ruleDiscoveries r.results = [] → MirrorMatches l ms →
      MirrorMatches (.rule r :: l) ms
  | token {name inp : Str} {card : Card} {specs : List Spec} {ts : List Token} {as : List AToken} {l : List Match}
      {ms : List AMatch} : ts ≠ [] → MirrorTokens ts as → MirrorMatches l ms →
      MirrorMatches (.token (.mk name (.mk inp card ts) specs) :: l) (.token name as :: ms)
  | rule {r : RuleMatch} {x : AResult} {l : List Match} {ms : List AMatch} : x.discoveries = ruleDiscoveries r.results →
      x.discoveries ≠ [] → x.input = r.rule.code → MirrorMatches l ms → MirrorMatches (.rule r :: l) (.rule r.rule.name x :: ms)
inductive MirrorTokens : List Token → List AToken → Prop
  | nil : MirrorTokens [] []
  | cons {t : Token} {a : AToken} {ts : List Token} {as : List AToken} : Mirror t a → MirrorTokens ts as →
      MirrorTokens (t :: ts) (a :: as)
end

/-- `Under t names u`: `u` is a token inside `t` (or `t` itself), and `names` are the names of the tokens around `u`, from the
outside to the inside. -/
inductive Under : Token → List Str → Token → Prop
  | self (t : Token) : Under t [] t
  | sub {t u v : Token} {names : List Str} {name inp : Str} {card : Card} {specs : List Spec} {ts : List Token} :
      Match.token (.mk name (.mk inp card ts) specs) ∈ t.leaves → u ∈ ts → Under u names v → Under t (t.name :: names) v

/-- A mistake of a token is that of the token itself or of a rule directly in it. -/
inductive Concerns (t : Token) : PathContainer → Prop
  | token : Concerns t (.token t.name)
  | rule {r : RuleMatch} : Match.rule r ∈ t.leaves → Concerns t (.rule r.rule.name)

end Verif.Lexer
