import Verif.Model.Lexer
import Verif.Spec.Patterns
import Verif.Spec.Cardinality

/-!
# What a parse tree of a grammar is (independent of the matching code)

`Token.Conforms env deps e s t`: the token `t` is a parse tree of the element `e` for the beginning of the text `s`.  Only
the observers of the tokens and the texts are used: the must line is one of the lines of the element, its blocks belong to
the containers of this line in order, and every part begins exactly where the text of the previous parts ends.
-/

namespace Verif.Lexer
open Verif.Patterns Verif.Cardinality

/-- A text of a pattern: what its leading choices find somewhere. -/
def PatternText (p : Pattern) (u : Str) : Prop := ∃ s ts, SpecLeading p.choices s ts ∧ ts ≠ [] ∧ u = ts.flatten

/-- A text of a rule: its constant, or some texts of its patterns one behind the other. -/
def RuleText (r : Rule) (u : Str) : Prop :=
  match r.content with
  | .constant c => u = c ∧ c ≠ []
  | .pattern ps _ => ∃ us : List Str, us ≠ [] ∧ u = us.flatten ∧ ∀ x ∈ us, ∃ p ∈ ps, PatternText p x

/-- Texts of patterns which stand one behind the other at the beginning of `s`: each is what the leading choices of a pattern
find at its place. -/
def PatternsFind (ps : List Pattern) : Str → List Str → Prop
  | _, [] => True
  | s, u :: us => (∃ p ∈ ps, ∃ ts, SpecLeading p.choices s ts ∧ ts ≠ [] ∧ u = ts.flatten) ∧ PatternsFind ps (s.drop u.length) us

/-- What a rule finds at the beginning of `s`: its constant, or texts of its patterns. -/
def RuleFindsOne (r : Rule) (s u : Str) : Prop :=
  match r.content with
  | .constant c => u = c ∧ c ≠ []
  | .pattern ps _ => ∃ us : List Str, us ≠ [] ∧ u = us.flatten ∧ PatternsFind ps s us

/-- What a rule finds several times, each time behind the text found before. -/
def RuleFinds (r : Rule) : Str → List Str → Prop
  | _, [] => True
  | s, w :: ws => RuleFindsOne r s w ∧ RuleFinds r (s.drop w.length) ws

/-- The patterns of a rule are well formed. -/
def RuleWF (r : Rule) : Prop :=
  match r.content with
  | .constant _ => True
  | .pattern ps _ => ∀ p ∈ ps, WellFormed p

/-- The first container of a line and the instructions behind it. -/
def nextContainer : Line → Option (PContainer × Line)
  | [] => none
  | .channelSwitch :: is => nextContainer is
  | .container c :: is => some (c, is)

/-- The places where a line may end early: the text is used up and the next container is optional, or the next container is
a recursive token or a group of lines (for which the matcher may find nothing at all). -/
def MayStop (c : PContainer) (s : Str) : Prop :=
  match c with
  | .token _ _ card => s = [] ∧ card.isValid 0 = true
  | .rule _ card => s = [] ∧ card.isValid 0 = true
  | .recursive _ _ _ => True
  | .lines _ => True

/-- The number of repetitions is at most the maximum (a maximum of 0 counts as 1: one repetition is tried, and rejected
later). -/
def AtMost (card : Card) (n : Nat) : Prop := ∀ m, card.delimiter.2 = some m → n ≤ max 1 m.toNat

mutual
def Token.Conforms (chans : List Path) (deps : List Element) (e : Element) (s : Str) : Token → Prop
  | .mk name none => name = e.name
  | .mk name (some (.mk must none)) => name = e.name ∧ must.Conforms chans deps e.must s
  | .mk name (some (.mk must (some nt))) => name = e.name ∧ must.Conforms chans deps e.must s ∧
      nt.Conforms chans deps e.not s

def LineMatch.Conforms (chans : List Path) (deps : List Element) (lines : List Line) (s : Str) : LineMatch → Prop
  | .mk i l => ∃ line, lines[i]? = some line ∧ l ≠ [] ∧
      (blocksValid l = true → blocksDiscoveries l ≠ [] ∧ BlocksConform chans deps line s l)

def BlocksConform (chans : List Path) (deps : List Element) (line : Line) (s : Str) : List BlockMatch → Prop
  | [] => ∀ c rest, nextContainer line = some (c, rest) → MayStop c s
  | b :: bs => ∃ c rest, nextContainer line = some (c, rest) ∧ b.Conforms chans deps c s ∧ b.discoveries <+: s ∧
      BlocksConform chans deps rest (s.drop b.discoveries.length) bs

def BlockMatch.Conforms (chans : List Path) (deps : List Element) (c : PContainer) (s : Str) : BlockMatch → Prop
  | .mk none x => x.Conforms chans deps c s
  | .mk (some p) x => (∃ ch ∈ chans, (ch.element.not = [] → p.isValid = true) ∧
        p.Conforms chans ch.deps ch.element.must s) ∧ p.discoveries <+: s ∧
      x.Conforms chans deps c (s.drop p.discoveries.length)

def BlockContent.Conforms (chans : List Path) (deps : List Element) (c : PContainer) (s : Str) : BlockContent → Prop
  | .container m => s ≠ [] ∧ m.Conforms chans deps c s
  | .block b => b.Conforms chans deps c s
  | .next _ => s = [] ∧ ∃ card, c.cardinality = .ok card ∧ card.isValid 0 = false

def Match.Conforms (chans : List Path) (deps : List Element) (c : PContainer) (s : Str) : Match → Prop
  | .token t => t.Conforms chans deps c s
  | .skipToken t => t.Conforms chans deps c s ∧ ∃ card, c.cardinality = .ok card ∧ card.isValid 0 = true
  | .rule r => c = .rule r.rule r.card ∧ AtMost r.card r.amount ∧ (RuleWF r.rule → RuleFinds r.rule s (r.results.map RuleResult.content))
  | .skipRule r => c = .rule r.rule r.card ∧ r.card.isValid 0 = true
  | .line l => ∃ ls, c = .lines ls ∧ l.Conforms chans deps ls s

def TokenMatch.Conforms (chans : List Path) (deps : List Element) (c : PContainer) (s : Str) : TokenMatch → Prop
  | .mk name r specs => ∃ e card, (c = .token e specs card ∨ (c = .recursive name specs card ∧ fetch deps name = .ok e)) ∧
      name = e.name ∧ r.Conforms chans deps e card s

def TokenResult.Conforms (chans : List Path) (deps : List Element) (e : Element) (card : Card) (s : Str) :
    TokenResult → Prop
  | .mk input card' l => input = s ∧ card' = card ∧ AtMost card l.length ∧ TokensConform chans deps e s l

def TokensConform (chans : List Path) (deps : List Element) (e : Element) (s : Str) : List Token → Prop
  | [] => True
  | t :: ts => t.Conforms chans deps e s ∧ t.isValid = true ∧ t.discoveries <+: s ∧
      TokensConform chans deps e (s.drop t.discoveries.length) ts
end

end Verif.Lexer

/-! ## The language of a grammar

The usual meaning of a grammar: an element is one of its lines, a line is its containers one behind the other, a container
is repeated as often as its cardinality allows.  In front of every container there may be any number of texts of the
channels. (The `not` parts, the specifiers and the switching of the channels are not considered.) -/

namespace Verif.Lexer
open Verif.Patterns Verif.Cardinality

mutual
inductive InElement (chans : List Path) : List Element → Element → Str → Prop
  | mk {deps : List Element} {e : Element} {line : Line} {w : Str} : line ∈ e.must → InLine chans deps line w →
      InElement chans deps e w
inductive InLine (chans : List Path) : List Element → Line → Str → Prop
  | nil {deps : List Element} : InLine chans deps [] []
  | switch {deps : List Element} {is : Line} {w : Str} : InLine chans deps is w → InLine chans deps (.channelSwitch :: is) w
  | cons {deps : List Element} {c : PContainer} {is : Line} {g u v : Str} : InChannels chans g →
      InContainer chans deps c u → InLine chans deps is v → InLine chans deps (.container c :: is) (g ++ u ++ v)
inductive InChannels (chans : List Path) : Str → Prop
  | nil : InChannels chans []
  | cons {ch : Path} {u v : Str} : ch ∈ chans → InElement chans ch.deps ch.element u → InChannels chans v →
      InChannels chans (u ++ v)
inductive InContainer (chans : List Path) : List Element → PContainer → Str → Prop
  | token {deps : List Element} {e : Element} {sp : List Spec} {card : Card} {ws : List Str} :
      (∀ w ∈ ws, InElement chans deps e w) → SpecAllows card ws.length →
      InContainer chans deps (.token e sp card) ws.flatten
  | rule {deps : List Element} {r : Rule} {card : Card} {ws : List Str} : (∀ w ∈ ws, RuleText r w) →
      SpecAllows card ws.length → InContainer chans deps (.rule r card) ws.flatten
  | recursive {deps : List Element} {name : Str} {e : Element} {sp : List Spec} {card : Card} {ws : List Str} :
      fetch deps name = .ok e → (∀ w ∈ ws, InElement chans deps e w) →
      SpecAllows card ws.length → InContainer chans deps (.recursive name sp card) ws.flatten
  | lines {deps : List Element} {ls : List Line} {line : Line} {w : Str} : line ∈ ls → InLine chans deps line w →
      InContainer chans deps (.lines ls) w
end

/-- Behind an optional container all the containers of the line are optional. -/
def OptionalTail : Line → Prop
  | [] => True
  | .channelSwitch :: is => OptionalTail is
  | .container c :: is => (∀ card, c.cardinality = .ok card → card.isValid 0 = true →
      ∀ d, Instruction.container d ∈ is → ∃ k, d.cardinality = .ok k ∧ k.isValid 0 = true) ∧ OptionalTail is

/-! Grammars without `not` parts, recursion and groups of lines. -/
mutual
inductive Plain : Element → Prop
  | mk {name : Str} {must : List Line} : (∀ line ∈ must, ∀ c, Instruction.container c ∈ line → PlainC c) →
      Plain (.mk name must [])
inductive PlainC : PContainer → Prop
  | token {e : Element} {sp : List Spec} {card : Card} : Plain e → PlainC (.token e sp card)
  | rule {r : Rule} {card : Card} : RuleWF r → PlainC (.rule r card)
end

/-! All the lines of a grammar (without recursion) have the property `P`. -/
mutual
inductive AllLines (P : Line → Prop) : Element → Prop
  | mk {name : Str} {must not : List Line} : (∀ line ∈ must, P line) →
      (∀ line ∈ must, ∀ c, Instruction.container c ∈ line → AllLinesC P c) → AllLines P (.mk name must not)
inductive AllLinesC (P : Line → Prop) : PContainer → Prop
  | token {e : Element} {sp : List Spec} {card : Card} : AllLines P e → AllLinesC P (.token e sp card)
  | rule {r : Rule} {card : Card} : AllLinesC P (.rule r card)
end

end Verif.Lexer

/-! ## Grammars on which the matcher ends -/

namespace Verif.Lexer
open Verif.Patterns Verif.Cardinality

/-! No recursive tokens and no groups; a token with a `not` part is not repeated without maximum; without `switches` the
lines have no channel switches. -/
mutual
inductive Ending : Bool → Element → Prop
  | mk {switches : Bool} {name : Str} {must not : List Line} :
      (∀ line ∈ must ++ not, switches = false → Instruction.channelSwitch ∉ line) →
      (∀ line ∈ must ++ not, ∀ c, Instruction.container c ∈ line → EndingC switches c) →
      Ending switches (.mk name must not)
inductive EndingC : Bool → PContainer → Prop
  | token {switches : Bool} {e : Element} {sp : List Spec} {card : Card} : Ending switches e →
      (e.not = [] ∨ card.delimiter.2 ≠ none) → EndingC switches (.token e sp card)
  | rule {switches : Bool} {r : Rule} {card : Card} : RuleWF r → EndingC switches (.rule r card)
end

/-- The chain of the first containers of the first lines, followed by name in the dependencies, ends. -/
inductive FirstEnds (deps : List Element) : Str → Prop
  | mk {name : Str} :
      (∀ e l ls e' sp k, fetch deps name = .ok e → e.must = l :: ls → firstContainer l = some (.token e' sp k) →
        FirstEnds deps e'.name) →
      (∀ e l ls n sp k, fetch deps name = .ok e → e.must = l :: ls → firstContainer l = some (.recursive n sp k) →
        FirstEnds deps n) → FirstEnds deps name

end Verif.Lexer
