import Verif.Model.Grammar
import Verif.Spec.Lexer

/-!
# The meaning of a grammar of tokens

`GWord ts chans (.tok t) w`: the text `w` is a word of the token `t` in the grammar with the tokens `ts` and the channels
`chans`: an alternative of the token, whose elements stand one behind the other, each repeated as often as its cardinality
allows (exactly once without cardinality); a reference stands for the token of this name; in front of every element there may
be any number of words of the channels. (As in `InElement`, the `not` parts, the specifiers and the switching of the channels
are not considered.)
-/

namespace Verif.Lexer
open Verif.Patterns Verif.Cardinality

inductive GCat where
  | tok (t : GToken)
  | line (l : GLine)
  | elem (e : GElement)
  | gap

inductive GWord (ts chans : List GToken) : GCat → Str → Prop
  | tok {t : GToken} {l : GLine} {w : Str} : l ∈ t.must → GWord ts chans (.line l) w → GWord ts chans (.tok t) w
  | nil : GWord ts chans (.line []) []
  | switch {is : GLine} {w : Str} : GWord ts chans (.line is) w → GWord ts chans (.line (.channelSwitch :: is)) w
  | cons {e : GElement} {is : GLine} {g u v : Str} : GWord ts chans .gap g → GWord ts chans (.elem e) u →
      GWord ts chans (.line is) v → GWord ts chans (.line (.element e :: is)) (g ++ u ++ v)
  | gapNil : GWord ts chans .gap []
  | gapCons {ch : GToken} {u v : Str} : ch ∈ chans → GWord ts chans (.tok ch) u → GWord ts chans .gap v →
      GWord ts chans .gap (u ++ v)
  | ref {e : GElement} {name : Str} {specs : List GSpec} {t : GToken} {ws : List Str} : e.content = .token name specs →
      t ∈ ts → t.name = name → (∀ w ∈ ws, GWord ts chans (.tok t) w) → SpecAllows (e.card.getD .mandatory) ws.length →
      GWord ts chans (.elem e) ws.flatten
  | rule {e : GElement} {r : Rule} {ws : List Str} : e.content = .rule r → (∀ w ∈ ws, RuleText r w) →
      SpecAllows (e.card.getD .mandatory) ws.length → GWord ts chans (.elem e) ws.flatten

/-- The elements in the lines of a token, its `not` lines included. -/
def GToken.lines (t : GToken) : List GLine := t.must ++ t.not.getD []

/-- The token is complete: it has a name and lines, its lines have instructions, and its specifiers have names. -/
def GComplete (t : GToken) : Prop := t.name ≠ [] ∧ t.must ≠ [] ∧ (∀ l ∈ t.lines, l ≠ []) ∧
  ∀ l ∈ t.lines, ∀ e, .element e ∈ l → ∀ name specs, e.content = .token name specs → ∀ s ∈ specs, s.content.name ≠ []

/-- Every reference of the token is to a replaced token, to a token of the grammar, or to one which is found elsewhere. -/
def GDeclared (g : PathEnv) (t : GToken) : Prop :=
  ∀ l ∈ t.lines, ∀ e, .element e ∈ l → ∀ name specs, e.content = .token name specs →
    (∃ r, g.replace name = some r) ∨ (∃ u ∈ g.tokens.list, u.name = name) ∨ (∃ p, g.notFound name = some p)

/-- No line of the token has the token itself as its only element (unless the token is replaced). -/
def GProgress (g : PathEnv) (t : GToken) : Prop := g.replace t.name = none →
  ∀ l ∈ t.lines, ∀ e specs, e.content = .token t.name specs → l.filter (fun i => i ≠ .channelSwitch) ≠ [.element e]

/-- The grammar stands for itself: nothing is replaced and nothing is looked up elsewhere. -/
def GClosed (g : PathEnv) : Prop := (∀ n, g.replace n = none) ∧ ∀ n, g.notFound n = none

/-- Behind an optional element all the elements of the line are optional. -/
def GOptionalTail : GLine → Prop
  | [] => True
  | .channelSwitch :: is => GOptionalTail is
  | .element e :: is => ((e.card.getD .mandatory).isValid 0 = true →
      ∀ e', .element e' ∈ is → (e'.card.getD .mandatory).isValid 0 = true) ∧ GOptionalTail is

/-- A token without recursion: no `not` lines, well-formed rules, optional elements only at the ends of the lines; and the
tokens it mentions are of this kind again. -/
inductive GSimple (ts : List GToken) : GToken → Prop
  | mk {t : GToken} : t.not = none → (∀ l ∈ t.must, GOptionalTail l) →
      (∀ l ∈ t.must, ∀ e, .element e ∈ l → ∀ r, e.content = .rule r → RuleWF r) →
      (∀ l ∈ t.must, ∀ e, .element e ∈ l → ∀ name specs, e.content = .token name specs →
        ∀ u ∈ ts, u.name = name → GSimple ts u) → GSimple ts t

end Verif.Lexer
