import Verif.Spec.Lexer

/-!
# How a grammar without recursion reads a text

`e.Reads gap ch s o`: the element `e` reads `o` at the beginning of the text `s` (`none`: it reads nothing). No matches, states or steps occur
here, only texts. A line reads its containers one behind the other; a container is repeated as long as it reads something, but not more often
than its maximum; if the number of repetitions is not allowed it is skipped if it may be absent, and otherwise the line reads nothing; of
the lines the longest one counts. `gap` is what the channels read in front of a container.
-/

namespace Verif.Lexer
open Verif.Patterns Verif.Cardinality

/-- A way to read the beginning of a text. -/
abbrev Reader := Str → Option Str → Prop

/-- The maximum of a cardinality. -/
def maximum : Card → Option Nat
  | .optional => some 1
  | .mandatory => some 1
  | .nonZeroMultiple => none
  | .zeroMultiple => none
  | .specific (.amount k) => some k.toNat
  | .specific (.range ⟨_, m⟩) => m.map UInt64.toNat

/-- How often a container is tried: up to its maximum, but at least once. -/
def tries (card : Card) : Option Nat := (maximum card).map (max 1)

/-- How often the patterns of a rule are tried: up to the maximum of the rule; a maximum from 2^63 on counts as 0 (C37). -/
def patternTries (card : Card) : Option Nat := (maximum card).map fun m => if m < 2 ^ 63 then m else 0

/-- Read again and again, each time behind what was read before, until nothing is read or the limit is reached. -/
inductive Repeats (R : Reader) : Option Nat → Str → List Str → Prop
  | full {s : Str} : Repeats R (some 0) s []
  | stop {lim : Option Nat} {s : Str} : R s none → Repeats R lim s []
  | more {lim : Option Nat} {s w : Str} {ws : List Str} : lim ≠ some 0 → R s (some w) →
      Repeats R (lim.map (· - 1)) (s.drop w.length) ws → Repeats R lim s (w :: ws)

/-- The first of the patterns which finds something at the beginning of the text. -/
def PatternReads (ps : List Pattern) : Reader := fun s o =>
  match o with
  | some w => ∃ pre p post ts, ps = pre ++ p :: post ∧ (∀ q ∈ pre, SpecLeading q.choices s []) ∧ SpecLeading p.choices s ts ∧ ts ≠ [] ∧
      w = ts.flatten
  | none => ∀ p ∈ ps, SpecLeading p.choices s []

/-- One result of a rule: its constant, or its patterns as often as possible. -/
def RuleReads (r : Rule) : Reader := fun s o =>
  match r.content with
  | .constant c => (c ≠ [] ∧ c <+: s ∧ o = some c) ∨ (¬ (c ≠ [] ∧ c <+: s) ∧ o = none)
  | .pattern ps card => ∃ ws, Repeats (PatternReads ps) (patternTries card) s ws ∧ o = if ws = [] then none else some ws.flatten

/-- What the repetitions `ws` of a container amount to. -/
def Judged (card : Card) (ws : List Str) (o : Option Str) : Prop :=
  (SpecAllows card ws.length ∧ o = some ws.flatten) ∨
  (¬ SpecAllows card ws.length ∧ SpecAllows card 0 ∧ o = some []) ∨
  (¬ SpecAllows card ws.length ∧ ¬ SpecAllows card 0 ∧ o = none)

/-- The constant of the rule was read at least once, may be read again, and occurs again in the rest of the text, but not at its beginning: then the
line is lost (C57). -/
def Lost (r : Rule) (card : Card) (s : Str) (ws : List Str) : Prop :=
  ∃ c, r.content = .constant c ∧ c ≠ [] ∧ ws ≠ [] ∧ tries card ≠ some ws.length ∧ c <:+: s.drop ws.flatten.length

/-- A repeated rule. -/
def RuleRepeated (r : Rule) (card : Card) : Reader := fun s o =>
  ∃ ws, Repeats (RuleReads r) (tries card) s ws ∧ ((Lost r card s ws ∧ o = none) ∨ (¬ Lost r card s ws ∧ Judged card ws o))

/-- What a container of a line does: it ends the line, or it reads something (or nothing, then the line reads nothing). -/
inductive Outcome where
  | stop
  | read (o : Option Str)

/-- A container in a line, with the texts of the channels in front of it. At the end of the text an optional container ends the line. With
channels (`ch`) a text of the channels is read first, and then, if `next`, further ones; but if the text ends behind it and the
container is optional, then the container is read in front of it. -/
inductive BlockReads (gap : Reader) (R : Bool → Reader) (optional : Prop) (next : Bool) : Bool → Str → Outcome → Prop
  | endOptional {ch : Bool} : optional → BlockReads gap R optional next ch [] .stop
  | endMissing {ch : Bool} : ¬ optional → BlockReads gap R optional next ch [] (.read none)
  | off {s : Str} {o : Option Str} : s ≠ [] → R next s o → BlockReads gap R optional next false s (.read o)
  | noGap {s : Str} {o : Option Str} : s ≠ [] → gap s none → R next s o → BlockReads gap R optional next true s (.read o)
  | gap {s g : Str} {o : Option Str} : s ≠ [] → gap s (some g) → BlockReads gap R optional next next (s.drop g.length) (.read o) →
      BlockReads gap R optional next true s (.read (o.map (g ++ ·)))
  | gapEnd {s g : Str} {o : Option Str} : s ≠ [] → gap s (some g) → BlockReads gap R optional next next (s.drop g.length) .stop →
      R next s o → BlockReads gap R optional next true s (.read o)

/-- The longest of the texts read by the lines; reading the empty text does not count. -/
def BestRead (os : List (Option Str)) (o : Option Str) : Prop :=
  match o with
  | some w => some w ∈ os ∧ w ≠ [] ∧ ∀ v, some v ∈ os → v.length ≤ w.length
  | none => ∀ v, some v ∈ os → v = []

/-- The container may be absent. -/
def PContainer.Optional : PContainer → Prop
  | .token _ _ card => SpecAllows card 0
  | .rule _ card => SpecAllows card 0
  | .recursive _ _ card => SpecAllows card 0
  | .lines _ => False

mutual
/-- An element (without `not` lines). -/
def Element.Reads (gap : Reader) : Element → Bool → Reader
  | .mk _ must _, ch => fun s o => ∃ os, LinesRead gap must ch s os ∧ BestRead os o
/-- All the lines, each on the same text. -/
def LinesRead (gap : Reader) : List Line → Bool → Str → List (Option Str) → Prop
  | [], _, _, os => os = []
  | l :: ls, ch, s, os => ∃ o os', os = o :: os' ∧ LineReads gap l ch ch s o ∧ LinesRead gap ls ch s os'
/-- One line. Behind a container which was read with `next` off there are no channels any more. -/
def LineReads (gap : Reader) : Line → Bool → Bool → Reader
  | [], _, _ => fun _ o => o = some []
  | .channelSwitch :: is, ch, next => LineReads gap is ch (!next)
  | .container c :: is, ch, next => fun s o => ∃ x, BlockReads gap (c.Reads gap) c.Optional next ch s x ∧
      match x with
      | .stop => o = some []
      | .read none => o = none
      | .read (some u) => ∃ o', LineReads gap is (if next then ch else false) next (s.drop u.length) o' ∧ o = o'.map (u ++ ·)
/-- One container, repeated. -/
def PContainer.Reads (gap : Reader) : PContainer → Bool → Reader
  | .token e _ card, ch => fun s o => ∃ ws, Repeats (e.Reads gap ch) (tries card) s ws ∧ Judged card ws o
  | .rule r card, _ => RuleRepeated r card
  | .recursive _ _ _, _ => fun _ _ => False
  | .lines _, _ => fun _ _ => False
end

/-- Nothing is read. -/
def noGap : Reader := fun _ o => o = none

/-- The first of the channels which reads something. -/
def GapReads : List Path → Reader
  | [] => fun _ o => o = none
  | p :: ps => fun s o => ∃ x, p.element.Reads noGap false s x ∧
      match x with
      | some w => o = some w
      | none => GapReads ps s o

/-! Grammars without recursion, `not` lines, groups of lines and specifiers; without `switches` there are no channel switches. -/
mutual
inductive Readable : Bool → Element → Prop
  | mk {sw : Bool} {name : Str} {must : List Line} : (∀ line ∈ must, sw = false → Instruction.channelSwitch ∉ line) →
      (∀ line ∈ must, ∀ c, Instruction.container c ∈ line → ReadableC sw c) → Readable sw (.mk name must [])
inductive ReadableC : Bool → PContainer → Prop
  | token {sw : Bool} {e : Element} {card : Card} : Readable sw e → ReadableC sw (.token e [] card)
  | rule {sw : Bool} {r : Rule} {card : Card} : RuleWF r → ReadableC sw (.rule r card)
end

/-! ## The order of the alternatives -/

/-- The lines are written in another order, here or in the tokens inside. -/
inductive Reordered : Element → Element → Prop
  | lines {name : Str} {must must' not : List Line} : must.Perm must' → Reordered (.mk name must not) (.mk name must' not)
  | inside {name : Str} {pre post : List Line} {l l' : Line} {e e' : Element} {specs : List Spec} {card : Card} {not : List Line} : Reordered e e' →
      Reordered (.mk name (pre ++ (l ++ .container (.token e specs card) :: l') :: post) not)
        (.mk name (pre ++ (l ++ .container (.token e' specs card) :: l') :: post) not)
  | trans {e e' e'' : Element} : Reordered e e' → Reordered e' e'' → Reordered e e''

end Verif.Lexer
