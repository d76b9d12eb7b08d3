import Verif.Spec.Grammar
import Mathlib.Logic.Relation

/-!
# Derivation trees of a grammar

`Tree ts chans Cut t s a count`: the syntax tree `a` derives a beginning of the text `s` from the token `t` of the grammar with the
tokens `ts` and the channels `chans`. Its root has the name of `t` and the number of one of the lines of `t`; its children are the
parts of this line, in the order of the line, each as often as its cardinality allows and its specifiers demand, with trees of the
channels in between; each child begins where the one before it ends, and the text of a rule is what this rule finds at its place. The line may be given up in front of an element `e`, all the
rest of it missing, only if `Cut t e` holds for the remaining text. `count n` is the number of own parts (not those of the channels) with
the name `n`.
-/

namespace Verif.Lexer
open Verif.Patterns Verif.Cardinality

/-- `u` is mentioned by `t`. -/
def GMention (ts : List GToken) (u t : GToken) : Prop :=
  u ∈ ts ∧ ∃ l ∈ t.must, ∃ e, .element e ∈ l ∧ ∃ specs, e.content = .token u.name specs

/-- The cardinality of an element; without one it is mandatory. -/
def GElement.times (e : GElement) : Card := e.card.getD .mandatory

section
variable (ts chans : List GToken) (Cut : GToken → GElement → Str → Prop)
mutual
/-- A tree of a token; it is not empty. -/
inductive Tree : GToken → Str → AToken → (Str → Nat) → Prop
  | mk {t : GToken} {i : Nat} {l : GLine} {s : Str} {ms : List AMatch} {count : Str → Nat} : t.must[i]? = some l →
      matchesDiscovery ms ≠ [] → TreeLine t l s ms count → Tree t s (.mk t.name i ms) count
/-- Trees of one token, one behind the other. -/
inductive Trees : GToken → Str → List AToken → (Str → Nat) → Prop
  | nil {t : GToken} {s : Str} : Trees t s [] (fun _ => 0)
  | cons {t : GToken} {s rest : Str} {a : AToken} {as : List AToken} {c c' : Str → Nat} : s = a.discovery ++ rest → Tree t s a c →
      Trees t rest as c' → Trees t s (a :: as) (fun n => c n + c' n)
/-- The parts of a line. -/
inductive TreeLine : GToken → GLine → Str → List AMatch → (Str → Nat) → Prop
  | done {t : GToken} {s : Str} : TreeLine t [] s [] (fun _ => 0)
  | switch {t : GToken} {is : GLine} {s : Str} {ms : List AMatch} {c : Str → Nat} : TreeLine t is s ms c →
      TreeLine t (.channelSwitch :: is) s ms c
  | absent {t : GToken} {e : GElement} {is : GLine} {s rest : Str} {g ms : List AMatch} {c : Str → Nat} :
      SpecAllows e.times 0 → TreeGap s g → s = matchesDiscovery g ++ rest → TreeLine t is rest ms c →
      TreeLine t (.element e :: is) s (g ++ ms) c
  | token {t u : GToken} {e : GElement} {specs : List GSpec} {is : GLine} {s s' rest : Str} {g ms : List AMatch}
      {as : List AToken} {k c : Str → Nat} : TreeGap s g → s = matchesDiscovery g ++ s' →
      e.content = .token u.name specs → u ∈ ts → as ≠ [] → SpecAllows e.times as.length → Trees u s' as k →
      (∀ sp ∈ specs, SpecAllows (.specific sp.card) (k sp.content.name)) → s' = aTokensDiscovery as ++ rest →
      TreeLine t is rest ms c →
      TreeLine t (.element e :: is) s (g ++ .token u.name as :: ms) (fun n => (if u.name = n then as.length else 0) + c n)
  | rule {t : GToken} {e : GElement} {r : Rule} {is : GLine} {s s' rest : Str} {g ms : List AMatch} {ws : List Str} {x : AResult}
      {c : Str → Nat} : TreeGap s g → s = matchesDiscovery g ++ s' →
      e.content = .rule r → ws ≠ [] → RuleFinds r s' ws → SpecAllows e.times ws.length → x.content = ws.flatten →
      s' = ws.flatten ++ rest → TreeLine t is rest ms c →
      TreeLine t (.element e :: is) s (g ++ .rule r.name x :: ms) (fun n => (if r.name = n then ws.length else 0) + c n)
  | cut {t : GToken} {e : GElement} {is : GLine} {s : Str} : Cut t e s → TreeLine t (.element e :: is) s [] (fun _ => 0)
/-- The parts of any number of texts of the channels. -/
inductive TreeGap : Str → List AMatch → Prop
  | nil {s : Str} : TreeGap s []
  | cons {ch : GToken} {l : GLine} {s rest : Str} {ms g : List AMatch} {c : Str → Nat} : ch ∈ chans → l ∈ ch.must →
      matchesDiscovery ms ≠ [] → TreeLine ch l s ms c → s = matchesDiscovery ms ++ rest → TreeGap rest g → TreeGap s (ms ++ g)
end
end

/-- Where the matcher may give up a line: the text is at its end and the next element is optional, or the next element refers to
a token from which the token of the line can be reached again. -/
def GivesUp (ts : List GToken) (t : GToken) (e : GElement) (s : Str) : Prop :=
  (s = [] ∧ SpecAllows e.times 0) ∨
  ∃ u ∈ ts, (∃ specs, e.content = .token u.name specs) ∧ Relation.ReflTransGen (GMention ts) t u

/-- The rules in the lines of a token are well formed. -/
def RulesOk (t : GToken) : Prop := ∀ l ∈ t.must, ∀ e, .element e ∈ l → ∀ r, e.content = .rule r → RuleWF r

/-- The end of the text is not the reason: only recursion is. -/
def GivesUpRecursion (ts : List GToken) (t : GToken) (e : GElement) (_ : Str) : Prop :=
  ∃ u ∈ ts, (∃ specs, e.content = .token u.name specs) ∧ Relation.ReflTransGen (GMention ts) t u

/-- No line is given up. -/
def NeverGivesUp (_ : GToken) (_ : GElement) (_ : Str) : Prop := False

end Verif.Lexer
