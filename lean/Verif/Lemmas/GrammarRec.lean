import Verif.Spec.GrammarRec
import Verif.Props.Grammar
import Verif.Lemmas.LexerRec

namespace Verif.Lexer
open Verif.Patterns Verif.Cardinality

def pRule (r : Rule) : Instruction := .container (.rule r .mandatory)
def pTok (e : Element) : Instruction := .container (.token e [] .mandatory)
def pRec (n : Str) : Instruction := .container (.recursive n [] .mandatory)

/-! ## The compiled grammars -/

def right1 (name : Str) (a b : Rule) : Element := .mk name [[pRule a, pRec name], [pRule b]] []
def right0 (name : Str) (a b : Rule) : Element := .mk name [[pRule a, pTok (right1 name a b)], [pRule b]] []

theorem compile_right (name : Str) (h0 : name ≠ []) (a b : Rule) (set : TokenSet)
    (hset : tokensNow [rightRec name a b] = .ok set) (d : Nat) :
    toPath { tokens := set } (d + 2) (rightRec name a b) = .ok ⟨right0 name a b, [right0 name a b, right0 name a b]⟩ := by
  obtain ⟨h1, h2, _⟩ := C38_unique_find _ set hset
  have hf : Named.find set name = .ok (rightRec name a b) := (h2 name _).mpr ⟨by simp, rfl⟩
  unfold rightRec at h1 hf ⊢
  simp [toPath, buildDependencies, h1, toElement, processLines, processLine, processInstructions, elementToContainer,
    tokenReferenceToTokenPath, hf, gRule, gTok, buildSpecifiers, mapOut, h0, elementNow, elementsIn, pRule, pTok, pRec,
    right0, right1]

def left1 (name : Str) (a b : Rule) : Element := .mk name [[pRec name, pRule a], [pRule b]] []
def left0 (name : Str) (a b : Rule) : Element := .mk name [[pTok (left1 name a b), pRule a], [pRule b]] []

theorem compile_left (name : Str) (h0 : name ≠ []) (a b : Rule) (set : TokenSet)
    (hset : tokensNow [leftRec name a b] = .ok set) (d : Nat) :
    toPath { tokens := set } (d + 2) (leftRec name a b) = .ok ⟨left0 name a b, [left0 name a b, left0 name a b]⟩ := by
  obtain ⟨h1, h2, _⟩ := C38_unique_find _ set hset
  have hf : Named.find set name = .ok (leftRec name a b) := (h2 name _).mpr ⟨by simp, rfl⟩
  unfold leftRec at h1 hf ⊢
  simp [toPath, buildDependencies, h1, toElement, processLines, processLine, processInstructions, elementToContainer,
    tokenReferenceToTokenPath, hf, gRule, gTok, buildSpecifiers, mapOut, h0, elementNow, elementsIn, pRule, pTok, pRec,
    left0, left1]

def two1 (name : Str) (a c b : Rule) : Element := .mk name [[pRec name, pRule a], [pRec name, pRule c], [pRule b]] []
def two0 (name : Str) (a c b : Rule) : Element :=
  .mk name [[pTok (two1 name a c b), pRule a], [pTok (two1 name a c b), pRule c], [pRule b]] []

theorem compile_two (name : Str) (h0 : name ≠ []) (a c b : Rule) (set : TokenSet)
    (hset : tokensNow [leftRec2 name a c b] = .ok set) (d : Nat) :
    toPath { tokens := set } (d + 2) (leftRec2 name a c b) = .ok ⟨two0 name a c b, [two0 name a c b, two0 name a c b]⟩ := by
  obtain ⟨h1, h2, _⟩ := C38_unique_find _ set hset
  have hf : Named.find set name = .ok (leftRec2 name a c b) := (h2 name _).mpr ⟨by simp, rfl⟩
  unfold leftRec2 at h1 hf ⊢
  simp [toPath, buildDependencies, h1, toElement, processLines, processLine, processInstructions, elementToContainer,
    tokenReferenceToTokenPath, hf, gRule, gTok, buildSpecifiers, mapOut, h0, elementNow, elementsIn, pRule, pTok, pRec,
    two0, two1]

def nested1 (name : Str) (a b c d : Rule) : Element :=
  .mk name [[pRule a, pRec name, pRule c], [pRule a, pRec name, pRule d], [pRule b]] []
def nested0 (name : Str) (a b c d : Rule) : Element :=
  .mk name [[pRule a, pTok (nested1 name a b c d), pRule c], [pRule a, pTok (nested1 name a b c d), pRule d], [pRule b]] []
def nestedStart (start name : Str) (a b c d : Rule) : Element := .mk start [[pTok (nested1 name a b c d)]] []

theorem compile_nested (start name : Str) (hs : start ≠ []) (h0 : name ≠ []) (hne : start ≠ name) (a b c d : Rule) (set : TokenSet)
    (hset : tokensNow [startAt start name, nestedRec name a b c d] = .ok set) (n : Nat) :
    toPath { tokens := set } (n + 2) (startAt start name) = .ok ⟨nestedStart start name a b c d,
      [nestedStart start name a b c d, nested0 name a b c d, nestedStart start name a b c d]⟩ := by
  obtain ⟨h1, h2, _⟩ := C38_unique_find _ set hset
  have hf : Named.find set name = .ok (nestedRec name a b c d) := (h2 name _).mpr ⟨by simp, rfl⟩
  unfold nestedRec startAt at h1
  unfold startAt
  unfold nestedRec at hf
  simp [toPath, buildDependencies, h1, toElement, processLines, processLine, processInstructions, elementToContainer,
    tokenReferenceToTokenPath, hf, gRule, gTok, buildSpecifiers, mapOut, h0, hs, elementNow, elementsIn, pRule, pTok, pRec,
    nested0, nested1, nestedStart]

end Verif.Lexer
