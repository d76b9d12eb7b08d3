import Verif.Lemmas.BaseConf

/-! # A checker for conforming root trees (used for the examples only) -/

namespace Verif.Base
open Verif.Patterns Verif.Lexer

def Card.allowsB : Card → Nat → Bool
  | .one, n => n = 1
  | .opt, n => n ≤ 1
  | .star, _ => true
  | .plus, n => 1 ≤ n
  | .between a b, n => a ≤ n && n ≤ b

theorem Card.allowsB_iff (c : Card) (n : Nat) : c.allowsB n = true ↔ c.Allows n := by
  cases c <;> simp [Card.allowsB, Card.Allows]

def okOut {α : Type} : Out α → Bool
  | .ok _ => true
  | _ => false

theorem okOut_iff {α : Type} (o : Out α) : okOut o = true ↔ ∃ x, o = .ok x := by
  cases o <;> simp [okOut]

def literalsB (cfg : Cfg) (k : Kind) (r : Root) : Bool :=
  match k with
  | .intValue => r.nodes.all fun n => n.name ≠ lit "INT_PATTERN" || n.containers.all fun c =>
      if r.exists (lit "MINUS") then okOut (parseNeg c.content cfg.bitSize) else okOut (parseUint c.content cfg.bitSize)
  | .indexValue => r.nodes.all fun n => n.name ≠ lit "INT_PATTERN" || n.containers.all fun c => okOut (parseUint c.content cfg.bitSize)
  | .floatValue => r.nodes.all fun n => n.name ≠ lit "INT_PATTERN" || (match n.containers with
      | [a, b] => okOut (cfg.parseFloat ((if r.exists (lit "MINUS") then lit "-" else []) ++ a.content ++ lit "." ++ b.content) cfg.bitSize)
      | _ => true)
  | _ => true

theorem literalsB_sound (cfg : Cfg) (k : Kind) (r : Root) (h : literalsB cfg k r = true) : Literals cfg k r := by
  cases k <;> try exact trivial
  · intro n hn hname c hc
    simp only [literalsB, List.all_eq_true, Bool.or_eq_true, decide_eq_true_eq] at h
    rcases h n hn with h | h
    · exact absurd hname h
    · exact (okOut_iff _).mp (h c hc)
  · intro n hn hname c hc
    simp only [literalsB, List.all_eq_true, Bool.or_eq_true, decide_eq_true_eq] at h
    rcases h n hn with h | h
    · exact absurd hname h
    · have := h c hc
      split <;> rename_i hm
      · rw [if_pos hm] at this; exact (okOut_iff _).mp this
      · rw [if_neg hm] at this; exact (okOut_iff _).mp this
  · intro n hn hname a b hab
    simp only [literalsB, List.all_eq_true, Bool.or_eq_true, decide_eq_true_eq] at h
    rcases h n hn with h | h
    · exact absurd hname h
    · rw [hab] at h; exact (okOut_iff _).mp h

def specifierB (k : Kind) (r : Root) : Bool :=
  match k with
  | .forStatement => r.nodes.all fun n => n.name ≠ lit "assigneeNames" || n.containers.all fun c =>
      match c.root with
      | some u => u.exists (lit "commaAssigneeName")
      | none => true
  | _ => true

theorem specifierB_sound (k : Kind) (r : Root) (h : specifierB k r = true) : Specifier k r := by
  cases k <;> try exact trivial
  intro n hn hname c hc u hu
  simp only [specifierB, List.all_eq_true, Bool.or_eq_true, decide_eq_true_eq] at h
  rcases h n hn with h | h
  · exact absurd hname h
  · have := h c hc; rw [hu] at this; exact this

/-- One line. -/
def lineB (conf : Kind → Root → Bool) (r : Root) (line : List (Sym × Card)) : Bool :=
  (r.nodes.all fun n => n.containers ≠ [] && ((line.any fun p => n.name = p.1.name && p.2.allowsB n.containers.length) ||
    (decide (n.name ∈ channelNames) && n.containers.all fun c => c.root.isNone))) &&
  (line.all fun p => p.2.allowsB 0 || r.exists p.1.name) &&
  (line.all fun p => r.nodes.all fun n => n.name ≠ p.1.name || n.containers.all fun c =>
    match p.1, c.root with
    | .rule _, none => true
    | .tok k', some u => conf k' u
    | _, _ => false)

def confB (cfg : Cfg) : Nat → Kind → Root → Bool
  | 0, _, _ => false
  | f + 1, k, r =>
    decide (r.name = k.name) && decide (r.nodes.map Node.name).Nodup &&
    (r.nodes.all fun n => n.containers.all fun c => c.name = n.name && c.content ≠ []) &&
    literalsB cfg k r && specifierB k r && (grammar k).any fun line => lineB (confB cfg f) r line

theorem containers_ne {n : Node} : (decide (n.containers ≠ []) = true) ↔ n.containers ≠ [] := by simp

theorem confB_sound (cfg : Cfg) (f : Nat) (k : Kind) (r : Root) (h : confB cfg f k r = true) : Conf cfg k r := by
  induction f generalizing k r with
  | zero => simp [confB] at h
  | succ f ih =>
    simp only [confB, Bool.and_eq_true, decide_eq_true_eq, List.any_eq_true, List.all_eq_true] at h
    obtain ⟨⟨⟨⟨⟨h1, h2⟩, h3⟩, h4⟩, h5⟩, line, hl, h6⟩ := h
    simp only [lineB, Bool.and_eq_true, List.all_eq_true, List.any_eq_true, decide_eq_true_eq, Bool.or_eq_true] at h6
    obtain ⟨⟨h7, h8⟩, h9⟩ := h6
    refine .mk hl h1 h2 ?_ ?_ ?_ ?_ ?_ ?_ (literalsB_sound cfg k r h4) (specifierB_sound k r h5)
    · intro n hn
      obtain ⟨h, ⟨p, hp, h', h''⟩ | ⟨h', h''⟩⟩ := h7 n hn
      · exact ⟨by simpa using h, .inl ⟨p, hp, h', (Card.allowsB_iff _ _).mp h''⟩⟩
      · exact ⟨by simpa using h, .inr ⟨h', fun c hc => by simpa using h'' c hc⟩⟩
    · intro p hp
      rcases h8 p hp with h | h
      · exact .inl ((Card.allowsB_iff _ _).mp h)
      · exact .inr h
    · intro n hn c hc; exact h3 n hn c hc
    · intro s card hp n hn hname c hc
      rcases h9 _ hp n hn with h | h
      · exact absurd hname h
      · have := h c hc
        cases hr : c.root with
        | none => rfl
        | some u => simp [hr] at this
    · intro k' card hp n hn hname c hc hr
      rcases h9 _ hp n hn with h | h
      · exact absurd hname h
      · have := h c hc
        simp [hr] at this
    · intro k' card hp n hn hname c hc u hu
      rcases h9 _ hp n hn with h | h
      · exact absurd hname h
      · have := h c hc
        rw [hu] at this
        exact ih k' u this

/-! Root trees for examples. -/

/-- A root for a token and its parts. -/
def tree (k : Kind) (text : String) (parts : List (Str × List RContainer)) : Root :=
  .mk (lit text) k.name (parts.map fun p => .mk p.1 p.2)
/-- A part which is a text. -/
def rl (name text : String) : Str × List RContainer := (lit name, [.mk (lit text) (lit name) none])
/-- A part which is a tree. -/
def tk (r : Root) : Str × List RContainer := (r.name, [.mk r.content r.name (some r)])
/-- Several parts which are trees of one token. -/
def tks (rs : List Root) : List (Str × List RContainer) :=
  match rs with
  | [] => []
  | r :: _ => [(r.name, rs.map fun r => .mk r.content r.name (some r))]

def exName (a b : String) : Root := tree .variableName (a ++ b) [rl "FIRST_LETTER" a, rl "MIN_MAJ_LETTERS" b]

/-- `if ab { break }` -/
def exIf : Root :=
  let op := tree .operation "ab" [tk (tree .operationWithSuffix "ab" [tk (tree .operationElement "ab" [tk (exName "a" "b")])])]
  let ins := tree .instructions "break" [tk (tree .instruction "break" [tk (tree .direction "break" [rl "BREAK" "break"])])]
  let blanks : Str × List RContainer := (lit "WHITESPACES", [.mk (lit " ") (lit "WHITESPACES") none, .mk (lit " ") (lit "WHITESPACES") none])
  let d := tree .ifDeclaration "if ab { break }" [tk (tree .ifOperation "if ab " [rl "IF" "if", rl "WHITESPACES" " ", tk op]),
    rl "OPEN_BRACKET" "{", blanks, tk ins, rl "CLOSE_BRACKET" "}"]
  tree .program "if ab { break }" [tk (tree .instructions "if ab { break }" [tk (tree .instruction "if ab { break }" [tk d])])]

/-- 64 bits, with a constant instead of `strconv.ParseFloat`. -/
def exCfg : Cfg := ⟨64, fun _ _ => .ok 7⟩

theorem exIf_conf : Conf exCfg .program exIf := confB_sound exCfg 12 _ _ (by decide +kernel)

/-! Parts of examples. -/

/-- An operand which is a variable. -/
def exElement (a b : String) : Root := tree .operationElement (a ++ b) [tk (exName a b)]
/-- An operation which is a variable. -/
def exOperation (a b : String) : Root := tree .operation (a ++ b) [tk (tree .operationWithSuffix (a ++ b) [tk (exElement a b)])]
def exPlus : Root := tree .operator "+" [tk (tree .operatorArithmetic "+" [rl "PLUS" "+"])]
def exSuffix : Root := tree .operationSuffix "+ cd" [tk exPlus, tk (exElement "c" "d")]
/-- `ab + cd` -/
def exSum : Root := tree .operationWithSuffix "ab + cd" [tk (exElement "a" "b"), tk exSuffix]

/-- `break` -/
def exBreak : Root := tree .instruction "break" [tk (tree .direction "break" [rl "BREAK" "break"])]
def exCondition (a b : String) : Root := tree .ifOperation ("if " ++ a ++ b) [rl "IF" "if", tk (exOperation a b)]
/-- `if cd { break }` -/
def exInnerIf : Root := tree .ifDeclaration "if cd { break }" [tk (exCondition "c" "d"), rl "OPEN_BRACKET" "{",
  tk (tree .instructions "break" [tk exBreak]), rl "CLOSE_BRACKET" "}"]
def exIfBody : Root := tree .instructions "if cd { break } break" (tks [tree .instruction "if cd { break }" [tk exInnerIf], exBreak])
/-- `if ab { if cd { break } break }` -/
def exNestedIf : Root := tree .ifDeclaration "if ab { if cd { break } break }" [tk (exCondition "a" "b"), rl "OPEN_BRACKET" "{", tk exIfBody,
  rl "CLOSE_BRACKET" "}"]

def exAssignee (a b : String) : Root := tree .assigneeName (a ++ b) [tk (exName a b)]
def exComma (a b : String) : Root := tree .commaAssigneeName ("," ++ a ++ b) [rl "COMMA" ",", tk (exAssignee a b)]
/-- `ab,cd,ef` -/
def exNames : Root := tree .assigneeNames "ab,cd,ef" ([tk (exAssignee "a" "b")] ++ tks [exComma "c" "d", exComma "e" "f"])

def exStatement (a b : String) : Root := tree .forStatement ("ix, va := " ++ a ++ b)
  [tk (tree .assigneeNames "ix,va" [tk (exAssignee "i" "x"), tk (exComma "v" "a")]), rl "COLON" ":", rl "EQUAL" "=",
   tk (tree .totalListValue (a ++ b) [tk (exName a b)])]
def exInnerFor : Root := tree .forDeclaration "for ix, va := cd { break }" [rl "FOR" "for", tk (exStatement "c" "d"), rl "OPEN_BRACKET" "{",
  tk (tree .instructions "break" [tk exBreak]), rl "CLOSE_BRACKET" "}"]
def exForBody : Root := tree .instructions "for ix, va := cd { break } break"
  (tks [tree .instruction "for ix, va := cd { break }" [tk exInnerFor], exBreak])
/-- `for ix, va := ab { for ix, va := cd { break } break }` -/
def exNestedFor : Root := tree .forDeclaration "for ix, va := ab { for ix, va := cd { break } break }" [rl "FOR" "for", tk (exStatement "a" "b"),
  rl "OPEN_BRACKET" "{", tk exForBody, rl "CLOSE_BRACKET" "}"]

def exFirst (a b : String) : Root := tree .assigneeNameFirst (a ++ b) [tk (exAssignee a b)]
def exFirstComma (a b : String) : Root := tree .commaAssigneeFirst ("," ++ a ++ b) [rl "COMMA" ",", tk (exFirst a b)]
/-- `ab,cd,ef` in a declaration -/
def exFirsts : Root := tree .assigneeNameFirsts "ab,cd,ef" ([tk (exFirst "a" "b")] ++ tks [exFirstComma "c" "d", exFirstComma "e" "f"])

def exValue (a b : String) : Root := tree .assignable (a ++ b) [tk (tree .singleAssignable (a ++ b) [tk (exOperation a b)])]
def exValueComma (a b : String) : Root := tree .commaAssignable ("," ++ a ++ b) [rl "COMMA" ",", tk (exValue a b)]
/-- `ab,cd,ef` in a list -/
def exValues : Root := tree .assignables "ab,cd,ef" ([tk (exValue "a" "b")] ++ tks [exValueComma "c" "d", exValueComma "e" "f"])

/-- `list<list<bool>>` -/
def exType : Root :=
  let bool := tree .declarativeType "bool" [tk (tree .primitiveType "bool" [rl "BOOL" "bool"])]
  let list (r : Root) (s : String) := tree .declarativeType s [tk (tree .listType s [rl "LIST" "list", rl "LESS" "<", tk r, rl "MORE" ">"])]
  list (list bool "list<bool>") "list<list<bool>>"
def exDecl (a b : String) : Root := tree .variableDeclaration ("list<list<bool>> " ++ a ++ b) [tk exType, tk (exName a b)]
def exDeclComma (a b : String) : Root := tree .commaVariableDeclaration (", list<list<bool>> " ++ a ++ b) [rl "COMMA" ",", tk (exDecl a b)]
/-- `list<list<bool>> ab, list<list<bool>> cd` -/
def exDecls : Root := tree .variableDeclarations "list<list<bool>> ab, list<list<bool>> cd" ([tk (exDecl "a" "b")] ++ tks [exDeclComma "c" "d"])

theorem exSum_conf : Conf exCfg .operationWithSuffix exSum := confB_sound exCfg 20 _ _ (by decide +kernel)
theorem exNestedIf_conf : Conf exCfg .ifDeclaration exNestedIf := confB_sound exCfg 20 _ _ (by decide +kernel)
theorem exNestedFor_conf : Conf exCfg .forDeclaration exNestedFor := confB_sound exCfg 20 _ _ (by decide +kernel)
theorem exNames_conf : Conf exCfg .assigneeNames exNames := confB_sound exCfg 20 _ _ (by decide +kernel)
theorem exFirsts_conf : Conf exCfg .assigneeNameFirsts exFirsts := confB_sound exCfg 20 _ _ (by decide +kernel)
theorem exValues_conf : Conf exCfg .assignables exValues := confB_sound exCfg 20 _ _ (by decide +kernel)
theorem exDecls_conf : Conf exCfg .variableDeclarations exDecls := confB_sound exCfg 20 _ _ (by decide +kernel)
theorem exType_conf : Conf exCfg .declarativeType exType := confB_sound exCfg 20 _ _ (by decide +kernel)
theorem exPlus_conf : Conf exCfg .operator exPlus := confB_sound exCfg 20 _ _ (by decide +kernel)

/-- `* ef` -/
def exTimes : Root := tree .operator "*" [tk (tree .operatorArithmetic "*" [rl "STAR" "*"])]
/-- `(cd * ef)` -/
def exProduct : Root := tree .operationElement "(cd * ef)" [tk (tree .operation "(cd * ef)" [rl "OPEN_PARENTHESIS" "(",
  tk (tree .operation "cd * ef" [tk (tree .operationWithSuffix "cd * ef" [tk (exElement "c" "d"),
    tk (tree .operationSuffix "* ef" [tk exTimes, tk (exElement "e" "f")])])]), rl "CLOSE_PARENTHESIS" ")"])]
/-- `+ (cd * ef)` -/
def exPlusProduct : Root := tree .operationSuffix "+ (cd * ef)" [tk exPlus, tk exProduct]
/-- `[1]` -/
def exAt (n : String) : Root := tree .listElementFetcher ("[" ++ n ++ "]") [rl "OPEN_SQUARE_BRACKET" "[",
  tk (tree .indexValue n [rl "INT_PATTERN" n]), rl "CLOSE_SQUARE_BRACKET" "]"]
/-- A list with one element. -/
def exList (s : String) (r : Root) : Root := tree .listValue ("[" ++ s ++ "]") [tk (tree .listAssignable ("[" ++ s ++ "]") [rl "OPEN_SQUARE_BRACKET" "[",
  tk (tree .assignables s [tk r]), rl "CLOSE_SQUARE_BRACKET" "]"])]
/-- `ab[1]` -/
def exFetch : Root := tree .listFetchElement "ab[1]" [tk (tree .totalListValue "ab" [tk (exName "a" "b")]), tk (exAt "1")]
/-- `[ab[1]]` -/
def exFetchList : Root := tree .totalListValue "[ab[1]]" [tk (tree .totalListAssignable "[ab[1]]" [tk (exList "ab[1]"
  (tree .assignable "ab[1]" [tk (tree .singleAssignable "ab[1]" [tk exFetch])]))])]
/-- `[ab[1]][2]` -/
def exFetchFetch : Root := tree .listFetchElement "[ab[1]][2]" [tk exFetchList, tk (exAt "2")]
/-- `1:` -/
def exBound (n : String) : Root := tree .sliceDelimiter (n ++ ":") [tk (tree .indexValue n [rl "INT_PATTERN" n]), rl "COLON" ":"]
/-- `[ab[1:]]` -/
def exSliceList : Root := exList "ab[1:]" (tree .assignable "ab[1:]" [tk (tree .totalListAssignable "ab[1:]" [tk (tree .slice "ab[1:]"
  [tk (tree .listValue "ab" [tk (exName "a" "b")]), rl "OPEN_SQUARE_BRACKET" "[", tk (exBound "1"), rl "CLOSE_SQUARE_BRACKET" "]"])])])
/-- `[ab[1:]][2:]` -/
def exSliceSlice : Root := tree .slice "[ab[1:]][2:]" [tk exSliceList, rl "OPEN_SQUARE_BRACKET" "[", tk (exBound "2"), rl "CLOSE_SQUARE_BRACKET" "]"]

theorem exPlusProduct_conf : Conf exCfg .operationSuffix exPlusProduct := confB_sound exCfg 30 _ _ (by decide +kernel)
theorem exFetchFetch_conf : Conf exCfg .listFetchElement exFetchFetch := confB_sound exCfg 30 _ _ (by decide +kernel)
theorem exSliceSlice_conf : Conf exCfg .slice exSliceSlice := confB_sound exCfg 30 _ _ (by decide +kernel)

end Verif.Base
