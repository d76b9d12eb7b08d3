import Verif.Model.Strings

/-!
# The part of Go's package `regexp` which the text adapters use

A library: the definitions follow its documentation. `regexp` prefers matches as Perl does: of all the matches it returns the
leftmost one and of those the one which a backtracking search finds first. The texts are lists of bytes and a character of a
pattern stands for one byte: this is exact for the patterns of the repository (whose character classes are sets of ASCII
characters or complements of such) except that `.` stands for a byte here and for a whole UTF-8 sequence in Go.

A pattern is a `Re`; loops are only over single characters, as in all the patterns of the repository. `run` is the list of all
the ways to match at the beginning of a text, in the order in which the backtracking search would find them.
-/

namespace Verif.Regex

/-- A set of characters: `[…]`, `[^…]`, `.` or a single character. Go library `regexp`, for the patterns built at `references/adapter.go:90-188`, `containers/patterns/adapter.go:362-484`, `containers/rules/adapter.go:96-181`, `containers/tokens/adapter.go:227-512`. -/
abbrev Cls := UInt8 → Bool

/-- The patterns: `star` is `[…]*`, `lazy` is `[…]*?`, `opt` is `(?:…)?`, `grp n` is the capturing group number `n`. Go library `regexp`, for the patterns built at `references/adapter.go:90-188`, `containers/patterns/adapter.go:362-484`, `containers/rules/adapter.go:96-181`, `containers/tokens/adapter.go:227-512`. -/
inductive Re where
  | eps
  | chr (p : Cls)
  | star (p : Cls)
  | lazy (p : Cls)
  | seq (a b : Re)
  | opt (a : Re)
  | grp (n : Nat) (a : Re)

/-- A match at the beginning of a text: the text matched, what follows it, and the texts of the groups which took part. Go library `regexp`, for the patterns built at `references/adapter.go:90-188`, `containers/patterns/adapter.go:362-484`, `containers/rules/adapter.go:96-181`, `containers/tokens/adapter.go:227-512`. -/
structure M where
  text : Str
  rest : Str
  caps : List (Nat × Str)
  deriving DecidableEq, Repr

/-- The ways to match `[…]*`, longest first. Go library `regexp`, for the patterns built at `references/adapter.go:90-188`, `containers/patterns/adapter.go:362-484`, `containers/rules/adapter.go:96-181`, `containers/tokens/adapter.go:227-512`. -/
def starRun (p : Cls) : Str → List M
  | [] => [⟨[], [], []⟩]
  | c :: s => if p c then (starRun p s).map (fun m => ⟨c :: m.text, m.rest, m.caps⟩) ++ [⟨[], c :: s, []⟩] else [⟨[], c :: s, []⟩]

/-- The ways to match `[…]*?`, shortest first. Go library `regexp`, for the patterns built at `references/adapter.go:90-188`, `containers/patterns/adapter.go:362-484`, `containers/rules/adapter.go:96-181`, `containers/tokens/adapter.go:227-512`. -/
def lazyRun (p : Cls) : Str → List M
  | [] => [⟨[], [], []⟩]
  | c :: s => if p c then ⟨[], c :: s, []⟩ :: (lazyRun p s).map (fun m => ⟨c :: m.text, m.rest, m.caps⟩) else [⟨[], c :: s, []⟩]

/-- All the ways to match at the beginning of a text, the preferred ones first. Go library `regexp`, for the patterns built at `references/adapter.go:90-188`, `containers/patterns/adapter.go:362-484`, `containers/rules/adapter.go:96-181`, `containers/tokens/adapter.go:227-512`. -/
def run : Re → Str → List M
  | .eps, s => [⟨[], s, []⟩]
  | .chr p, s => match s with
    | [] => []
    | c :: s => if p c then [⟨[c], s, []⟩] else []
  | .star p, s => starRun p s
  | .lazy p, s => lazyRun p s
  | .seq a b, s => (run a s).flatMap (fun m => (run b m.rest).map (fun k => ⟨m.text ++ k.text, k.rest, m.caps ++ k.caps⟩))
  | .opt a, s => run a s ++ [⟨[], s, []⟩]
  | .grp n a, s => (run a s).map (fun m => ⟨m.text, m.rest, (n, m.text) :: m.caps⟩)

/-- The match at the beginning of a text, if any. Go library `regexp`, for the patterns built at `references/adapter.go:90-188`, `containers/patterns/adapter.go:362-484`, `containers/rules/adapter.go:96-181`, `containers/tokens/adapter.go:227-512`. -/
def matchAt (r : Re) (s : Str) : Option M := (run r s).head?

/-- `FindStringSubmatch`: the leftmost match, with the number of bytes in front of it. Called at `containers/rules/adapter.go:140,184`. -/
def find (r : Re) : Str → Option (Nat × M)
  | [] => (matchAt r []).map (fun m => (0, m))
  | c :: s => match matchAt r (c :: s) with
    | some m => some (0, m)
    | none => (find r s).map (fun x => (x.1 + 1, x.2))

/-- The text of group `n` of a match; a group which took no part has the empty text. Go library `regexp`, for the patterns built at `references/adapter.go:90-188`, `containers/patterns/adapter.go:362-484`, `containers/rules/adapter.go:96-181`, `containers/tokens/adapter.go:227-512`. -/
def M.group (m : M) (n : Nat) : Str := ((m.caps.find? (fun x => x.1 = n)).map Prod.snd).getD []

/-- `FindAllStringSubmatch(s, -1)`: the loop of `allMatches` of the library. `adjacent` says that the text begins where the
last match ended, where an empty match is not accepted. After an empty match at the beginning of the text the search
goes on one character later, otherwise behind the match (`fuel` is at least the length of the text plus one). Called at `references/adapter.go:106,154,192`, `containers/patterns/adapter.go:376-491`, `containers/rules/adapter.go:107`, `containers/tokens/adapter.go:241,408,516`. -/
def findAllLoop (r : Re) : Nat → Bool → Str → List M
  | 0, _, _ => []
  | fuel + 1, adjacent, s =>
    match find r s with
    | none => []
    | some (i, m) =>
      if i = 0 ∧ m.text = [] then
        let out := if adjacent then [] else [m]
        match s with
        | [] => out
        | _ :: s' => out ++ findAllLoop r fuel false s'
      else m :: findAllLoop r fuel true m.rest

/-- `FindAllStringSubmatch(s, -1)`. Called at `references/adapter.go:106,154,192`, `containers/patterns/adapter.go:376-491`, `containers/rules/adapter.go:107`, `containers/tokens/adapter.go:241,408,516`. -/
def findAll (r : Re) (s : Str) : List M := findAllLoop r (s.length + 2) false s

/-! ## Notation -/

/-- The character class with the given characters. Go library `regexp`, for the patterns built at `references/adapter.go:90-188`, `containers/patterns/adapter.go:362-484`, `containers/rules/adapter.go:96-181`, `containers/tokens/adapter.go:227-512`. -/
def oneOf (l : Str) : Cls := fun c => l.contains c
/-- The complement of a class. Go library `regexp`, for the patterns built at `references/adapter.go:90-188`, `containers/patterns/adapter.go:362-484`, `containers/rules/adapter.go:96-181`, `containers/tokens/adapter.go:227-512`. -/
def noneOf (l : Str) : Cls := fun c => !l.contains c
/-- The characters from `a` to `b`. Go library `regexp`, for the patterns built at `references/adapter.go:90-188`, `containers/patterns/adapter.go:362-484`, `containers/rules/adapter.go:96-181`, `containers/tokens/adapter.go:227-512`. -/
def range (a b : UInt8) : Cls := fun c => a ≤ c && c ≤ b
/-- The union of two classes. Go library `regexp`, for the patterns built at `references/adapter.go:90-188`, `containers/patterns/adapter.go:362-484`, `containers/rules/adapter.go:96-181`, `containers/tokens/adapter.go:227-512`. -/
def Cls.or (p q : Cls) : Cls := fun c => p c || q c
/-- `[…]+` Go library `regexp`, for the patterns built at `references/adapter.go:90-188`, `containers/patterns/adapter.go:362-484`, `containers/rules/adapter.go:96-181`, `containers/tokens/adapter.go:227-512`. -/
def Re.plus (p : Cls) : Re := .seq (.chr p) (.star p)
/-- The text itself. Go library `regexp`, for the patterns built at `references/adapter.go:90-188`, `containers/patterns/adapter.go:362-484`, `containers/rules/adapter.go:96-181`, `containers/tokens/adapter.go:227-512`. -/
def Re.text : Str → Re
  | [] => .eps
  | c :: s => .seq (.chr (· = c)) (Re.text s)
/-- A sequence. Go library `regexp`, for the patterns built at `references/adapter.go:90-188`, `containers/patterns/adapter.go:362-484`, `containers/rules/adapter.go:96-181`, `containers/tokens/adapter.go:227-512`. -/
def Re.all : List Re → Re
  | [] => .eps
  | r :: l => .seq r (Re.all l)

end Verif.Regex
