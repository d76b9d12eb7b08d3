import Verif.Model.Go

/-!
# Functions of the Go packages `strings` and `strconv` used by the peers and the lexers

These are library functions: the definitions follow their documentation (and the implementation of the Go standard
library, which is not a part of the repository).
-/

namespace Verif

/-- `strings.Index`: the position of the first occurrence of `sep`. Go library; used by `strings.Split` and `strings.Replace`, `containers/tokens/adapter.go:271`, `asts/tokens/adapter.go:352`. -/
def strIndex (sep : Str) : Str → Option Nat
  | [] => if sep = [] then some 0 else none
  | c :: cs => if sep <+: (c :: cs) then some 0 else (strIndex sep cs).map (· + 1)

theorem strIndex_pos {c : UInt8} {sep s : Str} {m : Nat} (h : strIndex (c :: sep) s = some m) : 0 < s.length := by
  cases s with
  | nil => simp [strIndex] at h
  | cons => simp

/-- `strings.Split(s, sep)` for a non-empty separator `c :: sep` (`genSplit` of the Go library: cut at the first
occurrence and continue behind it).  Splitting by the empty string is not modelled. Called at `containers/tokens/adapter.go:271,282,306,338`. -/
def splitSep (c : UInt8) (sep : Str) (s : Str) : List Str :=
  match _h : strIndex (c :: sep) s with
  | none => [s]
  | some m => s.take m :: splitSep c sep (s.drop (m + (sep.length + 1)))
termination_by s.length
decreasing_by
  have := strIndex_pos _h
  simp only [List.length_drop]
  omega

/-- The UTF-8 encodings of the characters for which `unicode.IsSpace` holds. Go library; called at `containers/tokens/adapter.go:276,319,407,501,542`, `cardinality/adapter.go:36`. -/
def spaceSeqs : List Str :=
  [[9], [10], [11], [12], [13], [32], [0xC2, 0x85], [0xC2, 0xA0], [0xE1, 0x9A, 0x80],
   [0xE2, 0x80, 0x80], [0xE2, 0x80, 0x81], [0xE2, 0x80, 0x82], [0xE2, 0x80, 0x83], [0xE2, 0x80, 0x84],
   [0xE2, 0x80, 0x85], [0xE2, 0x80, 0x86], [0xE2, 0x80, 0x87], [0xE2, 0x80, 0x88], [0xE2, 0x80, 0x89],
   [0xE2, 0x80, 0x8A], [0xE2, 0x80, 0xA8], [0xE2, 0x80, 0xA9], [0xE2, 0x80, 0xAF], [0xE2, 0x81, 0x9F],
   [0xE3, 0x80, 0x80]]

/-- Repeated removal of a prefix that is in the list `seqs` (at most `fuel` times; the callers pass the length of the
string, which is enough because every removal shortens it). Go library; called at `containers/tokens/adapter.go:276,319,407,501,542`, `cardinality/adapter.go:36`. -/
def trimLeft (seqs : List Str) : Nat → Str → Str
  | 0, s => s
  | fuel + 1, s =>
    match seqs.find? (fun q => q.isPrefixOf s) with
    | none => s
    | some q => trimLeft seqs fuel (s.drop q.length)

/-- `strings.TrimSpace`. Go library; called at `containers/tokens/adapter.go:276,319,407,501,542`, `cardinality/adapter.go:36`. -/
def trimSpace (s : Str) : Str :=
  let l := trimLeft spaceSeqs s.length s
  (trimLeft (spaceSeqs.map List.reverse) l.length l.reverse).reverse

end Verif
