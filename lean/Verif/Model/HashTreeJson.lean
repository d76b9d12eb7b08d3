import Verif.Model.HashTree

/-!
# Hash trees and `encoding/json`

`json.Marshal` and `json.Unmarshal` as documented by Go: of a struct only the exported fields are written and read, pointers and interfaces are followed.
-/

namespace Verif.HashTree
open Verif

/-- What `encoding/json` sees of a value by reflection: strings, numbers, slices and arrays, structs with the names of their fields in the source, and nil. Go
library; called at `hashtree/block.go:92,98` and by users of the trees (`hashtree/hashtree_test.go:162,167,182,188`). -/
inductive GoVal where
  | null
  | number (n : Nat)
  | text (s : Str)
  | list (l : List GoVal)
  | struct (fields : List (Str × GoVal))

/-- An exported name begins with a capital letter. Go library; called at `hashtree/block.go:92,98`. -/
def isExported : Str → Bool
  | c :: _ => 65 ≤ c && c ≤ 90
  | [] => false

mutual
/-- `json.Marshal`. The strings which occur (hexadecimal digits) are written without escapes, other strings are not modelled. Go library; called at
`hashtree/block.go:92`. -/
def marshal : GoVal → Str
  | .null => lit "null"
  | .number n => itoaNat n
  | .text s => lit "\"" ++ s ++ lit "\""
  | .list l => lit "[" ++ marshalList l ++ lit "]"
  | .struct fs => lit "{" ++ marshalFields fs ++ lit "}"

/-- The elements of a list, with commas. Go library; called at `hashtree/block.go:92`. -/
def marshalList : List GoVal → Str
  | [] => []
  | [v] => marshal v
  | v :: w :: l => marshal v ++ lit "," ++ marshalList (w :: l)

/-- The exported fields of a struct, with commas. Go library; called at `hashtree/block.go:92`. -/
def marshalFields : List (Str × GoVal) → Str
  | [] => []
  | (name, v) :: fs =>
    if isExported name then
      let rest := marshalFields fs
      lit "\"" ++ name ++ lit "\":" ++ marshal v ++ (if rest = [] then [] else lit "," ++ rest)
    else marshalFields fs
end

/-- `hash/sdk.go:9`, `Hash` is an array of bytes. -/
def goHash (h : Hash) : GoVal := .list (h.bytes.map fun b => .number b.toNat)

/-- `hashtree/leaf.go:9-12` and `hashtree/parentleaf.go:9-12`, the fields of a leaf and of its parent leaf. -/
def goLeaf : Leaf → GoVal
  | .plain h => .struct [(lit "head", goHash h), (lit "parentLeaf", .null)]
  | .withParent h l r => .struct [(lit "head", goHash h), (lit "parentLeaf", .struct [(lit "left", goLeaf l), (lit "right", goLeaf r)])]

/-- `hashtree/hashtree.go:11-14`, the fields of a tree. -/
def goTree (t : Tree) : GoVal :=
  .struct [(lit "head", goHash t.head), (lit "parentLeaf", .struct [(lit "left", goLeaf t.left), (lit "right", goLeaf t.right)])]

/-- `hashtree/compact.go:7-10`, with `hashtree/leaves.go:3-5`, the fields of a compact tree (`hashtree/hashtree.go:57-60`). -/
def goCompact (t : Tree) : GoVal :=
  .struct [(lit "hash", goHash t.head), (lit "leaves", .struct [(lit "list", .list (t.blockLeaves.map goLeaf))])]

/-- A value of the struct of `hashtree/hashtree.go:11-14` as it may be after `json.Unmarshal`: the parent leaf may be nil. -/
structure RawTree where
  head : Hash
  parent : Option (Leaf × Leaf)

/-- A tree which was built. `hashtree/hashtree.go:16-23`, `createHashTree`. -/
def Tree.raw (t : Tree) : RawTree := ⟨t.head, some (t.left, t.right)⟩

namespace RawTree

/-- `hashtree/hashtree.go:35-38`, `Height`: the parent leaf may be nil. -/
def height (t : RawTree) : Out Nat :=
  match t.parent with
  | none => .panic
  | some (l, r) => .ok (Tree.height ⟨t.head, l, r⟩)

/-- `hashtree/hashtree.go:41-44`, `Length`: the parent leaf may be nil. -/
def length (t : RawTree) : Out Nat :=
  match t.parent with
  | none => .panic
  | some (l, r) => .ok (Tree.length ⟨t.head, l, r⟩)

/-- `hashtree/hashtree.go:57-60`, `Compact`: the parent leaf may be nil. -/
def compact (t : RawTree) : Out (Hash × List Hash) :=
  match t.parent with
  | none => .panic
  | some (l, r) => .ok (Tree.compact ⟨t.head, l, r⟩)

/-- `hashtree/hashtree.go:63-95`, `Order`: the parent leaf may be nil. -/
def order (sha : Str → Hash) (t : RawTree) (data : List Str) : Out (List Str) :=
  match t.parent with
  | none => .panic
  | some (l, r) => HashTree.order sha ⟨t.head, l, r⟩ data

end RawTree

/-- The hash of 64 zero bytes, the zero value of `Hash`. `hashtree/hashtree.go:12`. -/
def zeroHash : Hash := ⟨List.replicate 64 0, by simp⟩

/-- The white space of JSON. Go library; called at `hashtree/block.go:98`. -/
def isJsonBlank (c : UInt8) : Bool := c = 32 ∨ c = 9 ∨ c = 10 ∨ c = 13

/-- `json.Unmarshal` into a struct of which no field is exported. Modelled for objects without members and for null, which change nothing; whatever else is an error
here, although objects with members would be accepted and ignored as well. Go library; called by users of the trees (`hashtree/hashtree_test.go:167`). -/
def unmarshalTree (data : Str) (into : RawTree) : Out RawTree :=
  let d := data.filter (fun c => !isJsonBlank c)
  if d = lit "{}" ∨ d = lit "null" then .ok into else .err

/-- A string: up to the next quote, without escapes (which are not modelled) and control characters. Go library; called at `hashtree/block.go:98`. -/
def jsonString : Str → Out (Str × Str)
  | [] => .err
  | c :: s =>
    if c = 34 then .ok ([], s)
    else if c = 92 ∨ c < 32 then .err
    else match jsonString s with
      | .ok (a, b) => .ok (c :: a, b)
      | .err => .err
      | .panic => .panic

/-- Behind the blanks. Go library; called at `hashtree/block.go:98`. -/
def skipBlanks (s : Str) : Str := s.dropWhile isJsonBlank

/-- The elements of an array of strings behind a bracket or comma, and what follows the array; `fuel` bounds their number. Go library; called at
`hashtree/block.go:98`. -/
def jsonStrings : Nat → Str → Out (List Str × Str)
  | 0, _ => .err
  | fuel + 1, s =>
    match skipBlanks s with
    | [] => .err
    | q :: s1 =>
      if q ≠ 34 then .err
      else match jsonString s1 with
        | .err => .err
        | .panic => .panic
        | .ok (a, s2) =>
          match skipBlanks s2 with
          | [] => .err
          | c :: s3 =>
            if c = 93 then .ok ([a], s3)
            else if c = 44 then
              match jsonStrings fuel s3 with
              | .ok (l, s4) => .ok (a :: l, s4)
              | .err => .err
              | .panic => .panic
            else .err

/-- `json.Unmarshal` into a slice of strings: null is the empty slice, other values than arrays are errors. Elements which are null (empty strings) are not
modelled. Go library; called at `hashtree/block.go:98`. -/
def unmarshalStrings (data : Str) : Out (List Str) :=
  let d := skipBlanks data
  if (lit "null").isPrefixOf d then (if skipBlanks (d.drop 4) = [] then .ok [] else .err)
  else match d with
    | [] => .err
    | c :: s =>
      if c ≠ 91 then .err
      else match skipBlanks s with
        | [] => .err
        | e :: s' =>
          if e = 93 then (if skipBlanks s' = [] then .ok [] else .err)
          else match jsonStrings data.length s with
            | .ok (l, rest) => if skipBlanks rest = [] then .ok l else .err
            | .err => .err
            | .panic => .panic

/-- `hashtree/block.go:86-93`, `MarshalJSON`: the text. -/
def blockJson (list : List Hash) : Str := marshal (.list ((marshalBlock list).map .text))

/-- `hashtree/block.go:96-115`, `UnmarshalJSON` of a text. -/
def blockFromJson (sha : Str → Hash) (data : Str) : Out (List Hash) :=
  match unmarshalStrings data with
  | .ok l => unmarshalBlock sha l
  | .err => .err
  | .panic => .panic

end Verif.HashTree
