# Formal model of wizadr/steve in Lean 4

## Method

* Each Go package is modelled by one Lean module `lean/Verif/Model/<Pkg>.lean` with total,
  computable functions. Every definition cites the Go file and lines it follows and says what it
  simplifies.
* Go's three outcomes are explicit: a function that may fail returns `Out α`
  (`ok`, `err`, `panic`); Go functions that may diverge take a `fuel : Nat` and return `none`/`Out.fuel`
  when it is exhausted, so that divergence is stated as "for all fuel".
* Go strings are byte strings: `Str = List UInt8`.
* Specifications that do not use model helpers live in `lean/Verif/Spec/*.lean`; theorems (one per
  property, plus auxiliary ones) in `lean/Verif/Props/*.lean` and next to each an `example`
  that instantiates the hypotheses with a concrete non-trivial case.
* Properties the code violates are proved as negations (with a witness, or for an entire family of
  inputs), with the part that does hold proved too.

## Trusted base

* Lean 4.33.0's kernel. Axioms: at most `propext`, `Classical.choice`, `Quot.sound`
  (`#print axioms` in the gate). No axioms are added, no compiled evaluation is used.
* The reading of Go: that the model functions follow the cited lines. The Go code was only read, not run.
* Abstractions (parameters of the theorems, never axioms):
  * SHA-512 / SHA-256 are arbitrary functions with 64/32-byte output. Collision statements are
    of the form "equal or here is an explicit collision".
  * AES is an arbitrary keyed function on 16-byte blocks (CFB only uses the forward direction).
  * Ed25519: scalars are `ZMod L` for a prime `L`, points an arbitrary commutative group with a base point
    killed by `L`, scalar multiplication is by the representative in `[0,L)`; this includes points
    outside the prime-order subgroup. That the vendored library does this is proved for the scalars (C116-C119):
    the 32-byte arithmetic of kyber (`scalar.go`, every carry of the int64 limbs) and the point multiplication loop
    (`geScalarMult`) are modelled to the byte and refine this algebra, below the limit of C117;
    the order is proved prime. The points themselves, in the extended coordinates of
    `ge.go`, with their bytes, are modelled in `Model/Edwards` and proved to be the group Ed25519 (C122-C125); there a field element is its residue.
    The ten int32 limbs of `fe.go` are modelled in `Model/FieldLimbs` and the points in limbs in `Model/EdwardsLimbs`, and refine
    them without overflow (C126-C128). What stays abstract is SHA-256, an arbitrary function.
  * Go maps are association lists; iteration order is an explicit list, so a statement about all
    orders quantifies over all of its permutations.
  * `time.Time` is an integer number of nanoseconds; 64-bit wrap-around is modelled where a
    conversion in the code can wrap.
  * `math.Log2`-based padding is modelled by the exact next power of two.

## Properties

See the table in section "Status" (kept in sync with MANIFEST.json). The plan per property:

| id | model | proof |
|----|-------|-------|
| C01-C04 | `Model/Hash` : hex, FromBytes, FromMultiBytes, Compare | induction on bytes, case analysis |
| C05-C11 | `Model/HashTree`: builder, resize, tree recursion, BlockLeaves, Order | induction on tree levels; collision extraction by induction |
| C12-C14 | `Model/Codec`, `Model/Cipher` | CFB as recursion over 16-byte segments; induction |
| C15-C22 | `Model/Signature` | invariants of the signing loop, algebra in `ZMod L` |
| C23-C29 | `Model/Ledger`, `Model/Peers` | case analysis of builders; concatenation lemmas |
| C30-C32 | `Model/Cardinality` | interval arithmetic; decimal print/parse |
| C33-C36 | `Model/Patterns` | invariants of the scan loops |
| C37 | `Model/Results` | loop invariant |
| C38 | `Model/Containers` | induction over lists |
| C39-C42 | `Model/Lexer` (fuelled token matcher) | mutual induction on fuel |
| C43-C44 | `Model/Mistakes`, `Model/Ast` | structural induction on match trees |
| C45-C47 | `Model/Roots` | structural induction with cache state |
| C48 | `Model/Manager` | induction on event list |
| C49 | `Model/App` | case analysis of the reference resolution |
| C50 | `Model/Suites` | list induction |
| C51 | `Model/BaseAst` (operations) | structural induction, semantics `Spec/BaseAst` |
| C52-C53 | `Model/Ledger` | unfolding builders for an arbitrary hash function; families of collisions |
| C54 | `Model/Patterns` | induction over choices; violation families |
| C55, C57, C58 | `Model/Lexer`, words in `Spec/Lexer` (inductive language of a container) | induction on fuel; violation families |
| C56 | `Model/Lexer`, `Spec/Lexer` (rank of a grammar without recursion) | measure (rank, script length), fuel bound |
| C59 | `Model/Lexer`, `Spec/LexerSafe` | invariant "no panic" over all mutually recursive functions |
| C60 | `Model/Lexer`, `Spec/LexerHist` | state independence by mutual induction |
| C61 | `Model/HashTree`, `Spec/HashTree` (recursive Merkle root) | induction on levels |
| C62-C64 | `Model/Signature`, `Model/Codec` | fold over the ring; base64 decoding lemmas |
| C65 | `Model/Patterns`, `Model/Grammar`, `Model/Cardinality` (builders) | case analysis |
| C66-C67 | `Model/Grammar` (paths adapter), `Spec/Grammar`, `Spec/GrammarRec` | termination measure on the dependency list; bisimulation of the languages |
| C68-C69 | `Model/Lexer`, `Spec/LexerChannels`, `Spec/GrammarRec` | induction over lines / depth; divergence = `none` for all fuel |
| C70 | `Model/App` | state transformer of the application |
| C71 | `Model/BaseAst` (all builders) | case analysis |
| C72-C76 | `Model/BaseEvents` (the events), `Model/Parsers` (manager), `Model/BaseGrammar` | events are deterministic programs with calls; one relation "may result in" quantifies over map orders |
| C77, C82 | + `Model/Roots`, `Spec/BaseSource` (trees written from the grammar) | conformity is preserved by the adapter; cache invariant |
| C78-C80 | `Spec/BaseParser` (conforming trees, readings) | induction over the size of the tree |
| C83-C85 | `Model/Regex` (backtracking semantics of Go's regexp: all matches in order of preference), `Model/Text` (the text adapters) with `Spec/TextTokens` (how tokens are written) | induction over the parts of the text; which matches are preferred |
| C86-C90 | `Model/Text` with `Spec/TextRules`, `Spec/TextPatterns` (how rules, groups, series and patterns are written) | induction over the entries; a text without the names of the searched kind in front of a colon is skipped by the scan (`Lemmas/TextQuiet`) |
| C91 | `Model/BaseText` (the shipped texts verbatim), `Spec/BaseText` (what they say) | the texts are the texts of written entries (checked by the kernel), then C83, C86, C88; the exact pieces of every line; the child counts of `Model/BaseGrammar` are computed from them (`C91_view`) |
| C92 | `Model/Lexer`, `Model/Ast`, `Model/Grammar` with `Spec/Derivation` (derivation trees, and where a line may be given up) | mutual induction over the recognised token against the unfolded path (`Lemmas/Derivation*`); that lines really are given up is shown by `C55_mandatory_tail_ignored` and `C69_guard_unsound` |
| C93 | `Model/App` with `Model/Text*` and the shipped texts (`Spec/BaseApp`: `Setting`, `x.ast`, `x.root`) | C91 gives the grammar, C66 that it compiles at every depth from 64 on (`Lemmas/Depth`), C92 the trees, `tree_conf` (induction over trees) that complete trees conform, C82 the parser; a run on `if ab { break }` is evaluated by the kernel |
| C94 | `Model/Lexer`, `Spec/LexerOrder` (channels which cannot begin at the same place) | the first channel which matches is the only one; induction over the fuel for two environments with permuted channels (`Lemmas/LexerOrder`, `LexerHist`); the shipped channels differ in their first characters |
| C95 | as C93 | kernel evaluation of the matcher on the tables of C91 (`Lemmas/BaseRuns`), transferred to all settings, orders (C94) and larger fuel (`base_witness`) |
| C96 | `Model/Lexer`, `Model/Grammar` | the guard is removed by the first of the two lines and set again by the second: with 14 steps fewer the matcher is at the same place of the same text (`Lemmas/LexerLeft`, induction over the steps) |
| C97 | `Model/Lexer`, `Spec/LexerTotal` | induction over the length of the script, the rank of the token, the number of names of its class which are not guarded and the names not yet unfolded (`Lemmas/LexerTotal*`, frames in `Lemmas/LexerFrame`) |
| C98 | `Model/Lexer`, `Mistakes`, `Ast`, `Spec/LexerAnswers` | one induction over the steps of the matcher: no error and no panic, the walk for mistakes answers on what is found, and there is a tree if it is valid and a beginning of the script (`Lemmas/LexerAnswers`) |
| C99 | as C93 | C97 and C98 for the shipped texts: ranks by table, checked by kernel evaluation (`Lemmas/BaseTotal`), order by C94 |
| C100–C102 | `Model/Text`, `Model/Regex`, `Spec/TextRefs` (how includes and links are written) | the blanks in front of a match do not matter, other statements are skipped because keywords cannot cross their borders, then the loops over the matches (`Lemmas/TextRefs2`–`4`); the violations: one path panics, the dot of the pattern is not escaped, keywords in names |
| C103 | as C92, C93, `Model/Roots` | a derivation tree has names and texts everywhere, so it is convertible (C45); with C99 for the shipped texts (`Lemmas/RootTotal`) |
| C104 | as C93 and C103, all events of the shipped parser (`Model/BaseEvents`, `BaseAst`) | given-up trees are still lists of children of one line; every event finds the child it asks for, or what it finds instead is read without a panic; the first sign of a text tells `forStatement` and `assignee` apart; then every event gives an error or an object of its kind (`Lemmas/BaseTyped*`, `BaseBuilt*`, `BaseSkip`) |
| C105, C106 | `Model/Rsa`: the wrappers, RSA-OAEP, PKCS #1 and DER as far as they are used (SHA-256 a parameter, keys with two primes) | Fermat and the Chinese remainder theorem; the masks of OAEP cancel; DER numbers and lengths are read back, reading does not depend on what follows (`Lemmas/Rsa`) |
| C107 | `Spec/BaseWritten`: `Written`, the object written in a tree, with a clause for every line of the grammar, on the own parts of a root only | every written object is read in a run (induction over trees, all clauses); every conforming tree has one; with the determinism of clear trees (C81) it is the only reading; end to end with C82/C93. Closes the gap of C79, which only says of which kind the object is |
| C108 | `Lemmas/Interpret`: an interpreter for the manager, proved to give possible outcomes only; the texts are run through lexer, root conversion and parser in the kernel | witnesses for the violations (two readings of a sum, `true` as a name, a text cut in the middle), for all settings and channel orders |
| C109 | `Spec/LexerRead`: a relational semantics of grammars without recursion on texts only (no matches, states or steps) | induction on the steps: every result of the matcher is a reading (`Lemmas/LexerReadElem`), including what the matcher loses by its search for constants; readings are unique (`LexerReadUnique`, structural) |
| C110 | the same semantics, `Reordered` | readings are invariant under permutation of lines in any depth, then C109 on both sides |
| C111 | `Spec/Signature`: `RingMade`, the equations of a ring signature for a member with a nonce | the public challenges satisfy the equations for every member; uniqueness of the nonce; `ringSign_spec` for the code; the shared nonce exposes the position |
| C112 | the semantics of C109 for the lines and for the `not` lines of the root | both results of `bestLineToMatches` are readings; a mandatory rule in a line always leaves a match, valid or not, so that the `not` lines decide alone |
| C113 | `Spec/Ledger`: `History`, linked blocks; `SameBlock` | induction on the history with C28 at every block; the heights go down together, so the digits agree |
| C114 | the builders of the ledger | families of inputs which the builders accept |
| C115 | `Spec/Ledger`: `Provenance`, the origins down to a genesis unit | induction on the origins with C28; a unit and a transaction cannot be confused, as their texts have different lengths |
| C116 | `Model/Scalar`: limbs, the 200 steps of the reduction, store, Inv | interval analysis of every step by the kernel (no int64 overflow), congruence modulo the order; Pratt certificate for the prime; square and multiply |
| C117 | `Model/PointMul`: nybbles, signed digits, table lookup, 64 steps | digits keep the number; the highest digit is lost from 9 on: violation family |
| C118 | `Model/SignatureBytes`, `Spec/SignatureBytes` | refinement of `Model/Signature` by residues; C15-C21 carried over |
| C119 | the same | violation families: several forms of one residue |
| C120 | `Model/Memory`, `Model/MemoryLists` (backing arrays, slices, append), `Spec/Memory` | exact effect on every cell; snapshots, frames; violation families |
| C121 | `Model/Signature` | chain of challenges, forwards and backwards; violation families |
| C122 | `Model/Edwards` | the group law of complete twisted Edwards curves (`Spec/EdwardsGroup`: Bernstein-Lange completeness, associativity by polynomial identities), Pratt certificate of the field prime, each formula of `ge.go` against it |
| C123 | `Model/Edwards` | the order computed by doubling in the kernel, against a proved correct loop |
| C124 | `Model/Edwards`, `Model/SignatureEd` | the exponentiations as powers, Fermat and the fourth roots of one; parity and the 255 bits |
| C125 | `Model/SignatureEd` | simulation of every function by `Model/SignatureBytes` with the concrete group; corollaries of C117-C119; violation witness |
| C126 | `Model/FieldLimbs` (machine integers which wrap around), `Spec/FieldLimbs` | interval analysis of the limbs, proved sound, run in the kernel on the bounds; values as polynomials in the limbs (`ring`); the digits of `feToBytes` |
| C127 | `Model/EdwardsLimbs`, `Spec/EdwardsLimbs` | refinement of `Model/Edwards` formula by formula with bounds; induction on the sequence of operations |
| C128 | `Model/SignatureLimbs`, `Spec/SignatureLimbs` | simulation as in C125 |
| C129 | `Model/SignatureLimbs`, `Spec/SignatureAttacks` | the leaks of C20 carried to machine words by the simulation of C128; the attacks are programs |
| C130 | `Model/SignatureLimbs`, `Spec/SignatureAttacks` | C121 carried to machine words by the simulation of C128; the attack is a program |
| C131 | `Model/Lexer`, `Spec/Work` (the work is the counter of passes over the channels in the state of the lexer) | potential method: a visit of a recursive token pays or forgets its text; visits counted over the source of the grammar; induction over the brackets |
| C132 | `Model/HashTreeJson` (what `encoding/json` writes and reads of lists of strings and of structs) | induction over the list which is read; the JSON of two trees of different lengths is the same text |
| C133 | `Model/Observers`, `Spec/Observers` (the parts of a token; what `Input` gives) | mutual induction over tokens, lines and matches; inversion of the runs of the matcher; concrete runs for the violations |
| C81 | `Spec/BaseClear` (fixed table of confusable parts) | determinism of Scan on clear roots |

## Where the code deviates

Properties whose natural statement is false of the code are proved as a violation (a theorem ending in `_violation…`, for a whole
family of inputs where possible) together with the part which does hold. MANIFEST.json says which.

## Simplifications and what is not modelled

* Generation of RSA keys (`rsa.GenerateKey` is an input), keys with more than two primes, wallets and other interface-only packages, logging, file input/output
  (file contents are parameters), memory aliasing except in `Model/Memory`. Which slices are
  shared was checked by reading: the appends of the lexer, the trees, the paths and the mistakes write to slices nobody else reads; a hash is an array, copied by value; the
  block of a hash tree writes behind the blocks of its caller, and the builders of lists and `RingSign` keep the slice of their caller (C120).
* Standard library functions follow their documentation: `strings.Split`, `strconv.Itoa/Atoi/ParseInt/ParseUint`, base64, hex, and `encoding/json` for the values which occur (strings without escapes, numbers, lists, structs by the names of their fields; `Model/HashTreeJson`);
  `strconv.ParseFloat` is a parameter. Splitting by an empty delimiter is left out (no caller does it).
* `Token.path` and observers which only return a field are left out.
* `append(app.dependencies, …)` in the paths adapter is modelled without the possible sharing of the backing array, which is not observable: the builder of dependencies copies the list into a map before the next call.
* Iteration over a Go map is an arbitrary permutation (or an arbitrary choice of the next element). Where the code only collects from a map
  into a result whose order is not observed (`CombinedElements`) one order is fixed.
* Events of the parser manager are deterministic programs which may call back the manager; a typed nil inside a non-nil interface
  is not modelled. The interfaces of the base language are a disjoint union of its kinds.
* `resources/base/tokens.alex` is transcribed as data (`Model/BaseGrammar`).
* The unreachable part of `linkToPathFromFile` (behind the patterns that are never set, C49) is not modelled.
* `regexp` is modelled by its documented preference of matches (`Model/Regex`): texts are bytes and a character of a pattern is one byte, so
  `.` is one byte and not a whole UTF-8 sequence; all the classes of the patterns are sets of ASCII characters or complements of such.
  `strings.TrimSpace` trims ASCII white space.
