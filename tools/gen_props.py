# Generates /verif/properties.jsonl from the table below (kept in git so the list can be regenerated).
import json
P=[]
def p(title,statement,quant,why,anchors):
    P.append(dict(id="C%02d"%(len(P)+1),title=title,statement=statement,quantifier=quant,why_tests_cant=why,anchors=anchors))
H="domain/hash/"
p("Hash text round-trip","For every 64-byte hash h, parsing h.String() with FromString returns h and no error; distinct hashes print differently; FromString reports an error exactly when the text is not even-length hexadecimal.",
  "all 2^512 hashes and all strings","infinitely many strings; a test samples a few",[H+"adapter.go:FromString",H+"hash.go:String"])
p("FromBytes is total, 64 bytes pass through, everything else is SHA-512","FromBytes never fails; on an input of exactly 64 bytes it returns these bytes unchanged, on every other length it returns SHA-512 of the input. Hence re-hashing a hash's bytes gives the same hash (idempotence), and a 64-byte document always collides with any document whose digest it equals (the digest is not second-preimage resistant on 64-byte inputs).",
  "all byte strings and every SHA-512 function","all inputs of all lengths",[H+"adapter.go:FromBytes"])
p("FromMultiBytes only binds the concatenation","FromMultiBytes over a list of chunks equals FromBytes of their concatenation, so regrouping chunks never changes the hash; consequently it does NOT bind chunk boundaries: for every two different chunk lists with one concatenation the hashes are equal, and such lists exist.",
  "all lists of byte strings","unbounded lists",[H+"adapter.go:FromMultiBytes"])
p("Hash comparison is equality","Compare returns true exactly when both hashes have the same 64 bytes; it is reflexive, symmetric and transitive.",
  "all pairs of hashes","2^1024 pairs",[H+"hash.go:Compare"])
T="domain/hashtree/"
p("Hash tree shape","For every non-empty list of n blocks the builder succeeds and the tree has exactly the smallest power of two >= max(2,n) leaves, Length() reports that number and Height() reports log2 of it plus one.",
  "all non-empty block lists","unbounded block counts",[T+"builder.go",T+"block.go",T+"leaves.go"])
p("Hash tree leaves are the block hashes in order","The leaves of a built tree, read left to right, are the hashes of the blocks in the given order followed only by copies of the hash of the empty block.",
  "all non-empty block lists","unbounded block counts",[T+"hashtree.go:Compact",T+"parentleaf.go:BlockLeaves"])
p("Hash tree root binds the leaves","If two trees with the same number of leaves have the same head hash then either their leaf hashes are equal position by position or two distinct strings with one SHA-512 value are found among the strings which the construction of the two trees hashed.",
  "all pairs of block lists","collision argument over all trees",[T+"leaves.go:HashTree",T+"hashtree.go:Head"])
p("Hash tree head does not bind the number of blocks","The head does not determine the block list, whatever the hash function: (a) when the number of blocks is not a power of two, appending an empty block keeps the head; (b) for every four blocks the tree over the two 64-byte interior digests has the same head as the tree over the four blocks.",
  "all block lists of the stated form","the failing inputs form infinite families",[T+"block.go",H+"adapter.go:FromBytes"])
p("Order restores the original order","For a tree built over blocks with pairwise distinct hashes, none of which is the filler hash, Order applied to any permutation of the blocks returns the blocks in their original order. Whatever it returns consists of given data with the leaf hashes, in leaf order, and has the length of the given list. It does not verify completeness: a list in which a block's data is replaced by an empty block is accepted when the tree has filler leaves.",
  "all block lists and all permutations","n! permutations for every n",[T+"hashtree.go:Order"])
p("Order fails on trees with an empty block and padding","For every list of blocks whose length is not a power of two and which contains the empty block, Order of the original data fails although nothing is missing.",
  "all such block lists","infinite family",[T+"hashtree.go:Order"])
p("Empty block list","Building a hash tree without blocks returns an error, and a single block yields a tree with two leaves, never an empty tree; the behaviour on an empty (non-nil) block list is a run-time panic, not an error.",
  "all builder inputs of length <=1","every single block must be covered",[T+"builder.go",T+"leaves.go"])
C="domain/cryptography/"
p("Decrypt inverts Encrypt","For every password, message and random initialization vector, Decrypt(Encrypt(message)) with the same password returns the message.",
  "all passwords, messages of all lengths, IVs and 128-bit block ciphers","all message lengths and IVs",[C+"encryption.go:Encrypt",C+"encryption.go:Decrypt"])
p("Encryption is not authenticated","Decrypt rejects only texts that are not base64 or that are shorter than 16 bytes: every other text decrypts without error under every password (so a wrong password is never detected), flipping bits in a block of the ciphertext flips exactly these bits of the plaintext and at most garbles the next block (none after the last one), and cutting off the end of a ciphertext cuts off the plaintext.",
  "all ciphertexts and passwords","negative fact about all inputs",[C+"encryption.go:Decrypt"])
S=C+"keys/signature/"
p("Base64 and hex encodings are lossless","Decoding the standard padded base64 (or hex) encoding of any byte string returns that byte string. The encoded text is the one of RFC 4648: the characters of the alphabet for the groups of six (or four) bits in their order, with padding at the end only; nothing else is in it.",
  "all byte strings","unbounded lengths",[S+"signature.go:String",C+"encryption.go"])
p("A signature reveals its signer","For every private key x and message m, Sign succeeds and PublicKey(m) on the signature returns exactly x's public key, whenever the challenge scalar is non-zero.",
  "all keys, messages, and hash functions","all keys and messages",[S+"privatekey.go:Sign",S+"signature.go:PublicKey"])
p("Signature.Verify accepts forgeries","Signature.Verify() (which takes no message and no key) returns true for every pair (r,s) with r in the prime-order subgroup as long as the sampled challenge is non-zero, so it authenticates nothing.",
  "all pairs (point, scalar)","shows a check is vacuous for all inputs",[S+"signature.go:Verify"])
p("Ring signatures verify","For every non-empty ring of arbitrary points containing the signer's public key (possibly several times) and every message, RingSign succeeds and the produced signature verifies for this message.",
  "all rings of any size, all signer positions, all messages","unbounded ring size and all group elements",[S+"privatekey.go:RingSign",S+"ringsignature.go:Verify"])
p("Non-members cannot ring-sign","RingSign returns an error exactly when the signer's public key is not in the ring.",
  "all keys and rings","all rings",[S+"privatekey.go:RingSign"])
p("Degenerate ring signatures are accepted","A ring signature whose ring is empty verifies for every message; one with fewer responses than ring members panics in Verify instead of returning false.",
  "all messages and challenges","hostile inputs",[S+"ringsignature.go:Verify",S+"ringsignature_adapter.go"])
p("Signing leaks the private key by nonce reuse","Any two signatures (plain or ring) by one key on one message with different challenges determine the private key: x=(s-s')/(e'-e). In particular the same holds between RingSign(m) (position i not the signer) and Sign(m followed by the decimal text of i).",
  "all keys, messages and rings","algebraic identity over all keys",[S+"helper.go:genK",S+"privatekey.go:Sign",S+"privatekey.go:RingSign"])
p("Signature text round-trip","Converting any signature, ring signature, private key or public key to a string and parsing it back gives the same object, provided point and scalar encodings are lossless and do not contain the delimiters.",
  "all signatures and rings of any size","unbounded rings",[S+"adapter.go",S+"ringsignature_adapter.go",S+"publickey_adapter.go",S+"privatekey_adapter.go"])
p("Ring membership verification is positional","ToVerification accepts a (signature, message, key hashes) triple only if the ring signature verifies and the i-th hash equals the hash of the i-th ring key, for all i, and both lists have equal length.",
  "all triples","unbounded rings",[S+"ringsignature_adapter.go:ToVerification"])
p("Ledger objects need their mandatory parts","Each ledger builder (block, chain, genesis, unit, transaction, secret, receipt, ring, identity) succeeds exactly when its mandatory parts are present and valid, and the built object returns the given parts unchanged.",
  "all combinations of set and unset fields","2^n field combinations with arbitrary contents",["domain/chains","domain/genesis","domain/transactions","domain/receipts","domain/rings","domain/identities"])
p("Genesis never contains a unit older than itself","Every Genesis that the builder returns has at least one unit, and every unit was created at or after the genesis time and is activated no earlier than it was created.",
  "all genesis objects","unbounded unit lists and times",["domain/genesis/builder.go","domain/genesis/unitcontent_builder.go"])
p("Ring sizes stay inside the configured bounds","A Ring is built exactly when its number of hashes lies between the configured minimum and maximum (inclusive).",
  "all lists and bounds","unbounded lists",["domain/rings/ring_builder.go"])
p("Unit content hashing is ambiguous","Two unit contents that differ in amount and nonce can have the same hash whatever the hash function (amount 1, nonce '23' and amount 12, nonce '3'); more generally moving leading digits of the nonce to the amount never changes the hash.",
  "all amounts, nonces and times","infinite family of collisions",["domain/genesis/unitcontent_builder.go"])
p("All receipts (and private transactions) have one hash","Any two receipts have equal Hash(), whatever their secret and signature; the same holds for private transactions.",
  "all pairs of receipts","all pairs",["domain/receipts/builder.go","domain/transactions/privates/private_builder.go"])
p("Ledger hashes bind their content","If two blocks whose heights have the same number of digits have the same hash then height, fees hash, transactions hash, creation second and previous hash agree, or the two texts hashed are a SHA-512 collision. The same holds for chains (identifier, root, second, head), transaction contents, transactions, genesis units and genesis objects (fees with equally many digits).",
  "all pairs of ledger objects of one kind","collision argument",["domain/chains/block_builder.go"])
p("Peer text round-trip","For every peer whose host does not contain the delimiter and whose port is a valid port number, parsing its String() gives the same host and port; a text without exactly one delimiter or with a non-numeric port is rejected. Negative ports are accepted and wrap to a huge port.",
  "all hosts and ports","unbounded strings",["domain/peers/peer_builder.go","domain/peers/peer.go"])
L="domain/languages/lexers/"
p("Cardinality validity is interval membership","IsValid(n) holds exactly for n in [0,1] for '?', n=1 for mandatory, n>=1 for '+', n>=0 for '*', n=k for '{k}', min<=n<=max for '{min,max}' and n>=min for '{min,}'.",
  "all cardinalities and all n","unbounded n",[L+"cardinality/cardinality.go:IsValid"])
p("Cardinality text round-trip","Printing any non-mandatory cardinality (with amounts below 2^63) with ToPatternString and parsing it gives an equal cardinality.",
  "all cardinalities","unbounded numbers",[L+"cardinality/adapter.go",L+"cardinality/specific_adapter.go"])
p("Empty ranges are accepted","A range {min,max} with min>max is accepted by parser and builder although no amount is valid for it; a parsed specific cardinality is never the exact amount 0.",
  "all ranges","unbounded numbers",[L+"cardinality/specific_builder.go"])
p("Group matching is longest-first and sound","Group.Contains returns the length of the longest non-empty element that is a prefix of the content, 0 if none is; the reported discovery is a member of the group found at the reported index, and no element matches at an earlier index.",
  "all groups and all contents","unbounded strings",[L+"containers/patterns/group.go",L+"containers/patterns/adapter.go:FromGroupToResult"])
p("Pattern results are anchored substrings","Every result of matching a pattern consists of discoveries whose concatenation occurs in the content at the reported index, is not empty and has length Amount().",
  "all patterns and contents","unbounded",[L+"containers/patterns/adapter.go"])
p("The remaining text of a group result","The remaining text after a group discovery is what follows the discovery. The code violates this whenever the discovery does not start at index 0; it holds when it does.",
  "all groups and contents","unbounded",[L+"containers/patterns/adapter.go:FromGroupToResult"])
p("Earliest pattern wins","FromPatternsToResult returns a result of a listed pattern with minimal index, the first listed among ties.",
  "all pattern lists and contents","unbounded lists",[L+"containers/patterns/adapter.go:FromPatternsToResult"])
p("Rule results respect the maximum","The number of matches in a rule result never exceeds the rule's maximum cardinality and, when every match is at index 0, the matches tile a prefix of the script.",
  "all rules and scripts","unbounded",[L+"asts/results/adapter.go"])
p("Grammar containers reject duplicates","Rules and Tokens containers cannot be built with two entries of one name; Find returns the unique entry with the name or an error.",
  "all lists","unbounded",[L+"containers/rules/builder.go",L+"containers/tokens/builder.go"])
p("Recognised text is a prefix of the input","When the token matcher reports a valid token for a script and prefixes are not allowed, the recognised text is a prefix of the script, and the remaining script is exactly what was not consumed.",
  "all grammars and scripts","unbounded scripts and grammars, recursion",[L+"asts/tokens/adapter.go:ToToken"])
p("Repetition counts respect cardinality","In every valid match the number of repetitions of each element lies inside the element's cardinality, and an element with a maximum of at least one is never repeated more often than the maximum, in valid and in rejected parts (a maximum of 0 is noticed after the first repetition only, which is then not valid and not part of the text).",
  "all grammars and scripts","unbounded",[L+"asts/tokens/adapter.go",L+"asts/tokens/rulematch.go",L+"asts/tokens/tokenresult.go"])
p("The token matcher may not terminate","A token that has a 'not' part is considered valid when its not part fails, even if nothing was matched; repeated with an unbounded cardinality the matcher loops forever on a non-empty script.",
  "all numbers of steps","non-termination is not observable by tests",[L+"asts/tokens/adapter.go:tokenPathToTokenResultMatches",L+"asts/tokens/tokencontent.go:IsValid"])
p("The longest valid line wins","Among the alternatives of a token the matcher selects the first valid line with the longest recognised text.",
  "all alternatives","unbounded",[L+"asts/tokens/adapter.go:bestLineToMatches"])
p("Mistake positions","The reported index is the number of bytes recognised before the mistake, the line is the number of newlines in it and the column is the offset in the last line (minus one when it is not empty). This holds for the position computed from a recognised text, but the code violates it for the mistakes: without prefixes, channels, 'not' parts and specifiers every mistake is reported at (0, 0, 0) for the root token, however much of the script was recognised in front of it (except a constant found behind other text). Every mistake concerns the token reached from the root by the names of its parents. A matching 'not' line is reported at the end of its text and a missing constant behind channel texts behind them.",
  "all scripts, grammars of this kind and mistakes","unbounded",[L+"asts/mistakes/adapter.go:getCurrentPosition"])
p("Success and mistake are exclusive","Without prefixes, 'not' parts and groups of lines ToAST returns a success exactly when the recognised token is valid and a mistake exactly when it is not; a success has the root's name and its discovery is the text of the token, a prefix of the script. When prefixes are allowed the code violates this: text in front of the first constant gives a success although the token is invalid and the rest of the line is missing, or a panic. With a 'not' part a valid token may give a mistake. Every success mirrors the token: the same names, line numbers and matches in order.",
  "all scripts and grammars","unbounded trees",[L+"asts/adapter.go",L+"asts/token.go:Discovery"])
p("Root trees keep the recognised text","ToRoot gives no root exactly for a token without matches and a root exactly for the tokens whose children, at every depth, have names and texts; otherwise an error, never a panic. The root has the token's name and recognised text and one node per distinct child name; the containers of a node are those of the children with its name, in source order, and its text is the concatenation of their texts.",
  "all token trees","unbounded trees",[L+"roots/adapter.go"])
p("Root caching confuses tokens with equal text","The container of a child token should carry the root of this child. This holds when no token behind the child has the same text; otherwise the code violates it: the container carries the root of the last such token, whatever its name.",
  "all such token pairs","depends on history of the cache",[L+"roots/adapter.go:toRootWithCache"])
p("Scanning finds existing elements","Scan(name) on a root ends for every iteration order of the maps; it finds an element exactly when something reachable from the root (itself, nodes, containers and the nodes of their roots) has this name, and the element found has the name and is reached without passing another element of that name. If at most one such topmost element exists the result does not depend on the iteration order; in particular a node of the root is found by its name unless another node contains this name. The code violates determinism otherwise: a name inside two nodes is found in either of them.",
  "all root trees and map iteration orders","map iteration order is non-deterministic",[L+"roots/nodes.go:Scan"])
p("Events run in order until one succeeds","Execute of the parser manager yields a result exactly if some event registered for the name of the root does not fail, and then the values of the first such event; it fails if there is none, or all fail, or (violation) the first good event returns nil although a later one may return a value. Trigger(name) yields one value per container of the node of this name, in order, and fails if nothing has the name. If the events only descend into the root they were given every call ends; an event that executes its own root never does. The application returns only the first of several values.",
  "all event maps, all event programs calling back the manager, all roots, all map iteration orders","arbitrary re-entrant callbacks and map orders",["applications/languages/parsers/manager.go"])
p("Imported references always fail","Every grammar that contains at least one resolvable 'reference' cannot be compiled to a path: an error is returned whatever the included files contain, because the patterns of the included resource are never set. A grammar without links behaves as its tokens alone, and a success means that the content begins with a word of the root token.",
  "all grammars with references and all file contents","all file contents",["applications/languages/lexers/application.go:linkToPathFromFile",L+"resources/containers/builder.go"])
p("Test suites mirror the grammar","Executing the suites yields one suite per token with tests, in token order, with one line per test line, numbered from 0, whose flag is the outcome of an own run of a fresh matcher for that token; a successful line begins with a word of the token. The code violates what a user expects in two ways: one token that cannot be compiled loses the suites of all tokens, and a line is successful although text follows the word.",
  "all grammars","unbounded",[L+"suites/application.go"])
p("Operations without suffix collapse one level","An operation built without a suffix around an element that is itself an operation is that inner operation; all others are kept as they are. The value of what is built is the value of its element, or of its operator applied to its elements, and no operation made with the builders contains, at any depth, an operation which only wraps another operation.",
  "all operations","unbounded nesting",["domain/languages/scripts/base/parsers/operation_builder.go","domain/languages/scripts/base/parsers/operation.go"])
p("Lists with one element are transparent","A ring, list of rings, units, transactions or secrets with exactly one element has the hash of this element, whatever the hash function.",
  "all elements","all objects",["domain/rings/ring_builder.go","domain/rings/builder.go","domain/genesis/units_builder.go","domain/transactions/builder.go","domain/transactions/secrets/builder.go",H+"adapter.go:FromBytes"])
p("No domain separation between ledger objects","Objects of different kinds or shapes share hashes whatever the hash function: a ring over the hashes of a unit's content and owner has the hash of the unit; a secret with an origin has the hash of the secret with this origin as its only side; exchanging the kind of a content's origin keeps the hash.",
  "all ledger objects of these kinds","infinite families",["domain/genesis/unit_builder.go","domain/rings/ring_builder.go","domain/transactions/secrets/secret_builder.go","domain/transactions/content_builder.go"])
p("The remaining text of a pattern result","When all the choices of a pattern are found, the input is the concatenation of the discoveries followed by the remaining text, and no next element is reported. The code violates this for incomplete matches: when a reversed choice finds nothing the remaining text is empty and the result looks complete, and when a serie stops in the middle the text of its first groups is in neither part.",
  "all patterns and contents","unbounded patterns and contents",[L+"containers/patterns/adapter.go:matchPattern",L+"containers/patterns/adapter.go:matchSerie",L+"containers/patterns/adapter.go:matchReversedSerie"])
A=L+"asts/tokens/adapter.go:"
p("Valid tokens are words of the grammar","For grammars without 'not' parts and recursion in which everything behind an optional part of a line is optional, the recognised text of a valid token is a word of the grammar in the usual sense (lines are sequences, cardinalities count repetitions, channel texts may stand in front of every part). The code violates this for all other lines: at the end of the script an optional part ends the line, whatever mandatory parts stand behind it.",
  "all such grammars, channels and scripts","all grammars and scripts",[A+"lineToMatches",A+"containerToBlockMatch"])
p("The token matcher terminates without recursion","For every grammar without recursive tokens in which tokens with a 'not' part have a maximal number of repetitions, with channels without 'not' and channel switches, ToToken terminates on every script.",
  "all such grammars, scripts, states and channel orders","termination for all inputs",[A+"ToToken",A+"tokenPathToTokenResultMatches",A+"findChannelBlockMatch",A+"ruleToRuleMatch"])
p("Repeated constants are lost","A line that begins with a constant of unbounded cardinality is rejected whenever the constant occurs again later in the script, not adjacent to the leading copies, although the leading copies are a word of the container.",
  "all constants, numbers of copies and rests","infinite family of scripts",[A+"ruleToRuleMatch",A+"lineToMatches"])
p("Alternatives of constants","An element whose lines are sequences of mandatory constants is valid exactly for the scripts which begin with the concatenation of one of its lines; the longest such line is recognised, and whatever follows it is ignored.",
  "all lists of alternatives, scripts and adapter states","unbounded alternatives and scripts",[A+"ToToken",A+"bestLineToMatches"])
p("The token matcher does not panic","On grammars whose lines have at least one element besides channel switches and whose patterns are not empty ToToken never panics, whatever the script, channels and state. The code violates this for other grammars: a token whose line has channel switches only makes it panic at the end of the script.",
  "all such grammars, scripts and states","all inputs and histories",[A+"ToToken",A+"fetchFirstRule"])
p("Calls are independent of the history","An adapter built without permission of prefixes gives the same outcome for a script whatever scripts it was called with before. The code violates this with permission of prefixes: the same script gives different ASTs in two consecutive calls.",
  "all grammars, scripts and histories of calls","unbounded histories",[A+"ToToken",A+"ruleToRuleMatch"])
p("The head is a Merkle root","The head of a hash tree is the Merkle root (in the usual recursive sense) of the hashes of the blocks in their order, filled up with the hash of the empty block to the next power of two (at least 2).",
  "all block lists and hash functions","unbounded lists",[T+"builder.go",T+"block.go"])
p("Ring verification checks the whole chain","With enough responses Verify of a ring signature is true exactly when the chain of challenges, started with the seed and led once around the ring, returns to the seed. A ring signature that verifies for two messages exhibits a collision of the scalar hash.",
  "all ring signatures and messages","all group elements and messages",[S+"ringsignature.go:Verify"])
p("Nonces are not reused","If two signatures have the same commitment point they were made with the same key and message, or the scalar hash has a collision between the texts the nonces are made from. Signing is deterministic except for the sampled self-check.",
  "all keys, messages and samples","all keys and messages",[S+"privatekey.go:Sign",S+"signature.go:createSignature"])
p("Texts of signatures are not canonical","Line breaks can be put anywhere into the text of a signature or a ring signature without effect. A text is decoded only if, without line breaks, it consists of whole groups of four alphabet characters with at most two padding characters at its end.",
  "all texts","all texts",[S+"adapter.go",S+"ringsignature_adapter.go"])
p("Builders of the parts","Groups, series, patterns, rules, cardinalities and the parts of a grammar are built exactly if their names, codes and lists are not empty, and then have exactly the given parts; the first given kind of a cardinality wins, an amount of 0 is refused, a range is not checked.",
  "all builder inputs","all combinations of inputs",[L+"containers/patterns",L+"containers/rules/rule_builder.go",L+"cardinality/builder.go",L+"containers/tokens"])
p("Which grammars are compiled","Compiling a token of a grammar succeeds exactly if all the tokens are complete, mention only known tokens, and no line of a token consists of this token alone. It ends for every grammar, however recursive, and the result does not depend on the calls before. The code violates the intended check of progress for more than one token: two tokens which stand for each other are accepted although neither has a word.",
  "all grammars, tokens and histories of calls","unbounded, mutually recursive grammars",[L+"asts/paths/adapter.go:ToPath",L+"asts/paths/adapter.go:elementToContainer",L+"asts/paths/adapter.go:toElementEncapsulated"])
p("Compiling keeps the meaning","The words of the compiled root are exactly the words of the root token of the grammar (recursion and channels included). For grammars without recursion, with optional parts only at the ends of lines, the text of every valid token is a word of the grammar.",
  "all grammars, channels, words and scripts","all grammars and unbounded words",[L+"asts/paths/adapter.go",L+"asts/tokens/adapter_builder.go:Now",A+"ToToken"])
p("Channels and channel switches","With one channel of constant text, a line of constants and channel switches accepts exactly the scripts that begin with the constants in order, with any number of channel texts in front of each constant as long as no switch was passed. The code violates the intended meaning of switches: the constant right behind a switch still accepts one channel text, and channels are never switched on again for the rest of the line.",
  "all lines of constants and switches, channel texts, scripts and states","unbounded lines and scripts",[A+"lineToMatches",A+"findChannelBlockMatch",A+"containerToBlockMatch"])
p("Recursive tokens","The right-recursive grammar R := a R | b is recognised completely: a script is accepted exactly if it begins with a word, which is the recognised text. The code violates this for other recursions: of the left-recursive R := R a | b at most three a are recognised and for exactly two a only b; it does not end on the empty script; two left-recursive alternatives make it end on no script; and for R := a R c | a R d | b texts which are no words are accepted.",
  "all constants, names, scripts, states and numbers of repetitions","unbounded recursion depth and non-termination",[A+"containerToMatch",A+"fetchFirstRuleFromTokenName",L+"asts/paths/adapter.go:ToPath"])
p("Applications remember replacements","After a call with result, an application of the lexer remembers for each name replaced by the grammar the path of the local token of the last such replacement, and nothing else changes; a grammar without replacements changes nothing. The code violates the independence of calls: a replacement of one grammar changes the meaning of the equally named tokens of all the grammars used later with this application.",
  "all grammars, texts, files and histories of calls","unbounded histories",["applications/languages/lexers/application.go:fetchReplacementPaths","applications/languages/lexers/builder.go"])
B="domain/languages/scripts/base/parsers/"
p("Builders of the base language","The builders of the objects of the base language succeed exactly if their mandatory parts are set; of several alternatives the first in a fixed order counts, lists keep their order and must not be empty, the value of a literal fits its type, and two types are equal exactly if Compare reports no error. The code violates the demand of at least one declaration: an empty list of declarations is built.",
  "all combinations of builder inputs","all combinations of inputs",[B+"instruction_builder.go",B+"operationelement_builder.go",B+"value_builder.go",B+"variabledeclarations_builder.go"])

H1="domain/languages/scripts/base/parsers/helper.go"
G1="domain/languages/scripts/resources/base/tokens.alex"
p("Numbers of a program","An integer literal without minus is read as the unsigned number its digits denote if this fits the configured bit size, one with minus as the negative number if this fits, and an index as the unsigned number; every other text is an error. Every number below 2^64 can be written.",
  "all texts, bit sizes and root trees","all texts",[H1+":newEvents"])
p("Operators are told apart","Each of the twelve operators of the base language is read as its own number, in every conforming tree; different operators have different numbers.",
  "all conforming operator trees and map iteration orders","map iteration orders",[H1+":newEvents"])
p("Operands, operators and conditions are confused","Parsing should read the operands, operators, conditions, indices and bounds from their own places. The code violates this: every operation a∘b may also be read as b∘b, every a∘(b•c) as a•(b•c), every if or for with a nested if or for as first instruction may get the condition of the inner one, every list access whose list contains another access may get the index of the inner one, and similarly for slices, depending on the iteration order of a map.",
  "all conforming trees of these shapes","map iteration order is non-deterministic",[H1+":newEvents","applications/languages/parsers/manager.go:Trigger",L+"roots/nodes.go:Scan"])
p("First elements of lists with commas are confused","A list with commas should be read with its elements in order. The code violates this: every list of assignees, first assignees, values and declarations with at least two elements a,b,... may also be read as b,b,... .",
  "all conforming lists with commas","map iteration order is non-deterministic",[H1+":newEvents","applications/languages/parsers/manager.go:Trigger",L+"roots/nodes.go:Scan"])
p("The base parser terminates","The parser with the events of the base language ends on every root tree, conforming or not, for every iteration order of the maps.",
  "all root trees and map iteration orders","termination for all inputs",[H1+":newEvents","applications/languages/parsers/application.go:Execute"])
p("Equal texts make programs fail","Every program of the grammar should be parsed. The code violates this: append x, x is a text of the grammar for every variable x, but every execution of the parser for it ends with an error because the root of the first x is replaced by that of the second.",
  "all variables","infinite family, depends on the cache",[H1+":newEvents",L+"roots/adapter.go:toRootWithCache"])
p("Types keep their depth","A type list<...<t>...> is read with the number of surrounding lists and the flag of its innermost type, in every conforming tree, and a tree writes one type only.",
  "all conforming type trees","unbounded nesting",[H1+":newEvents"])
p("Conforming trees are parsed","For every root tree that conforms to the grammar of the base language, with numbers in range, every execution of the parser ends with an object of the kind of the token, without error and panic, whatever the order of the maps; for a program it is a program.",
  "all conforming root trees and map iteration orders","unbounded trees and map iteration orders",[H1+":newEvents","applications/languages/parsers/application.go:Execute",G1])
p("Instructions keep their order","The instructions of a program, and of the blocks of if and for, are the readings of the instruction parts of the tree, in their order, none lost and none added; if no other condition is inside the block, the condition is the own one.",
  "all conforming trees and map iteration orders","unbounded trees and map iteration orders",[H1+":newEvents"])
p("Clear programs have one reading","If in no root of the tree one of the confusable parts (a fixed list of the grammar) also occurs inside another part of the same token, all the executions of the parser have the same outcome.",
  "all clear conforming trees and map iteration orders","map iteration order is non-deterministic",[H1+":newEvents","applications/languages/parsers/manager.go:Trigger"])
p("From the syntax tree to the program","The abstract syntax tree of every program of the base grammar in which tokens with equal texts are equally matched is converted to a root tree that conforms to the grammar, and the parser reads a program from it in every execution.",
  "all syntax trees of the grammar and map iteration orders","unbounded trees and map iteration orders",[L+"roots/adapter.go:ToRoot",H1,G1])
T1=L+"containers/tokens/adapter.go"
p("Token texts are read as written","The text of tokens is read as it is written, whatever the blanks in it: the tokens in their order with their names, lines, lines which must not match and tests, and the elements of the lines with their names, cardinalities and specifiers. Without tokens, or with a name twice, an error is returned. If no channel switch follows an element of which only the name is written, all the items of a line are read.",
  "all token texts with arbitrary names, blanks, cardinalities, specifiers and numbers of lines","unbounded texts",[T1+":ToTokens",T1+":instructions"])
p("Channel switches are lost","A channel switch in a line should be read. The code violates this: a switch right behind an element of which only the name is written is lost, in every line, and in the shipped grammar.",
  "all lines and names","infinite family",[T1+":instructions",G1])
p("Reading tokens does not panic","Reading the text of tokens never panics, whatever the text: the result is the tokens or an error.",
  "all byte strings and rules","all inputs",[T1+":ToTokens"])
R1="domain/languages/lexers/containers/rules/adapter.go"
N1="domain/languages/lexers/containers/patterns/adapter.go"
p("Rule texts are read as written","The text of rules is read as it is written, whatever the blanks in it: the rules in their order with their names, codes and constants (a quote is written with a backslash in front of it) or patterns with their cardinality. Without rules, or with a name twice, an error is returned.",
  "all lists of written rules, whatever the blanks, and all patterns","unboundedly many texts",[R1+":Rules",R1+":element",R1+":pattern"])
p("Rule texts which are misread","The constant of a rule should be the text between its quotes and no text should panic. The code violates this: ### in a constant is read as a quote; a constant with a semicolon is read as the empty constant or rejected; a rule with neither brackets nor quotes in its body panics.",
  "all names and texts of these shapes","all inputs",[R1+":Rules",R1+":rulesList"])
p("Pattern texts are read as written","The text of groups, series and patterns, in any order and whatever the blanks in it, is read as it is written: the patterns in their order with the series of their choices, and these with their groups and options; of several groups, series or patterns of the same name the last one counts. Without groups or patterns, or if a group or serie which is mentioned is not written, an error is returned.",
  "all lists of written groups, series and patterns, whatever the blanks","unboundedly many texts",[N1+":ToPatterns"])
p("Group options which are misread","The options of a group should be the texts between the commas, with a quote for every quote with a backslash in front of it. The code violates this: in an option of several characters such a quote is read as ###, and the option ### is read as a quote.",
  "all names and options of these shapes","all inputs",[N1+":ToPatterns"])
p("Reading patterns does not panic","Reading the text of patterns never panics, whatever the text: the result is the patterns or an error.",
  "all byte strings","all inputs",[N1+":ToPatterns"])
B9="domain/languages/scripts/resources/base/"
p("The shipped grammar is read as intended","The shipped texts of the base grammar are read without error and say what they should: patterns and rules with their characters and constants; one token for each of the 63 kinds, whose lines consist of the tokens, rules, specifiers and channel switches of an independent table, with the same repetitions; three channels. The grammar which the parser properties are about is the view of this table on the trees: for each line the same tokens and rules with the numbers of children the line allows.",
  "the shipped texts (every byte of them)","a test cannot compare the reading of the whole grammar with an independent description of it",[B9+"tokens.alex",B9+"rules.alex",B9+"patterns.alex",B9+"channels.alex",T1+":ToTokens"])
p("Syntax trees are derivation trees","Every success of the matcher gives a derivation tree of the grammar for a beginning of the script: the root has the name of the token and the number of one of its lines, the children are the parts of this line in their order, each as often as its cardinality allows and its specifiers demand, with texts of the channels in between. A line is given up before its end only where the text is at its end and the next element is optional, or in front of a token from which the own token can be reached again; if something of the script is left over, only the latter. A tree without given up lines is a word of the grammar.",
  "all ordinary grammars, scripts, successes and channel orders","unbounded grammars, texts and trees",[L+"asts/adapter.go:ToAST",L+"asts/tokens/adapter.go",L+"asts/tokens/specifier.go"])
AP="applications/languages/lexers/application.go"
p("From the text to the program","With the shipped texts, every success of AST is a derivation tree of the grammar read from them for a beginning of the script; the trees of the tokens without recursion are complete; a complete tree whose numbers are in range is a tree of the grammar on which the parser relies; and if such a tree of a program matches equal texts equally, Root gives a root and every run of the parser on it gives a program.",
  "all scripts, tokens, channel orders, file systems and stack depths from 64 on, all map orders of the parser","unbounded texts and map orders, end to end",[AP+":AST",AP+":Root",B9+"tokens.alex",B9+"channels.alex",H1+":newEvents"])
p("The order of the channels does not matter","If no two channels can begin at the same place the outcome of AST (a tree, a mistake, an error, a panic, or no end) is the same for every order in which the map of the channels is read, and whatever the adapter was used for before. The shipped channels are of this kind, so that AST with the shipped texts is a function of the token and the script. The code violates this for other channels: with the channels a and ab the text abc is recognised as bc or not, depending on the order.",
  "all grammars with such channels, scripts, channel orders and histories","map iteration orders",[L+"asts/tokens/adapter.go:findMatchesInChannels",AP+":AST"])
p("Texts which are not programs are accepted","The shipped lexer should accept exactly the programs. The code violates this, whatever the order of the channels: a condition whose block is never closed and an assignment of a list which is never closed are accepted to their end, the declaration of a list is cut in the middle of its type, and what follows a program is ignored although no suffix is allowed.",
  "the given texts, all settings and channel orders","channel orders",[AP+":AST",B9+"tokens.alex",L+"asts/tokens/adapter.go:lineToMatches"])
p("Left recursion never ends","AST should answer for every grammar it accepts and every script. The code violates this: if the first two lines of a token begin with the token itself, the grammar is compiled, but AST ends on no script which is not empty; only one such line is caught by the guard. On the empty script it does not end either, and there the first line alone is enough, if its first element is not optional.",
  "all such grammars, scripts, numbers of steps and states","non-termination",[L+"asts/tokens/adapter.go:containerToMatch",L+"asts/adapter.go:ToAST"])
p("Guarded left recursion ends","If the left recursion of a grammar is guarded (tokens which begin with each other are reached by one way only, with nothing in front which could touch the memory of the guard; see WellGuarded) and its channels cannot be confused, AST ends on every script, for every order of the channels and from every state without prefixes: from a number of steps on the outcome is always the same.",
  "all such grammars, scripts, channel orders and states","termination",[L+"asts/tokens/adapter.go:containerToMatch",L+"asts/adapter.go:ToAST"])
p("The lexer answers with a tree or a mistake","For every grammar without not lines, whose rules have a name, a code and a constant or patterns, and whose tokens have an element in their first line, ToAST never returns an error and never panics: if it ends it gives a syntax tree or a mistake, whatever the recursion, the cardinalities and the specifiers.",
  "all such grammars, channels, scripts, channel orders, numbers of steps and states without prefixes","all inputs",[L+"asts/adapter.go:ToAST",L+"asts/tokens/adapter.go:ToToken",L+"asts/mistakes/adapter.go:ToMistake"])
p("The shipped lexer answers on every text","With the shipped texts AST answers on every script for every token: one syntax tree or one mistake is the result of all runs, whatever the order of the channels, the file system and the depth of the stack from 64 on; no error, no panic, no endless run.",
  "all scripts, all 63 tokens, all channel orders and settings","termination and all inputs",[AP+":AST",B9+"tokens.alex",B9+"channels.alex",L+"asts/tokens/adapter.go"])
RF=L+"references/adapter.go"
p("References are read as written","The includes, references and replacements of a grammar are read as they are written, wherever they stand in the text of the tokens and whatever the blanks in them: every link has the names which are written and the paths of the last include of its name, in the order of the text; a link to an include which is written nowhere in the text gives an error.",
  "all lists of written statements, with any texts without the keywords between them","unboundedly many texts",[RF+":ToReferences",RF+":includes",RF+":references",RF+":replacements"])
p("Bad includes are rejected","An include must have two or three paths. With more than three, or with an empty path of rules or tokens, reading the references gives an error. The code violates the rest: an include with one path panics instead of giving an error, whatever else stands in the text.",
  "all texts with such an include behind well written ones","all inputs",[RF+":includes"])
p("Links which are misread","A link should only be accepted with a dot between the include and its token, and any names should be possible. The code violates this: every character but a letter and a line break is read as the dot, and a well written link whose local name contains a keyword makes the text an error.",
  "all written statements and characters; the given text","all inputs",[RF+":references",RF+":replacements"])
p("Root answers on every text","Every syntax tree of a grammar whose tokens and rules have names is converted to a root with the name of the token and the recognised text. With the shipped texts Root therefore answers on every script for every token: one root, whose text is a non-empty beginning of the script, or one mistake is the result of all runs, whatever the order of the channels, the file system and the depth of the stack from 64 on; there is no nil root, no error, no panic and no endless run.",
  "all scripts (shorter than 2^63), all 63 tokens, all channel orders and settings; all such grammars","termination and all inputs",[AP+":Root",L+"roots/adapter.go:ToRoot",B9+"tokens.alex"])
p("No text makes the shipped parser panic","Whatever the text and the token are: if the shipped lexer gives a root for them, there is a run of the shipped parser on this root, and every run ends with an error or with an object of the kind of the token, for every order of the maps; no run panics, even on roots whose trees were given up in the middle. Together with the previous property: from the text the result is always one mistake, or one root with these runs. Errors do occur on recognised texts: append ab, ab is recognised as listAppend, and every run of the parser on it is an error.",
  "all scripts (shorter than 2^63), all 63 tokens, all orders of the maps of the lexer and the parser, all settings","map orders and all inputs, end to end",[AP+":Root",H1+":newEvents","applications/languages/parsers/application.go:Execute",B9+"tokens.alex"])
KE="domain/cryptography/keys/encryption/"
p("RSA decryption inverts encryption","For every private key built from an RSA key (two different primes, e and d inverse modulo each prime minus one), Decrypt of what Encrypt of its public key returned is the message, for every message at least 66 bytes shorter than the modulus and every random seed; longer messages give an error and never a panic. The code violates what a user of the factory expects: with a bit rate of at most 520 keys are created without an error, but they can encrypt no message at all.",
  "all RSA keys, messages, seeds, texts and SHA-256 functions","all keys and messages",[KE+"publickey.go:Encrypt",KE+"privatekey.go:Decrypt",KE+"factory.go:Create",KE+"builder.go:Now"])
p("RSA keys survive their encodings","Reading what ToBytes or ToEncoded wrote for a public key or for the private key of an RSA key gives this key; truncated and lengthened public keys are errors; whatever is accepted has consistent numbers, so a private key never gets a public key of other numbers; the hash of a public key binds it up to collisions. The code violates the rest: junk inside of the sequence of a public key is ignored, so that an encoding is not unique, and the builder accepts keys whose numbers do not fit together and whose encodings cannot be read.",
  "all keys with numbers of at most 2^24 bytes, all byte strings","all keys and hostile inputs",[KE+"publickey_adapter.go:FromBytes",KE+"publickey_adapter.go:ToBytes",KE+"publickey_adapter.go:ToHash",KE+"adapter.go:FromBytes",KE+"adapter.go:FromEncoded",KE+"builder.go:Now"])
p("The parser reads the object which is written","In every tree of the grammar an object is written, clause by clause: the parts of the line in their places, the numbers as their digits say, the operators and types as their letters say, lists in the order of their elements, optional parts if they are there. The parser can read exactly this object from the tree; from a clear tree (in which no part can be confused with a part inside of another one) it reads this object only, for every token of the language and every order of the maps, and the object is unique. From a text whose tree conforms and whose root is clear the application therefore reads exactly the program which is written in it.",
  "all trees of the grammar, all 63 tokens, all orders of the maps, all bit sizes and float readers","unbounded trees and map orders",[H1+":newEvents","applications/languages/parsers/manager.go:Trigger","applications/languages/parsers/application.go:Execute"])
p("A text has one meaning","A program should have one meaning, and its literals should be values. This holds for the text if ab { break }. The code violates it for others: from ab = cd + ef the parser reads the sum of cd and ef or the sum of ef and ef, depending on the order of a map; ab = true assigns a list held by a variable with the name true instead of a boolean; and int ab = 1, which is not in the language, is read as int ab without an error.",
  "the given texts, all settings, channel orders and sufficient numbers of steps, the orders of the maps of the parser","map orders, end to end",[AP+":Root",H1+":newEvents","applications/languages/parsers/application.go:Execute",L+"roots/nodes.go:Scan",B9+"tokens.alex"])
p("What a grammar reads, exactly","For a grammar without recursion, not lines, groups of lines and specifiers, what ToToken recognises is what the grammar says, and nothing else: the token is valid exactly if the grammar reads something at the beginning of the script, and its text is what is read. A line reads its elements one behind the other, each as often as possible up to its maximum and without going back, with texts of the channels in front; an optional element which is repeated too rarely or too often is skipped; of the lines the longest counts; a repeated constant which occurs once more further behind loses the line. The result does not depend on earlier calls. In particular a rule as often as possible and then once more is never recognised, whatever the script.",
  "all such grammars, channels, scripts (shorter than 2^63), numbers of steps and states; all channel orders for the soundness","unbounded grammars, texts and histories",[L+"asts/tokens/adapter.go:ToToken",L+"asts/tokens/adapter.go:lineToMatches",L+"asts/tokens/adapter.go:findChannelBlockMatch",L+"asts/tokens/adapter.go:ruleToRuleMatch"])
p("The order of the alternatives does not matter","Writing the lines of a token in another order, at the root or in tokens inside, changes neither which scripts are recognised nor which text is recognised, for grammars without recursion, not lines, groups of lines and specifiers.",
  "all such grammars, reorderings, channels, scripts, numbers of steps and states","unbounded grammars and texts",[L+"asts/tokens/adapter.go:bestLineToMatches"])
p("A ring signature does not tell its signer","Every ring signature which verifies (with one response for every member) could have been made by every member of the ring, with exactly one nonce each, and every signature made in this way verifies; RingSign makes its signatures in this way. So the signature alone excludes no member. The code violates the anonymity as soon as the signer also signs the same message plainly: the nonce is the same, and the point of the plain signature appears at the position of the signer. Two answers to one point give the private key away.",
  "all prime orders, curves, hashes, rings, keys, messages and signatures","all signatures and keys",["domain/cryptography/keys/signature/privatekey.go:RingSign","domain/cryptography/keys/signature/ringsignature.go:Verify","domain/cryptography/keys/signature/privatekey.go:Sign"])
p("What not lines mean","A token with not lines should be recognised exactly if its lines read something and its not lines read nothing at the beginning of the script. The code keeps a part of this: if the not lines read something the token is not valid; if they read nothing and the lines read a text, the token is valid and has this text; and the text of a valid token is what the lines read, or empty. It violates the rest: a token whose lines read nothing is valid all the same, on every text at whose beginning no not line is read either.",
  "all roots with lines as in the exact reading, channels, scripts, numbers of steps and states; for the violation all alternatives of rules","unbounded grammars and texts",[L+"asts/tokens/adapter.go:elementToTokenContent",L+"asts/tokens/tokencontent.go:IsValid"])
p("The head binds the history","If the blocks of a chain are linked (each one names the hash of the block before it and is one higher, the first has height 1), the hash of the head binds the whole history: two histories with the same head hash and height have the same blocks, as far as they are hashed, down to the first one, unless two blocks at the same place are a collision; the same holds for two chains with one hash. A list of transactions binds the hashes of its transactions in order, for a given number of them.",
  "all histories of any length, all digest functions","unbounded histories, hostile inputs",["domain/chains/block_builder.go:Now","domain/chains/builder.go:Now","domain/transactions/builder.go:Now"])
p("The ledger does not enforce its rules","An origin should be spent once, a transaction should be authorized by the owners of its origin, a block should follow the block it names, a chain should begin at its root and nobody should spend more than there is. The builders violate all of this: for every origin a block with any number of transactions of it is built; every authorization is accepted for every content; every height with every previous hash and every root with every head is accepted; the amount of a secret is not compared with that of its origin.",
  "all origins, lists of spendings, contents, authorizations, heights, hashes and amounts","hostile inputs",["domain/transactions/content_builder.go:Now","domain/transactions/transaction_builder.go:Now","domain/chains/block_builder.go:Now","domain/chains/builder.go:Now","domain/transactions/secrets/secret_builder.go:Now"])
p("A transaction binds its provenance","The hash of a transaction binds the way of its money: two transactions with the same hash have the same origins, transaction by transaction and as far as they are hashed, down to units of the genesis with the same content and owner, unless two of the texts which were hashed on the two ways are a collision. The texts of the authorizations must not be empty nor have the length of a hash.",
  "all transactions with origins of any depth, all digest functions","unbounded histories, hostile inputs",["domain/transactions/transaction_builder.go:Now","domain/transactions/content_builder.go:Now","domain/transactions/origin.go:Hash","domain/genesis/unit_builder.go:Now"])
KY="vendor/go.dedis.ch/kyber/v3/group/edwards25519/"
SG="domain/cryptography/keys/signature/"
p("The arithmetic of the scalars is right","Addition, subtraction, negation, multiplication, multiplication with addition, inversion and division of scalars give, for any 32 bytes, reduced or not, the 32 bytes of the number below the group order which the operation has modulo this order; no intermediate 64-bit number overflows. The order is a prime; the inverse of a multiple of it is zero. SetBytes of bytes of any length, MarshalBinary and String reduce; reading a scalar takes its first 32 bytes unreduced, ignores what is after them and fails exactly on fewer bytes.",
  "all 32-byte scalars, all byte strings","2^256 values each, carries which almost never occur",[KY+"scalar.go:scMulAdd",KY+"scalar.go:scAdd",KY+"scalar.go:scSub",KY+"scalar.go:scMul",KY+"scalar.go:Inv",KY+"scalar.go:SetBytes","vendor/go.dedis.ch/kyber/v3/group/internal/marshalling/marshal.go:ScalarUnmarshalFrom",SG+"helper.go:fromStringToScalar"])
p("Multiplication of a point","Multiplying a point by a scalar should add the point to itself as often as the scalar says. This holds for every point and every scalar up to 0x8777...7. Above, the code violates it: the highest digit is dropped, so that the result is wrong for every point of the subgroup other than zero. A private key above the limit, which ToPrivateKey reads without an error, therefore has a PublicKey which is not the key recovered from its signatures, and the ring signature which it makes for its own ring verifies only if two different points have the same challenge.",
  "all points of any commutative group, all 32-byte scalars, all messages","2^256 scalars",[KY+"ge.go:geScalarMult",KY+"point.go:Mul",SG+"privatekey.go:PublicKey",SG+"privatekey_adapter.go:ToPrivateKey"])
p("The keys on bytes are the keys of the algebra","On the 32-byte scalars of the library, Sign for all private keys, PublicKey and RingSign for private keys up to the limit of C117, and the recovery of keys and the verification for responses up to it do what they do in the field of the residues. So a signature tells the public key of its signer, ring signatures of members verify, others get an error, and the texts of signatures and ring signatures give them back.",
  "all groups of points, hashes, keys, rings, messages and signatures","all keys and messages",[SG+"privatekey.go:Sign",SG+"privatekey.go:RingSign",SG+"signature.go:PublicKey",SG+"ringsignature.go:Verify",SG+"ringsignature_adapter.go:ToSignature",SG+"adapter.go:ToSignature"])
p("Scalars have one form","A signature or a key should have one form. What holds: a first challenge which is not reduced never verifies with a ring which is not empty, and what is printed is reduced. The code violates the rest: responses can be replaced by others of the same residue, and the other ring signature verifies, too; private keys of one residue make the same signatures; the text of a private key may be followed by anything; a response of any 32 bytes passes the verification of plain signatures; and a signature whose response is above the limit of C117 is, after printing and reading, the signature of another public key.",
  "all groups of points, hashes, scalars, signatures and texts","hostile inputs",[SG+"ringsignature.go:Verify",SG+"ringsignature.go:String",SG+"signature.go:Verify",SG+"helper.go:fromStringToScalar",KY+"scalar.go:UnmarshalBinary",KY+"scalar.go:Equal"])
p("Built objects and the memory of their caller","Building an object should not change the data of the caller, and later changes of this data should not change the object. What holds: a hash tree is the tree of the blocks at the time of Now, building it again gives the same tree, and with two blocks or more nothing is written; transactions and ring signatures are unaffected by writes to other arrays. The code violates the rest: with at most one block and spare capacity, the element after the blocks is overwritten with the empty block, so that after a tree of all[:1] was built, all gives the tree with an empty second block, which has another head; a write to the slice given to the builder of transactions, rings, secrets, private transactions or of a ring of hashes, or to the slice which List returns, changes their List but not their Hash; a write to the slice given to RingSign changes the ring of the signature, which then does not verify.",
  "all memories, slices, blocks, transactions, keys and rings","any later write by any part of a program",["domain/hashtree/block.go:createBlockFromData","domain/hashtree/builder.go:WithBlocks","domain/transactions/builder.go:Now","domain/transactions/transactions.go:List","domain/rings/builder.go:Now","domain/rings/ring_builder.go:Now","domain/transactions/secrets/builder.go:Now","domain/transactions/privates/builder.go:Now",SG+"privatekey.go:RingSign",SG+"ringsignature.go:Verify"])
p("A ring signature and its ring","A ring signature should be bound to its ring. What holds: a single member cannot be replaced by another key, unless its challenge is zero or the hash has a collision. The code violates the rest, because the ring is not hashed: from any ring signature anyone, without a private key, makes one for the same message in whose ring any member is replaced by any key, by replacing the next member by a multiple of it; so it verifies although no member of its ring took part.",
  "all groups of points, hashes, ring signatures, positions and keys","hostile inputs, all keys",[SG+"ringsignature.go:Verify",SG+"privatekey.go:RingSign"])
p("Points in coordinates are the points of Ed25519","The curve of the library, -x^2 + y^2 = 1 + d x^2 y^2 with d = -121665/121666 modulo the prime 2^255-19, is a commutative group with the addition of the textbook, which has no exceptional pairs of points. The neutral point, the opposite, the sum, the difference and the multiple (up to the limit of C117; above it the wrong multiple of C117) which the library computes in its coordinates are those of this group, whichever coordinates of the points are given. Equal, MarshalBinary and String depend on the point only, and two points are equal exactly if their bytes and their texts are.",
  "all points, all their coordinates, all 32-byte scalars","2^255 points, exceptional cases almost never occur",[KY+"ge.go:Add",KY+"ge.go:Sub",KY+"ge.go:Double",KY+"ge.go:ToBytes",KY+"ge.go:geScalarMult",KY+"point.go:Add",KY+"point.go:Sub",KY+"point.go:Mul",KY+"point.go:Equal",KY+"point.go:MarshalBinary"])
p("The base point and the public keys","The base point is the one of Ed25519 and its order is exactly the prime order of the scalars. Up to the limit of C117 two private keys have one public key if and only if they are the same number modulo the order, and only the multiples of the order have the neutral point.",
  "all 32-byte private keys, all multiples","2^256 keys",[KY+"const.go:baseext",KY+"point.go:Base",SG+"privatekey.go:PublicKey",SG+"publickey.go:Equals"])
p("The texts of public keys","ToPublicKey accepts exactly the hexadecimal forms of 32 bytes which stand for a point, that is whose y is that of a point of the curve, and gives this point; anything else is an error, never a panic; the text of a public key gives it back. A key should have one text and should belong to somebody. The code violates this: a point whose y is below 19 has a second text with y plus the prime, and a point with x = 0 has texts with both signs; these are all texts; the neutral point has four. (0,-1), which is no multiple of the base point, is accepted.",
  "all texts, all points","2^255 points, hostile inputs",[SG+"publickey_adapter.go:ToPublicKey",SG+"helper.go:fromStringToPoint",KY+"ge.go:FromBytes",KY+"point.go:UnmarshalBinary"])
p("Keys and signatures on the real curve","With the coordinates, scalars and texts of the library, and any hash, Sign, RingSign, PublicKey, Verify, String and the adapters give exactly what they give in the group of Ed25519. So a private key up to the limit of C117 signs every message (if two challenges are not zero), the signature tells its public key and is read back from its text; a ring signature of a member of a ring of points verifies, before and after printing, and others get an error; a private key above the limit signs for another public key. A text should always be a signature or never. The code violates this: for a signature with the point (0,-1) and response zero, it depends on the parity of a product which depends on the message that Verify draws at random.",
  "all hashes, keys, messages, rings of points, texts","all keys and messages, hostile inputs",[SG+"privatekey.go:Sign",SG+"privatekey.go:RingSign",SG+"signature.go:PublicKey",SG+"signature.go:Verify",SG+"ringsignature.go:Verify",SG+"adapter.go:ToSignature",SG+"ringsignature_adapter.go:ToSignature"])
p("The field in machine words never overflows","The field arithmetic of the library, in ten 32-bit limbs with 64-bit products, gives exactly the results of the integers modulo 2^255-19: products and squares of factors up to three times as large as reduced elements are reduced again, sums and differences are exact, inversion inverts every element but zero, reading takes the low 255 bits of any bytes, writing gives the 32 bytes of the residue whatever limbs it had, the tests for parity and zero are those of the residue. No 32-bit and no 64-bit number wraps around on the way. With factors four times as large a product is wrong.",
  "all limbs within the bounds, all byte strings","carries and overflows which almost never occur",[KY+"fe.go:feMul",KY+"fe.go:feSquare",KY+"fe.go:feSquare2",KY+"fe.go:feAdd",KY+"fe.go:feSub",KY+"fe.go:feCMove",KY+"fe.go:feFromBytes",KY+"fe.go:feToBytes",KY+"fe.go:feInvert",KY+"fe.go:fePow22523",KY+"fe.go:feIsNegative",KY+"fe.go:feIsNonZero"])
p("Points in machine words are the points of Ed25519","What the library computes with points in machine words is what the group of Ed25519 has: neutral point, base point, opposite, sum, difference, multiple, Equal, MarshalBinary and UnmarshalBinary, for all points and all limbs of them. Everything computed by any sequence of these operations, from points which were read from any bytes, stands for a point and has limbs within the bounds, so that no operation overflows, however long the sequence.",
  "all points, all limbs of them, all 32-byte scalars, all byte strings, all sequences of operations","unbounded histories, carries which almost never occur",[KY+"ge.go:Add",KY+"ge.go:Sub",KY+"ge.go:Double",KY+"ge.go:ToBytes",KY+"ge.go:FromBytes",KY+"ge.go:geScalarMult",KY+"ge.go:selectCached",KY+"point.go:Add",KY+"point.go:Sub",KY+"point.go:Mul",KY+"point.go:Equal"])
p("Keys and signatures in machine words","With the machine words of the library for points and scalars, and any hash, Sign, RingSign, PublicKey, Verify, String and the adapters give exactly what they give in the group of Ed25519: the same errors, the same booleans, the same texts and limbs of the same points. So what C117 to C125 say of keys and signatures holds of the code with the arithmetic which it has.",
  "all hashes, keys, messages, rings, signatures and texts","all keys and messages, carries which almost never occur",[SG+"privatekey.go:Sign",SG+"privatekey.go:RingSign",SG+"privatekey.go:PublicKey",SG+"signature.go:PublicKey",SG+"signature.go:Verify",SG+"ringsignature.go:Verify",SG+"adapter.go:ToSignature",SG+"ringsignature_adapter.go:ToSignature",KY+"fe.go:feMul",KY+"scalar.go:scMulAdd"])
p("Signatures which give the private key away","Signatures should not tell anything about the private key. The code violates this, because the nonce depends on key and message only: from a plain signature and a ring signature of one message by one key, and from a ring signature of a message and a plain signature of this message followed by the number of another member of the ring, everybody computes the private key, with the operations of the library on public data, unless two challenges are the same, or one is zero.",
  "all hashes, private keys up to the limit of C117, messages, rings of points","hostile readers, all keys and messages",[SG+"helper.go:genK",SG+"privatekey.go:Sign",SG+"privatekey.go:RingSign",SG+"ringsignature.go:Verify",KY+"scalar.go:scMulAdd"])
p("Ring signatures of others in machine words","A ring signature should show that one of its members made it. The code violates this: from a ring signature which verifies everybody computes, with the operations of the library on public data, one which verifies for the same message, in which any member but the last is replaced by any key, and only the next member is changed, too; this needs that the new challenge is not zero, and holds for the ring signatures of all rings whose members are multiples of the base point.",
  "all hashes, ring signatures, messages, positions and keys","hostile readers, all keys and messages",[SG+"ringsignature.go:Verify",SG+"privatekey.go:RingSign",KY+"ge.go:geScalarMult",KY+"scalar.go:scMulAdd"])
p("Time of the shipped lexer","The time of AST with the shipped grammar should be bounded by a polynomial in the length of the program. The code violates this: on every program which begins with log( and 2n opening brackets, whatever follows, AST answers, but only after it has gone through the channels at least 2^n times, for every order of the channels and every setting.",
  "all numbers of brackets, all continuations, settings and orders of the channels","running times on unbounded inputs, map iteration orders",[L+"asts/tokens/adapter.go:findMatchesInChannels",L+"asts/tokens/adapter.go:containerToMatch",L+"asts/adapter.go:ToAST",AP+":AST"])
p("Hash trees and JSON","The JSON of a block of hashes is read back, with any blanks around it, and different blocks have different JSON. A hash tree should be restored from its JSON. The code violates this: the JSON of every tree and of every compact tree is {}, so that nothing can restore even the number of leaves; reading it into a new tree gives no error, but the zero hash, and Height, Length, Compact and Order of the result panic.",
  "all blocks, trees, hash functions, blanks","the unit test compares {} with {} and passes; all sizes",["domain/hashtree/block.go:MarshalJSON","domain/hashtree/block.go:UnmarshalJSON","domain/hashtree/hashtree.go:Length","domain/hashtree/compact.go:Head"])
p("IsExact and Input of matches","A token which is valid, and made without alternatives which must not match, is exact exactly if every token of which its text consists was found at least once. IsExact should not depend on the text behind the match, and be told apart from IsValid; Input should return the text which was read. The code violates this: the same recognised text is exact at the end of the text and not before another text, exact tokens need not be valid, as the numbers of repetitions are not looked at; Input of a rule is its definition in the grammar, whatever the text, that of a token is all the text which was left, and Input panics where the text ended too early and for alternatives in parentheses.",
  "all tokens, all runs of the matcher, texts and grammars","all tokens and all grammars",[L+"asts/tokens/token.go:IsExact",L+"asts/tokens/tokenresult.go:IsExact",L+"asts/tokens/tokencontent.go:IsExact",L+"asts/tokens/blockmatch.go:Input",L+"asts/tokens/match.go:Input",L+"asts/tokens/skipmatch.go:Input",L+"asts/tokens/matches.go:Input"])
with open('/verif/properties.jsonl','w') as f:
    for q in P: f.write(json.dumps(q)+"\n")
print(len(P))
