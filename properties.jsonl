{"id": "C01", "title": "Hash text round-trip", "statement": "For every 64-byte hash h, parsing h.String() with FromString returns h and no error; distinct hashes print differently; FromString reports an error exactly when the text is not even-length hexadecimal.", "quantifier": "all 2^512 hashes and all strings", "why_tests_cant": "infinitely many strings; a test samples a few", "anchors": ["domain/hash/adapter.go:FromString", "domain/hash/hash.go:String"]}
{"id": "C02", "title": "FromBytes is total, 64 bytes pass through, everything else is SHA-512", "statement": "FromBytes never fails; on an input of exactly 64 bytes it returns these bytes unchanged, on every other length it returns SHA-512 of the input. Hence re-hashing a hash's bytes gives the same hash (idempotence), and a 64-byte document always collides with any document whose digest it equals (the digest is not second-preimage resistant on 64-byte inputs).", "quantifier": "all byte strings and every SHA-512 function", "why_tests_cant": "all inputs of all lengths", "anchors": ["domain/hash/adapter.go:FromBytes"]}
{"id": "C03", "title": "FromMultiBytes only binds the concatenation", "statement": "FromMultiBytes over a list of chunks equals FromBytes of their concatenation, so regrouping chunks never changes the hash; consequently it does NOT bind chunk boundaries: for every two different chunk lists with one concatenation the hashes are equal, and such lists exist.", "quantifier": "all lists of byte strings", "why_tests_cant": "unbounded lists", "anchors": ["domain/hash/adapter.go:FromMultiBytes"]}
{"id": "C04", "title": "Hash comparison is equality", "statement": "Compare returns true exactly when both hashes have the same 64 bytes; it is reflexive, symmetric and transitive.", "quantifier": "all pairs of hashes", "why_tests_cant": "2^1024 pairs", "anchors": ["domain/hash/hash.go:Compare"]}
{"id": "C05", "title": "Hash tree shape", "statement": "For every non-empty list of n blocks the builder succeeds and the tree has exactly the smallest power of two >= max(2,n) leaves, Length() reports that number and Height() reports log2 of it plus one.", "quantifier": "all non-empty block lists", "why_tests_cant": "unbounded block counts", "anchors": ["domain/hashtree/builder.go", "domain/hashtree/block.go", "domain/hashtree/leaves.go"]}
{"id": "C06", "title": "Hash tree leaves are the block hashes in order", "statement": "The leaves of a built tree, read left to right, are the hashes of the blocks in the given order followed only by copies of the hash of the empty block.", "quantifier": "all non-empty block lists", "why_tests_cant": "unbounded block counts", "anchors": ["domain/hashtree/hashtree.go:Compact", "domain/hashtree/parentleaf.go:BlockLeaves"]}
{"id": "C07", "title": "Hash tree root binds the leaves", "statement": "If two trees with the same number of leaves have the same head hash then either their leaf hashes are equal position by position or two distinct strings with one SHA-512 value are found among the strings which the construction of the two trees hashed.", "quantifier": "all pairs of block lists", "why_tests_cant": "collision argument over all trees", "anchors": ["domain/hashtree/leaves.go:HashTree", "domain/hashtree/hashtree.go:Head"]}
{"id": "C08", "title": "Hash tree head does not bind the number of blocks", "statement": "The head does not determine the block list, whatever the hash function: (a) when the number of blocks is not a power of two, appending an empty block keeps the head; (b) for every four blocks the tree over the two 64-byte interior digests has the same head as the tree over the four blocks.", "quantifier": "all block lists of the stated form", "why_tests_cant": "the failing inputs form infinite families", "anchors": ["domain/hashtree/block.go", "domain/hash/adapter.go:FromBytes"]}
{"id": "C09", "title": "Order restores the original order", "statement": "For a tree built over blocks with pairwise distinct hashes, none of which is the filler hash, Order applied to any permutation of the blocks returns the blocks in their original order. Whatever it returns consists of given data with the leaf hashes, in leaf order, and has the length of the given list. It does not verify completeness: a list in which a block's data is replaced by an empty block is accepted when the tree has filler leaves.", "quantifier": "all block lists and all permutations", "why_tests_cant": "n! permutations for every n", "anchors": ["domain/hashtree/hashtree.go:Order"]}
{"id": "C10", "title": "Order fails on trees with an empty block and padding", "statement": "For every list of blocks whose length is not a power of two and which contains the empty block, Order of the original data fails although nothing is missing.", "quantifier": "all such block lists", "why_tests_cant": "infinite family", "anchors": ["domain/hashtree/hashtree.go:Order"]}
{"id": "C11", "title": "Empty block list", "statement": "Building a hash tree without blocks returns an error, and a single block yields a tree with two leaves, never an empty tree; the behaviour on an empty (non-nil) block list is a run-time panic, not an error.", "quantifier": "all builder inputs of length <=1", "why_tests_cant": "every single block must be covered", "anchors": ["domain/hashtree/builder.go", "domain/hashtree/leaves.go"]}
{"id": "C12", "title": "Decrypt inverts Encrypt", "statement": "For every password, message and random initialization vector, Decrypt(Encrypt(message)) with the same password returns the message.", "quantifier": "all passwords, messages of all lengths, IVs and 128-bit block ciphers", "why_tests_cant": "all message lengths and IVs", "anchors": ["domain/cryptography/encryption.go:Encrypt", "domain/cryptography/encryption.go:Decrypt"]}
{"id": "C13", "title": "Encryption is not authenticated", "statement": "Decrypt rejects only texts that are not base64 or that are shorter than 16 bytes: every other text decrypts without error under every password (so a wrong password is never detected), flipping bits in a block of the ciphertext flips exactly these bits of the plaintext and at most garbles the next block (none after the last one), and cutting off the end of a ciphertext cuts off the plaintext.", "quantifier": "all ciphertexts and passwords", "why_tests_cant": "negative fact about all inputs", "anchors": ["domain/cryptography/encryption.go:Decrypt"]}
{"id": "C14", "title": "Base64 and hex encodings are lossless", "statement": "Decoding the standard padded base64 (or hex) encoding of any byte string returns that byte string. The encoded text is the one of RFC 4648: the characters of the alphabet for the groups of six (or four) bits in their order, with padding at the end only; nothing else is in it.", "quantifier": "all byte strings", "why_tests_cant": "unbounded lengths", "anchors": ["domain/cryptography/keys/signature/signature.go:String", "domain/cryptography/encryption.go"]}
{"id": "C15", "title": "A signature reveals its signer", "statement": "For every private key x and message m, Sign succeeds and PublicKey(m) on the signature returns exactly x's public key, whenever the challenge scalar is non-zero.", "quantifier": "all keys, messages, and hash functions", "why_tests_cant": "all keys and messages", "anchors": ["domain/cryptography/keys/signature/privatekey.go:Sign", "domain/cryptography/keys/signature/signature.go:PublicKey"]}
{"id": "C16", "title": "Signature.Verify accepts forgeries", "statement": "Signature.Verify() (which takes no message and no key) returns true for every pair (r,s) with r in the prime-order subgroup as long as the sampled challenge is non-zero, so it authenticates nothing.", "quantifier": "all pairs (point, scalar)", "why_tests_cant": "shows a check is vacuous for all inputs", "anchors": ["domain/cryptography/keys/signature/signature.go:Verify"]}
{"id": "C17", "title": "Ring signatures verify", "statement": "For every non-empty ring of arbitrary points containing the signer's public key (possibly several times) and every message, RingSign succeeds and the produced signature verifies for this message.", "quantifier": "all rings of any size, all signer positions, all messages", "why_tests_cant": "unbounded ring size and all group elements", "anchors": ["domain/cryptography/keys/signature/privatekey.go:RingSign", "domain/cryptography/keys/signature/ringsignature.go:Verify"]}
{"id": "C18", "title": "Non-members cannot ring-sign", "statement": "RingSign returns an error exactly when the signer's public key is not in the ring.", "quantifier": "all keys and rings", "why_tests_cant": "all rings", "anchors": ["domain/cryptography/keys/signature/privatekey.go:RingSign"]}
{"id": "C19", "title": "Degenerate ring signatures are accepted", "statement": "A ring signature whose ring is empty verifies for every message; one with fewer responses than ring members panics in Verify instead of returning false.", "quantifier": "all messages and challenges", "why_tests_cant": "hostile inputs", "anchors": ["domain/cryptography/keys/signature/ringsignature.go:Verify", "domain/cryptography/keys/signature/ringsignature_adapter.go"]}
{"id": "C20", "title": "Signing leaks the private key by nonce reuse", "statement": "Any two signatures (plain or ring) by one key on one message with different challenges determine the private key: x=(s-s')/(e'-e). In particular the same holds between RingSign(m) (position i not the signer) and Sign(m followed by the decimal text of i).", "quantifier": "all keys, messages and rings", "why_tests_cant": "algebraic identity over all keys", "anchors": ["domain/cryptography/keys/signature/helper.go:genK", "domain/cryptography/keys/signature/privatekey.go:Sign", "domain/cryptography/keys/signature/privatekey.go:RingSign"]}
{"id": "C21", "title": "Signature text round-trip", "statement": "Converting any signature, ring signature, private key or public key to a string and parsing it back gives the same object, provided point and scalar encodings are lossless and do not contain the delimiters.", "quantifier": "all signatures and rings of any size", "why_tests_cant": "unbounded rings", "anchors": ["domain/cryptography/keys/signature/adapter.go", "domain/cryptography/keys/signature/ringsignature_adapter.go", "domain/cryptography/keys/signature/publickey_adapter.go", "domain/cryptography/keys/signature/privatekey_adapter.go"]}
{"id": "C22", "title": "Ring membership verification is positional", "statement": "ToVerification accepts a (signature, message, key hashes) triple only if the ring signature verifies and the i-th hash equals the hash of the i-th ring key, for all i, and both lists have equal length.", "quantifier": "all triples", "why_tests_cant": "unbounded rings", "anchors": ["domain/cryptography/keys/signature/ringsignature_adapter.go:ToVerification"]}
{"id": "C23", "title": "Ledger objects need their mandatory parts", "statement": "Each ledger builder (block, chain, genesis, unit, transaction, secret, receipt, ring, identity) succeeds exactly when its mandatory parts are present and valid, and the built object returns the given parts unchanged.", "quantifier": "all combinations of set and unset fields", "why_tests_cant": "2^n field combinations with arbitrary contents", "anchors": ["domain/chains", "domain/genesis", "domain/transactions", "domain/receipts", "domain/rings", "domain/identities"]}
{"id": "C24", "title": "Genesis never contains a unit older than itself", "statement": "Every Genesis that the builder returns has at least one unit, and every unit was created at or after the genesis time and is activated no earlier than it was created.", "quantifier": "all genesis objects", "why_tests_cant": "unbounded unit lists and times", "anchors": ["domain/genesis/builder.go", "domain/genesis/unitcontent_builder.go"]}
{"id": "C25", "title": "Ring sizes stay inside the configured bounds", "statement": "A Ring is built exactly when its number of hashes lies between the configured minimum and maximum (inclusive).", "quantifier": "all lists and bounds", "why_tests_cant": "unbounded lists", "anchors": ["domain/rings/ring_builder.go"]}
{"id": "C26", "title": "Unit content hashing is ambiguous", "statement": "Two unit contents that differ in amount and nonce can have the same hash whatever the hash function (amount 1, nonce '23' and amount 12, nonce '3'); more generally moving leading digits of the nonce to the amount never changes the hash.", "quantifier": "all amounts, nonces and times", "why_tests_cant": "infinite family of collisions", "anchors": ["domain/genesis/unitcontent_builder.go"]}
{"id": "C27", "title": "All receipts (and private transactions) have one hash", "statement": "Any two receipts have equal Hash(), whatever their secret and signature; the same holds for private transactions.", "quantifier": "all pairs of receipts", "why_tests_cant": "all pairs", "anchors": ["domain/receipts/builder.go", "domain/transactions/privates/private_builder.go"]}
{"id": "C28", "title": "Ledger hashes bind their content", "statement": "If two blocks whose heights have the same number of digits have the same hash then height, fees hash, transactions hash, creation second and previous hash agree, or the two texts hashed are a SHA-512 collision. The same holds for chains (identifier, root, second, head), transaction contents, transactions, genesis units and genesis objects (fees with equally many digits).", "quantifier": "all pairs of ledger objects of one kind", "why_tests_cant": "collision argument", "anchors": ["domain/chains/block_builder.go"]}
{"id": "C29", "title": "Peer text round-trip", "statement": "For every peer whose host does not contain the delimiter and whose port is a valid port number, parsing its String() gives the same host and port; a text without exactly one delimiter or with a non-numeric port is rejected. Negative ports are accepted and wrap to a huge port.", "quantifier": "all hosts and ports", "why_tests_cant": "unbounded strings", "anchors": ["domain/peers/peer_builder.go", "domain/peers/peer.go"]}
{"id": "C30", "title": "Cardinality validity is interval membership", "statement": "IsValid(n) holds exactly for n in [0,1] for '?', n=1 for mandatory, n>=1 for '+', n>=0 for '*', n=k for '{k}', min<=n<=max for '{min,max}' and n>=min for '{min,}'.", "quantifier": "all cardinalities and all n", "why_tests_cant": "unbounded n", "anchors": ["domain/languages/lexers/cardinality/cardinality.go:IsValid"]}
{"id": "C31", "title": "Cardinality text round-trip", "statement": "Printing any non-mandatory cardinality (with amounts below 2^63) with ToPatternString and parsing it gives an equal cardinality.", "quantifier": "all cardinalities", "why_tests_cant": "unbounded numbers", "anchors": ["domain/languages/lexers/cardinality/adapter.go", "domain/languages/lexers/cardinality/specific_adapter.go"]}
{"id": "C32", "title": "Empty ranges are accepted", "statement": "A range {min,max} with min>max is accepted by parser and builder although no amount is valid for it; a parsed specific cardinality is never the exact amount 0.", "quantifier": "all ranges", "why_tests_cant": "unbounded numbers", "anchors": ["domain/languages/lexers/cardinality/specific_builder.go"]}
{"id": "C33", "title": "Group matching is longest-first and sound", "statement": "Group.Contains returns the length of the longest non-empty element that is a prefix of the content, 0 if none is; the reported discovery is a member of the group found at the reported index, and no element matches at an earlier index.", "quantifier": "all groups and all contents", "why_tests_cant": "unbounded strings", "anchors": ["domain/languages/lexers/containers/patterns/group.go", "domain/languages/lexers/containers/patterns/adapter.go:FromGroupToResult"]}
{"id": "C34", "title": "Pattern results are anchored substrings", "statement": "Every result of matching a pattern consists of discoveries whose concatenation occurs in the content at the reported index, is not empty and has length Amount().", "quantifier": "all patterns and contents", "why_tests_cant": "unbounded", "anchors": ["domain/languages/lexers/containers/patterns/adapter.go"]}
{"id": "C35", "title": "The remaining text of a group result", "statement": "The remaining text after a group discovery is what follows the discovery. The code violates this whenever the discovery does not start at index 0; it holds when it does.", "quantifier": "all groups and contents", "why_tests_cant": "unbounded", "anchors": ["domain/languages/lexers/containers/patterns/adapter.go:FromGroupToResult"]}
{"id": "C36", "title": "Earliest pattern wins", "statement": "FromPatternsToResult returns a result of a listed pattern with minimal index, the first listed among ties.", "quantifier": "all pattern lists and contents", "why_tests_cant": "unbounded lists", "anchors": ["domain/languages/lexers/containers/patterns/adapter.go:FromPatternsToResult"]}
{"id": "C37", "title": "Rule results respect the maximum", "statement": "The number of matches in a rule result never exceeds the rule's maximum cardinality and, when every match is at index 0, the matches tile a prefix of the script.", "quantifier": "all rules and scripts", "why_tests_cant": "unbounded", "anchors": ["domain/languages/lexers/asts/results/adapter.go"]}
{"id": "C38", "title": "Grammar containers reject duplicates", "statement": "Rules and Tokens containers cannot be built with two entries of one name; Find returns the unique entry with the name or an error.", "quantifier": "all lists", "why_tests_cant": "unbounded", "anchors": ["domain/languages/lexers/containers/rules/builder.go", "domain/languages/lexers/containers/tokens/builder.go"]}
{"id": "C39", "title": "Recognised text is a prefix of the input", "statement": "When the token matcher reports a valid token for a script and prefixes are not allowed, the recognised text is a prefix of the script, and the remaining script is exactly what was not consumed.", "quantifier": "all grammars and scripts", "why_tests_cant": "unbounded scripts and grammars, recursion", "anchors": ["domain/languages/lexers/asts/tokens/adapter.go:ToToken"]}
{"id": "C40", "title": "Repetition counts respect cardinality", "statement": "In every valid match the number of repetitions of each element lies inside the element's cardinality, and an element with a maximum of at least one is never repeated more often than the maximum, in valid and in rejected parts (a maximum of 0 is noticed after the first repetition only, which is then not valid and not part of the text).", "quantifier": "all grammars and scripts", "why_tests_cant": "unbounded", "anchors": ["domain/languages/lexers/asts/tokens/adapter.go", "domain/languages/lexers/asts/tokens/rulematch.go", "domain/languages/lexers/asts/tokens/tokenresult.go"]}
{"id": "C41", "title": "The token matcher may not terminate", "statement": "A token that has a 'not' part is considered valid when its not part fails, even if nothing was matched; repeated with an unbounded cardinality the matcher loops forever on a non-empty script.", "quantifier": "all numbers of steps", "why_tests_cant": "non-termination is not observable by tests", "anchors": ["domain/languages/lexers/asts/tokens/adapter.go:tokenPathToTokenResultMatches", "domain/languages/lexers/asts/tokens/tokencontent.go:IsValid"]}
{"id": "C42", "title": "The longest valid line wins", "statement": "Among the alternatives of a token the matcher selects the first valid line with the longest recognised text.", "quantifier": "all alternatives", "why_tests_cant": "unbounded", "anchors": ["domain/languages/lexers/asts/tokens/adapter.go:bestLineToMatches"]}
{"id": "C43", "title": "Mistake positions", "statement": "The reported index is the number of bytes recognised before the mistake, the line is the number of newlines in it and the column is the offset in the last line (minus one when it is not empty). This holds for the position computed from a recognised text, but the code violates it for the mistakes: without prefixes, channels, 'not' parts and specifiers every mistake is reported at (0, 0, 0) for the root token, however much of the script was recognised in front of it (except a constant found behind other text). Every mistake concerns the token reached from the root by the names of its parents. A matching 'not' line is reported at the end of its text and a missing constant behind channel texts behind them.", "quantifier": "all scripts, grammars of this kind and mistakes", "why_tests_cant": "unbounded", "anchors": ["domain/languages/lexers/asts/mistakes/adapter.go:getCurrentPosition"]}
{"id": "C44", "title": "Success and mistake are exclusive", "statement": "Without prefixes, 'not' parts and groups of lines ToAST returns a success exactly when the recognised token is valid and a mistake exactly when it is not; a success has the root's name and its discovery is the text of the token, a prefix of the script. When prefixes are allowed the code violates this: text in front of the first constant gives a success although the token is invalid and the rest of the line is missing, or a panic. With a 'not' part a valid token may give a mistake. Every success mirrors the token: the same names, line numbers and matches in order.", "quantifier": "all scripts and grammars", "why_tests_cant": "unbounded trees", "anchors": ["domain/languages/lexers/asts/adapter.go", "domain/languages/lexers/asts/token.go:Discovery"]}
{"id": "C45", "title": "Root trees keep the recognised text", "statement": "ToRoot gives no root exactly for a token without matches and a root exactly for the tokens whose children, at every depth, have names and texts; otherwise an error, never a panic. The root has the token's name and recognised text and one node per distinct child name; the containers of a node are those of the children with its name, in source order, and its text is the concatenation of their texts.", "quantifier": "all token trees", "why_tests_cant": "unbounded trees", "anchors": ["domain/languages/lexers/roots/adapter.go"]}
{"id": "C46", "title": "Root caching confuses tokens with equal text", "statement": "The container of a child token should carry the root of this child. This holds when no token behind the child has the same text; otherwise the code violates it: the container carries the root of the last such token, whatever its name.", "quantifier": "all such token pairs", "why_tests_cant": "depends on history of the cache", "anchors": ["domain/languages/lexers/roots/adapter.go:toRootWithCache"]}
{"id": "C47", "title": "Scanning finds existing elements", "statement": "Scan(name) on a root ends for every iteration order of the maps; it finds an element exactly when something reachable from the root (itself, nodes, containers and the nodes of their roots) has this name, and the element found has the name and is reached without passing another element of that name. If at most one such topmost element exists the result does not depend on the iteration order; in particular a node of the root is found by its name unless another node contains this name. The code violates determinism otherwise: a name inside two nodes is found in either of them.", "quantifier": "all root trees and map iteration orders", "why_tests_cant": "map iteration order is non-deterministic", "anchors": ["domain/languages/lexers/roots/nodes.go:Scan"]}
{"id": "C48", "title": "Events run in order until one succeeds", "statement": "Execute of the parser manager yields a result exactly if some event registered for the name of the root does not fail, and then the values of the first such event; it fails if there is none, or all fail, or (violation) the first good event returns nil although a later one may return a value. Trigger(name) yields one value per container of the node of this name, in order, and fails if nothing has the name. If the events only descend into the root they were given every call ends; an event that executes its own root never does. The application returns only the first of several values.", "quantifier": "all event maps, all event programs calling back the manager, all roots, all map iteration orders", "why_tests_cant": "arbitrary re-entrant callbacks and map orders", "anchors": ["applications/languages/parsers/manager.go"]}
{"id": "C49", "title": "Imported references always fail", "statement": "Every grammar that contains at least one resolvable 'reference' cannot be compiled to a path: an error is returned whatever the included files contain, because the patterns of the included resource are never set. A grammar without links behaves as its tokens alone, and a success means that the content begins with a word of the root token.", "quantifier": "all grammars with references and all file contents", "why_tests_cant": "all file contents", "anchors": ["applications/languages/lexers/application.go:linkToPathFromFile", "domain/languages/lexers/resources/containers/builder.go"]}
{"id": "C50", "title": "Test suites mirror the grammar", "statement": "Executing the suites yields one suite per token with tests, in token order, with one line per test line, numbered from 0, whose flag is the outcome of an own run of a fresh matcher for that token; a successful line begins with a word of the token. The code violates what a user expects in two ways: one token that cannot be compiled loses the suites of all tokens, and a line is successful although text follows the word.", "quantifier": "all grammars", "why_tests_cant": "unbounded", "anchors": ["domain/languages/lexers/suites/application.go"]}
{"id": "C51", "title": "Operations without suffix collapse one level", "statement": "An operation built without a suffix around an element that is itself an operation is that inner operation; all others are kept as they are. The value of what is built is the value of its element, or of its operator applied to its elements, and no operation made with the builders contains, at any depth, an operation which only wraps another operation.", "quantifier": "all operations", "why_tests_cant": "unbounded nesting", "anchors": ["domain/languages/scripts/base/parsers/operation_builder.go", "domain/languages/scripts/base/parsers/operation.go"]}
{"id": "C52", "title": "Lists with one element are transparent", "statement": "A ring, list of rings, units, transactions or secrets with exactly one element has the hash of this element, whatever the hash function.", "quantifier": "all elements", "why_tests_cant": "all objects", "anchors": ["domain/rings/ring_builder.go", "domain/rings/builder.go", "domain/genesis/units_builder.go", "domain/transactions/builder.go", "domain/transactions/secrets/builder.go", "domain/hash/adapter.go:FromBytes"]}
{"id": "C53", "title": "No domain separation between ledger objects", "statement": "Objects of different kinds or shapes share hashes whatever the hash function: a ring over the hashes of a unit's content and owner has the hash of the unit; a secret with an origin has the hash of the secret with this origin as its only side; exchanging the kind of a content's origin keeps the hash.", "quantifier": "all ledger objects of these kinds", "why_tests_cant": "infinite families", "anchors": ["domain/genesis/unit_builder.go", "domain/rings/ring_builder.go", "domain/transactions/secrets/secret_builder.go", "domain/transactions/content_builder.go"]}
{"id": "C54", "title": "The remaining text of a pattern result", "statement": "When all the choices of a pattern are found, the input is the concatenation of the discoveries followed by the remaining text, and no next element is reported. The code violates this for incomplete matches: when a reversed choice finds nothing the remaining text is empty and the result looks complete, and when a serie stops in the middle the text of its first groups is in neither part.", "quantifier": "all patterns and contents", "why_tests_cant": "unbounded patterns and contents", "anchors": ["domain/languages/lexers/containers/patterns/adapter.go:matchPattern", "domain/languages/lexers/containers/patterns/adapter.go:matchSerie", "domain/languages/lexers/containers/patterns/adapter.go:matchReversedSerie"]}
{"id": "C55", "title": "Valid tokens are words of the grammar", "statement": "For grammars without 'not' parts and recursion in which everything behind an optional part of a line is optional, the recognised text of a valid token is a word of the grammar in the usual sense (lines are sequences, cardinalities count repetitions, channel texts may stand in front of every part). The code violates this for all other lines: at the end of the script an optional part ends the line, whatever mandatory parts stand behind it.", "quantifier": "all such grammars, channels and scripts", "why_tests_cant": "all grammars and scripts", "anchors": ["domain/languages/lexers/asts/tokens/adapter.go:lineToMatches", "domain/languages/lexers/asts/tokens/adapter.go:containerToBlockMatch"]}
{"id": "C56", "title": "The token matcher terminates without recursion", "statement": "For every grammar without recursive tokens in which tokens with a 'not' part have a maximal number of repetitions, with channels without 'not' and channel switches, ToToken terminates on every script.", "quantifier": "all such grammars, scripts, states and channel orders", "why_tests_cant": "termination for all inputs", "anchors": ["domain/languages/lexers/asts/tokens/adapter.go:ToToken", "domain/languages/lexers/asts/tokens/adapter.go:tokenPathToTokenResultMatches", "domain/languages/lexers/asts/tokens/adapter.go:findChannelBlockMatch", "domain/languages/lexers/asts/tokens/adapter.go:ruleToRuleMatch"]}
{"id": "C57", "title": "Repeated constants are lost", "statement": "A line that begins with a constant of unbounded cardinality is rejected whenever the constant occurs again later in the script, not adjacent to the leading copies, although the leading copies are a word of the container.", "quantifier": "all constants, numbers of copies and rests", "why_tests_cant": "infinite family of scripts", "anchors": ["domain/languages/lexers/asts/tokens/adapter.go:ruleToRuleMatch", "domain/languages/lexers/asts/tokens/adapter.go:lineToMatches"]}
{"id": "C58", "title": "Alternatives of constants", "statement": "An element whose lines are sequences of mandatory constants is valid exactly for the scripts which begin with the concatenation of one of its lines; the longest such line is recognised, and whatever follows it is ignored.", "quantifier": "all lists of alternatives, scripts and adapter states", "why_tests_cant": "unbounded alternatives and scripts", "anchors": ["domain/languages/lexers/asts/tokens/adapter.go:ToToken", "domain/languages/lexers/asts/tokens/adapter.go:bestLineToMatches"]}
{"id": "C59", "title": "The token matcher does not panic", "statement": "On grammars whose lines have at least one element besides channel switches and whose patterns are not empty ToToken never panics, whatever the script, channels and state. The code violates this for other grammars: a token whose line has channel switches only makes it panic at the end of the script.", "quantifier": "all such grammars, scripts and states", "why_tests_cant": "all inputs and histories", "anchors": ["domain/languages/lexers/asts/tokens/adapter.go:ToToken", "domain/languages/lexers/asts/tokens/adapter.go:fetchFirstRule"]}
{"id": "C60", "title": "Calls are independent of the history", "statement": "An adapter built without permission of prefixes gives the same outcome for a script whatever scripts it was called with before. The code violates this with permission of prefixes: the same script gives different ASTs in two consecutive calls.", "quantifier": "all grammars, scripts and histories of calls", "why_tests_cant": "unbounded histories", "anchors": ["domain/languages/lexers/asts/tokens/adapter.go:ToToken", "domain/languages/lexers/asts/tokens/adapter.go:ruleToRuleMatch"]}
{"id": "C61", "title": "The head is a Merkle root", "statement": "The head of a hash tree is the Merkle root (in the usual recursive sense) of the hashes of the blocks in their order, filled up with the hash of the empty block to the next power of two (at least 2).", "quantifier": "all block lists and hash functions", "why_tests_cant": "unbounded lists", "anchors": ["domain/hashtree/builder.go", "domain/hashtree/block.go"]}
{"id": "C62", "title": "Ring verification checks the whole chain", "statement": "With enough responses Verify of a ring signature is true exactly when the chain of challenges, started with the seed and led once around the ring, returns to the seed. A ring signature that verifies for two messages exhibits a collision of the scalar hash.", "quantifier": "all ring signatures and messages", "why_tests_cant": "all group elements and messages", "anchors": ["domain/cryptography/keys/signature/ringsignature.go:Verify"]}
{"id": "C63", "title": "Nonces are not reused", "statement": "If two signatures have the same commitment point they were made with the same key and message, or the scalar hash has a collision between the texts the nonces are made from. Signing is deterministic except for the sampled self-check.", "quantifier": "all keys, messages and samples", "why_tests_cant": "all keys and messages", "anchors": ["domain/cryptography/keys/signature/privatekey.go:Sign", "domain/cryptography/keys/signature/signature.go:createSignature"]}
{"id": "C64", "title": "Texts of signatures are not canonical", "statement": "Line breaks can be put anywhere into the text of a signature or a ring signature without effect. A text is decoded only if, without line breaks, it consists of whole groups of four alphabet characters with at most two padding characters at its end.", "quantifier": "all texts", "why_tests_cant": "all texts", "anchors": ["domain/cryptography/keys/signature/adapter.go", "domain/cryptography/keys/signature/ringsignature_adapter.go"]}
{"id": "C65", "title": "Builders of the parts", "statement": "Groups, series, patterns, rules, cardinalities and the parts of a grammar are built exactly if their names, codes and lists are not empty, and then have exactly the given parts; the first given kind of a cardinality wins, an amount of 0 is refused, a range is not checked.", "quantifier": "all builder inputs", "why_tests_cant": "all combinations of inputs", "anchors": ["domain/languages/lexers/containers/patterns", "domain/languages/lexers/containers/rules/rule_builder.go", "domain/languages/lexers/cardinality/builder.go", "domain/languages/lexers/containers/tokens"]}
{"id": "C66", "title": "Which grammars are compiled", "statement": "Compiling a token of a grammar succeeds exactly if all the tokens are complete, mention only known tokens, and no line of a token consists of this token alone. It ends for every grammar, however recursive, and the result does not depend on the calls before. The code violates the intended check of progress for more than one token: two tokens which stand for each other are accepted although neither has a word.", "quantifier": "all grammars, tokens and histories of calls", "why_tests_cant": "unbounded, mutually recursive grammars", "anchors": ["domain/languages/lexers/asts/paths/adapter.go:ToPath", "domain/languages/lexers/asts/paths/adapter.go:elementToContainer", "domain/languages/lexers/asts/paths/adapter.go:toElementEncapsulated"]}
{"id": "C67", "title": "Compiling keeps the meaning", "statement": "The words of the compiled root are exactly the words of the root token of the grammar (recursion and channels included). For grammars without recursion, with optional parts only at the ends of lines, the text of every valid token is a word of the grammar.", "quantifier": "all grammars, channels, words and scripts", "why_tests_cant": "all grammars and unbounded words", "anchors": ["domain/languages/lexers/asts/paths/adapter.go", "domain/languages/lexers/asts/tokens/adapter_builder.go:Now", "domain/languages/lexers/asts/tokens/adapter.go:ToToken"]}
{"id": "C68", "title": "Channels and channel switches", "statement": "With one channel of constant text, a line of constants and channel switches accepts exactly the scripts that begin with the constants in order, with any number of channel texts in front of each constant as long as no switch was passed. The code violates the intended meaning of switches: the constant right behind a switch still accepts one channel text, and channels are never switched on again for the rest of the line.", "quantifier": "all lines of constants and switches, channel texts, scripts and states", "why_tests_cant": "unbounded lines and scripts", "anchors": ["domain/languages/lexers/asts/tokens/adapter.go:lineToMatches", "domain/languages/lexers/asts/tokens/adapter.go:findChannelBlockMatch", "domain/languages/lexers/asts/tokens/adapter.go:containerToBlockMatch"]}
{"id": "C69", "title": "Recursive tokens", "statement": "The right-recursive grammar R := a R | b is recognised completely: a script is accepted exactly if it begins with a word, which is the recognised text. The code violates this for other recursions: of the left-recursive R := R a | b at most three a are recognised and for exactly two a only b; it does not end on the empty script; two left-recursive alternatives make it end on no script; and for R := a R c | a R d | b texts which are no words are accepted.", "quantifier": "all constants, names, scripts, states and numbers of repetitions", "why_tests_cant": "unbounded recursion depth and non-termination", "anchors": ["domain/languages/lexers/asts/tokens/adapter.go:containerToMatch", "domain/languages/lexers/asts/tokens/adapter.go:fetchFirstRuleFromTokenName", "domain/languages/lexers/asts/paths/adapter.go:ToPath"]}
{"id": "C70", "title": "Applications remember replacements", "statement": "After a call with result, an application of the lexer remembers for each name replaced by the grammar the path of the local token of the last such replacement, and nothing else changes; a grammar without replacements changes nothing. The code violates the independence of calls: a replacement of one grammar changes the meaning of the equally named tokens of all the grammars used later with this application.", "quantifier": "all grammars, texts, files and histories of calls", "why_tests_cant": "unbounded histories", "anchors": ["applications/languages/lexers/application.go:fetchReplacementPaths", "applications/languages/lexers/builder.go"]}
{"id": "C71", "title": "Builders of the base language", "statement": "The builders of the objects of the base language succeed exactly if their mandatory parts are set; of several alternatives the first in a fixed order counts, lists keep their order and must not be empty, the value of a literal fits its type, and two types are equal exactly if Compare reports no error. The code violates the demand of at least one declaration: an empty list of declarations is built.", "quantifier": "all combinations of builder inputs", "why_tests_cant": "all combinations of inputs", "anchors": ["domain/languages/scripts/base/parsers/instruction_builder.go", "domain/languages/scripts/base/parsers/operationelement_builder.go", "domain/languages/scripts/base/parsers/value_builder.go", "domain/languages/scripts/base/parsers/variabledeclarations_builder.go"]}
{"id": "C72", "title": "Numbers of a program", "statement": "An integer literal without minus is read as the unsigned number its digits denote if this fits the configured bit size, one with minus as the negative number if this fits, and an index as the unsigned number; every other text is an error. Every number below 2^64 can be written.", "quantifier": "all texts, bit sizes and root trees", "why_tests_cant": "all texts", "anchors": ["domain/languages/scripts/base/parsers/helper.go:newEvents"]}
{"id": "C73", "title": "Operators are told apart", "statement": "Each of the twelve operators of the base language is read as its own number, in every conforming tree; different operators have different numbers.", "quantifier": "all conforming operator trees and map iteration orders", "why_tests_cant": "map iteration orders", "anchors": ["domain/languages/scripts/base/parsers/helper.go:newEvents"]}
{"id": "C74", "title": "Operands, operators and conditions are confused", "statement": "Parsing should read the operands, operators, conditions, indices and bounds from their own places. The code violates this: every operation a\u2218b may also be read as b\u2218b, every a\u2218(b\u2022c) as a\u2022(b\u2022c), every if or for with a nested if or for as first instruction may get the condition of the inner one, every list access whose list contains another access may get the index of the inner one, and similarly for slices, depending on the iteration order of a map.", "quantifier": "all conforming trees of these shapes", "why_tests_cant": "map iteration order is non-deterministic", "anchors": ["domain/languages/scripts/base/parsers/helper.go:newEvents", "applications/languages/parsers/manager.go:Trigger", "domain/languages/lexers/roots/nodes.go:Scan"]}
{"id": "C75", "title": "First elements of lists with commas are confused", "statement": "A list with commas should be read with its elements in order. The code violates this: every list of assignees, first assignees, values and declarations with at least two elements a,b,... may also be read as b,b,... .", "quantifier": "all conforming lists with commas", "why_tests_cant": "map iteration order is non-deterministic", "anchors": ["domain/languages/scripts/base/parsers/helper.go:newEvents", "applications/languages/parsers/manager.go:Trigger", "domain/languages/lexers/roots/nodes.go:Scan"]}
{"id": "C76", "title": "The base parser terminates", "statement": "The parser with the events of the base language ends on every root tree, conforming or not, for every iteration order of the maps.", "quantifier": "all root trees and map iteration orders", "why_tests_cant": "termination for all inputs", "anchors": ["domain/languages/scripts/base/parsers/helper.go:newEvents", "applications/languages/parsers/application.go:Execute"]}
{"id": "C77", "title": "Equal texts make programs fail", "statement": "Every program of the grammar should be parsed. The code violates this: append x, x is a text of the grammar for every variable x, but every execution of the parser for it ends with an error because the root of the first x is replaced by that of the second.", "quantifier": "all variables", "why_tests_cant": "infinite family, depends on the cache", "anchors": ["domain/languages/scripts/base/parsers/helper.go:newEvents", "domain/languages/lexers/roots/adapter.go:toRootWithCache"]}
{"id": "C78", "title": "Types keep their depth", "statement": "A type list<...<t>...> is read with the number of surrounding lists and the flag of its innermost type, in every conforming tree, and a tree writes one type only.", "quantifier": "all conforming type trees", "why_tests_cant": "unbounded nesting", "anchors": ["domain/languages/scripts/base/parsers/helper.go:newEvents"]}
{"id": "C79", "title": "Conforming trees are parsed", "statement": "For every root tree that conforms to the grammar of the base language, with numbers in range, every execution of the parser ends with an object of the kind of the token, without error and panic, whatever the order of the maps; for a program it is a program.", "quantifier": "all conforming root trees and map iteration orders", "why_tests_cant": "unbounded trees and map iteration orders", "anchors": ["domain/languages/scripts/base/parsers/helper.go:newEvents", "applications/languages/parsers/application.go:Execute", "domain/languages/scripts/resources/base/tokens.alex"]}
{"id": "C80", "title": "Instructions keep their order", "statement": "The instructions of a program, and of the blocks of if and for, are the readings of the instruction parts of the tree, in their order, none lost and none added; if no other condition is inside the block, the condition is the own one.", "quantifier": "all conforming trees and map iteration orders", "why_tests_cant": "unbounded trees and map iteration orders", "anchors": ["domain/languages/scripts/base/parsers/helper.go:newEvents"]}
{"id": "C81", "title": "Clear programs have one reading", "statement": "If in no root of the tree one of the confusable parts (a fixed list of the grammar) also occurs inside another part of the same token, all the executions of the parser have the same outcome.", "quantifier": "all clear conforming trees and map iteration orders", "why_tests_cant": "map iteration order is non-deterministic", "anchors": ["domain/languages/scripts/base/parsers/helper.go:newEvents", "applications/languages/parsers/manager.go:Trigger"]}
{"id": "C82", "title": "From the syntax tree to the program", "statement": "The abstract syntax tree of every program of the base grammar in which tokens with equal texts are equally matched is converted to a root tree that conforms to the grammar, and the parser reads a program from it in every execution.", "quantifier": "all syntax trees of the grammar and map iteration orders", "why_tests_cant": "unbounded trees and map iteration orders", "anchors": ["domain/languages/lexers/roots/adapter.go:ToRoot", "domain/languages/scripts/base/parsers/helper.go", "domain/languages/scripts/resources/base/tokens.alex"]}
{"id": "C83", "title": "Token texts are read as written", "statement": "The text of tokens is read as it is written, whatever the blanks in it: the tokens in their order with their names, lines, lines which must not match and tests, and the elements of the lines with their names, cardinalities and specifiers. Without tokens, or with a name twice, an error is returned. If no channel switch follows an element of which only the name is written, all the items of a line are read.", "quantifier": "all token texts with arbitrary names, blanks, cardinalities, specifiers and numbers of lines", "why_tests_cant": "unbounded texts", "anchors": ["domain/languages/lexers/containers/tokens/adapter.go:ToTokens", "domain/languages/lexers/containers/tokens/adapter.go:instructions"]}
{"id": "C84", "title": "Channel switches are lost", "statement": "A channel switch in a line should be read. The code violates this: a switch right behind an element of which only the name is written is lost, in every line, and in the shipped grammar.", "quantifier": "all lines and names", "why_tests_cant": "infinite family", "anchors": ["domain/languages/lexers/containers/tokens/adapter.go:instructions", "domain/languages/scripts/resources/base/tokens.alex"]}
{"id": "C85", "title": "Reading tokens does not panic", "statement": "Reading the text of tokens never panics, whatever the text: the result is the tokens or an error.", "quantifier": "all byte strings and rules", "why_tests_cant": "all inputs", "anchors": ["domain/languages/lexers/containers/tokens/adapter.go:ToTokens"]}
{"id": "C86", "title": "Rule texts are read as written", "statement": "The text of rules is read as it is written, whatever the blanks in it: the rules in their order with their names, codes and constants (a quote is written with a backslash in front of it) or patterns with their cardinality. Without rules, or with a name twice, an error is returned.", "quantifier": "all lists of written rules, whatever the blanks, and all patterns", "why_tests_cant": "unboundedly many texts", "anchors": ["domain/languages/lexers/containers/rules/adapter.go:Rules", "domain/languages/lexers/containers/rules/adapter.go:element", "domain/languages/lexers/containers/rules/adapter.go:pattern"]}
{"id": "C87", "title": "Rule texts which are misread", "statement": "The constant of a rule should be the text between its quotes and no text should panic. The code violates this: ### in a constant is read as a quote; a constant with a semicolon is read as the empty constant or rejected; a rule with neither brackets nor quotes in its body panics.", "quantifier": "all names and texts of these shapes", "why_tests_cant": "all inputs", "anchors": ["domain/languages/lexers/containers/rules/adapter.go:Rules", "domain/languages/lexers/containers/rules/adapter.go:rulesList"]}
{"id": "C88", "title": "Pattern texts are read as written", "statement": "The text of groups, series and patterns, in any order and whatever the blanks in it, is read as it is written: the patterns in their order with the series of their choices, and these with their groups and options; of several groups, series or patterns of the same name the last one counts. Without groups or patterns, or if a group or serie which is mentioned is not written, an error is returned.", "quantifier": "all lists of written groups, series and patterns, whatever the blanks", "why_tests_cant": "unboundedly many texts", "anchors": ["domain/languages/lexers/containers/patterns/adapter.go:ToPatterns"]}
{"id": "C89", "title": "Group options which are misread", "statement": "The options of a group should be the texts between the commas, with a quote for every quote with a backslash in front of it. The code violates this: in an option of several characters such a quote is read as ###, and the option ### is read as a quote.", "quantifier": "all names and options of these shapes", "why_tests_cant": "all inputs", "anchors": ["domain/languages/lexers/containers/patterns/adapter.go:ToPatterns"]}
{"id": "C90", "title": "Reading patterns does not panic", "statement": "Reading the text of patterns never panics, whatever the text: the result is the patterns or an error.", "quantifier": "all byte strings", "why_tests_cant": "all inputs", "anchors": ["domain/languages/lexers/containers/patterns/adapter.go:ToPatterns"]}
{"id": "C91", "title": "The shipped grammar is read as intended", "statement": "The shipped texts of the base grammar are read without error and say what they should: patterns and rules with their characters and constants; one token for each of the 63 kinds, whose lines consist of the tokens, rules, specifiers and channel switches of an independent table, with the same repetitions; three channels. The grammar which the parser properties are about is the view of this table on the trees: for each line the same tokens and rules with the numbers of children the line allows.", "quantifier": "the shipped texts (every byte of them)", "why_tests_cant": "a test cannot compare the reading of the whole grammar with an independent description of it", "anchors": ["domain/languages/scripts/resources/base/tokens.alex", "domain/languages/scripts/resources/base/rules.alex", "domain/languages/scripts/resources/base/patterns.alex", "domain/languages/scripts/resources/base/channels.alex", "domain/languages/lexers/containers/tokens/adapter.go:ToTokens"]}
{"id": "C92", "title": "Syntax trees are derivation trees", "statement": "Every success of the matcher gives a derivation tree of the grammar for a beginning of the script: the root has the name of the token and the number of one of its lines, the children are the parts of this line in their order, each as often as its cardinality allows and its specifiers demand, with texts of the channels in between. A line is given up before its end only where the text is at its end and the next element is optional, or in front of a token from which the own token can be reached again; if something of the script is left over, only the latter. A tree without given up lines is a word of the grammar.", "quantifier": "all ordinary grammars, scripts, successes and channel orders", "why_tests_cant": "unbounded grammars, texts and trees", "anchors": ["domain/languages/lexers/asts/adapter.go:ToAST", "domain/languages/lexers/asts/tokens/adapter.go", "domain/languages/lexers/asts/tokens/specifier.go"]}
{"id": "C93", "title": "From the text to the program", "statement": "With the shipped texts, every success of AST is a derivation tree of the grammar read from them for a beginning of the script; the trees of the tokens without recursion are complete; a complete tree whose numbers are in range is a tree of the grammar on which the parser relies; and if such a tree of a program matches equal texts equally, Root gives a root and every run of the parser on it gives a program.", "quantifier": "all scripts, tokens, channel orders, file systems and stack depths from 64 on, all map orders of the parser", "why_tests_cant": "unbounded texts and map orders, end to end", "anchors": ["applications/languages/lexers/application.go:AST", "applications/languages/lexers/application.go:Root", "domain/languages/scripts/resources/base/tokens.alex", "domain/languages/scripts/resources/base/channels.alex", "domain/languages/scripts/base/parsers/helper.go:newEvents"]}
{"id": "C94", "title": "The order of the channels does not matter", "statement": "If no two channels can begin at the same place the outcome of AST (a tree, a mistake, an error, a panic, or no end) is the same for every order in which the map of the channels is read, and whatever the adapter was used for before. The shipped channels are of this kind, so that AST with the shipped texts is a function of the token and the script. The code violates this for other channels: with the channels a and ab the text abc is recognised as bc or not, depending on the order.", "quantifier": "all grammars with such channels, scripts, channel orders and histories", "why_tests_cant": "map iteration orders", "anchors": ["domain/languages/lexers/asts/tokens/adapter.go:findMatchesInChannels", "applications/languages/lexers/application.go:AST"]}
{"id": "C95", "title": "Texts which are not programs are accepted", "statement": "The shipped lexer should accept exactly the programs. The code violates this, whatever the order of the channels: a condition whose block is never closed and an assignment of a list which is never closed are accepted to their end, the declaration of a list is cut in the middle of its type, and what follows a program is ignored although no suffix is allowed.", "quantifier": "the given texts, all settings and channel orders", "why_tests_cant": "channel orders", "anchors": ["applications/languages/lexers/application.go:AST", "domain/languages/scripts/resources/base/tokens.alex", "domain/languages/lexers/asts/tokens/adapter.go:lineToMatches"]}
{"id": "C96", "title": "Left recursion never ends", "statement": "AST should answer for every grammar it accepts and every script. The code violates this: if the first two lines of a token begin with the token itself, the grammar is compiled, but AST ends on no script which is not empty; only one such line is caught by the guard. On the empty script it does not end either, and there the first line alone is enough, if its first element is not optional.", "quantifier": "all such grammars, scripts, numbers of steps and states", "why_tests_cant": "non-termination", "anchors": ["domain/languages/lexers/asts/tokens/adapter.go:containerToMatch", "domain/languages/lexers/asts/adapter.go:ToAST"]}
{"id": "C97", "title": "Guarded left recursion ends", "statement": "If the left recursion of a grammar is guarded (tokens which begin with each other are reached by one way only, with nothing in front which could touch the memory of the guard; see WellGuarded) and its channels cannot be confused, AST ends on every script, for every order of the channels and from every state without prefixes: from a number of steps on the outcome is always the same.", "quantifier": "all such grammars, scripts, channel orders and states", "why_tests_cant": "termination", "anchors": ["domain/languages/lexers/asts/tokens/adapter.go:containerToMatch", "domain/languages/lexers/asts/adapter.go:ToAST"]}
{"id": "C98", "title": "The lexer answers with a tree or a mistake", "statement": "For every grammar without not lines, whose rules have a name, a code and a constant or patterns, and whose tokens have an element in their first line, ToAST never returns an error and never panics: if it ends it gives a syntax tree or a mistake, whatever the recursion, the cardinalities and the specifiers.", "quantifier": "all such grammars, channels, scripts, channel orders, numbers of steps and states without prefixes", "why_tests_cant": "all inputs", "anchors": ["domain/languages/lexers/asts/adapter.go:ToAST", "domain/languages/lexers/asts/tokens/adapter.go:ToToken", "domain/languages/lexers/asts/mistakes/adapter.go:ToMistake"]}
{"id": "C99", "title": "The shipped lexer answers on every text", "statement": "With the shipped texts AST answers on every script for every token: one syntax tree or one mistake is the result of all runs, whatever the order of the channels, the file system and the depth of the stack from 64 on; no error, no panic, no endless run.", "quantifier": "all scripts, all 63 tokens, all channel orders and settings", "why_tests_cant": "termination and all inputs", "anchors": ["applications/languages/lexers/application.go:AST", "domain/languages/scripts/resources/base/tokens.alex", "domain/languages/scripts/resources/base/channels.alex", "domain/languages/lexers/asts/tokens/adapter.go"]}
{"id": "C100", "title": "References are read as written", "statement": "The includes, references and replacements of a grammar are read as they are written, wherever they stand in the text of the tokens and whatever the blanks in them: every link has the names which are written and the paths of the last include of its name, in the order of the text; a link to an include which is written nowhere in the text gives an error.", "quantifier": "all lists of written statements, with any texts without the keywords between them", "why_tests_cant": "unboundedly many texts", "anchors": ["domain/languages/lexers/references/adapter.go:ToReferences", "domain/languages/lexers/references/adapter.go:includes", "domain/languages/lexers/references/adapter.go:references", "domain/languages/lexers/references/adapter.go:replacements"]}
{"id": "C101", "title": "Bad includes are rejected", "statement": "An include must have two or three paths. With more than three, or with an empty path of rules or tokens, reading the references gives an error. The code violates the rest: an include with one path panics instead of giving an error, whatever else stands in the text.", "quantifier": "all texts with such an include behind well written ones", "why_tests_cant": "all inputs", "anchors": ["domain/languages/lexers/references/adapter.go:includes"]}
{"id": "C102", "title": "Links which are misread", "statement": "A link should only be accepted with a dot between the include and its token, and any names should be possible. The code violates this: every character but a letter and a line break is read as the dot, and a well written link whose local name contains a keyword makes the text an error.", "quantifier": "all written statements and characters; the given text", "why_tests_cant": "all inputs", "anchors": ["domain/languages/lexers/references/adapter.go:references", "domain/languages/lexers/references/adapter.go:replacements"]}
{"id": "C103", "title": "Root answers on every text", "statement": "Every syntax tree of a grammar whose tokens and rules have names is converted to a root with the name of the token and the recognised text. With the shipped texts Root therefore answers on every script for every token: one root, whose text is a non-empty beginning of the script, or one mistake is the result of all runs, whatever the order of the channels, the file system and the depth of the stack from 64 on; there is no nil root, no error, no panic and no endless run.", "quantifier": "all scripts (shorter than 2^63), all 63 tokens, all channel orders and settings; all such grammars", "why_tests_cant": "termination and all inputs", "anchors": ["applications/languages/lexers/application.go:Root", "domain/languages/lexers/roots/adapter.go:ToRoot", "domain/languages/scripts/resources/base/tokens.alex"]}
{"id": "C104", "title": "No text makes the shipped parser panic", "statement": "Whatever the text and the token are: if the shipped lexer gives a root for them, there is a run of the shipped parser on this root, and every run ends with an error or with an object of the kind of the token, for every order of the maps; no run panics, even on roots whose trees were given up in the middle. Together with the previous property: from the text the result is always one mistake, or one root with these runs. Errors do occur on recognised texts: append ab, ab is recognised as listAppend, and every run of the parser on it is an error.", "quantifier": "all scripts (shorter than 2^63), all 63 tokens, all orders of the maps of the lexer and the parser, all settings", "why_tests_cant": "map orders and all inputs, end to end", "anchors": ["applications/languages/lexers/application.go:Root", "domain/languages/scripts/base/parsers/helper.go:newEvents", "applications/languages/parsers/application.go:Execute", "domain/languages/scripts/resources/base/tokens.alex"]}
{"id": "C105", "title": "RSA decryption inverts encryption", "statement": "For every private key built from an RSA key (two different primes, e and d inverse modulo each prime minus one), Decrypt of what Encrypt of its public key returned is the message, for every message at least 66 bytes shorter than the modulus and every random seed; longer messages give an error and never a panic. The code violates what a user of the factory expects: with a bit rate of at most 520 keys are created without an error, but they can encrypt no message at all.", "quantifier": "all RSA keys, messages, seeds, texts and SHA-256 functions", "why_tests_cant": "all keys and messages", "anchors": ["domain/cryptography/keys/encryption/publickey.go:Encrypt", "domain/cryptography/keys/encryption/privatekey.go:Decrypt", "domain/cryptography/keys/encryption/factory.go:Create", "domain/cryptography/keys/encryption/builder.go:Now"]}
{"id": "C106", "title": "RSA keys survive their encodings", "statement": "Reading what ToBytes or ToEncoded wrote for a public key or for the private key of an RSA key gives this key; truncated and lengthened public keys are errors; whatever is accepted has consistent numbers, so a private key never gets a public key of other numbers; the hash of a public key binds it up to collisions. The code violates the rest: junk inside of the sequence of a public key is ignored, so that an encoding is not unique, and the builder accepts keys whose numbers do not fit together and whose encodings cannot be read.", "quantifier": "all keys with numbers of at most 2^24 bytes, all byte strings", "why_tests_cant": "all keys and hostile inputs", "anchors": ["domain/cryptography/keys/encryption/publickey_adapter.go:FromBytes", "domain/cryptography/keys/encryption/publickey_adapter.go:ToBytes", "domain/cryptography/keys/encryption/publickey_adapter.go:ToHash", "domain/cryptography/keys/encryption/adapter.go:FromBytes", "domain/cryptography/keys/encryption/adapter.go:FromEncoded", "domain/cryptography/keys/encryption/builder.go:Now"]}
{"id": "C107", "title": "The parser reads the object which is written", "statement": "In every tree of the grammar an object is written, clause by clause: the parts of the line in their places, the numbers as their digits say, the operators and types as their letters say, lists in the order of their elements, optional parts if they are there. The parser can read exactly this object from the tree; from a clear tree (in which no part can be confused with a part inside of another one) it reads this object only, for every token of the language and every order of the maps, and the object is unique. From a text whose tree conforms and whose root is clear the application therefore reads exactly the program which is written in it.", "quantifier": "all trees of the grammar, all 63 tokens, all orders of the maps, all bit sizes and float readers", "why_tests_cant": "unbounded trees and map orders", "anchors": ["domain/languages/scripts/base/parsers/helper.go:newEvents", "applications/languages/parsers/manager.go:Trigger", "applications/languages/parsers/application.go:Execute"]}
{"id": "C108", "title": "A text has one meaning", "statement": "A program should have one meaning, and its literals should be values. This holds for the text if ab { break }. The code violates it for others: from ab = cd + ef the parser reads the sum of cd and ef or the sum of ef and ef, depending on the order of a map; ab = true assigns a list held by a variable with the name true instead of a boolean; and int ab = 1, which is not in the language, is read as int ab without an error.", "quantifier": "the given texts, all settings, channel orders and sufficient numbers of steps, the orders of the maps of the parser", "why_tests_cant": "map orders, end to end", "anchors": ["applications/languages/lexers/application.go:Root", "domain/languages/scripts/base/parsers/helper.go:newEvents", "applications/languages/parsers/application.go:Execute", "domain/languages/lexers/roots/nodes.go:Scan", "domain/languages/scripts/resources/base/tokens.alex"]}
{"id": "C109", "title": "What a grammar reads, exactly", "statement": "For a grammar without recursion, not lines, groups of lines and specifiers, what ToToken recognises is what the grammar says, and nothing else: the token is valid exactly if the grammar reads something at the beginning of the script, and its text is what is read. A line reads its elements one behind the other, each as often as possible up to its maximum and without going back, with texts of the channels in front; an optional element which is repeated too rarely or too often is skipped; of the lines the longest counts; a repeated constant which occurs once more further behind loses the line. The result does not depend on earlier calls. In particular a rule as often as possible and then once more is never recognised, whatever the script.", "quantifier": "all such grammars, channels, scripts (shorter than 2^63), numbers of steps and states; all channel orders for the soundness", "why_tests_cant": "unbounded grammars, texts and histories", "anchors": ["domain/languages/lexers/asts/tokens/adapter.go:ToToken", "domain/languages/lexers/asts/tokens/adapter.go:lineToMatches", "domain/languages/lexers/asts/tokens/adapter.go:findChannelBlockMatch", "domain/languages/lexers/asts/tokens/adapter.go:ruleToRuleMatch"]}
{"id": "C110", "title": "The order of the alternatives does not matter", "statement": "Writing the lines of a token in another order, at the root or in tokens inside, changes neither which scripts are recognised nor which text is recognised, for grammars without recursion, not lines, groups of lines and specifiers.", "quantifier": "all such grammars, reorderings, channels, scripts, numbers of steps and states", "why_tests_cant": "unbounded grammars and texts", "anchors": ["domain/languages/lexers/asts/tokens/adapter.go:bestLineToMatches"]}
{"id": "C111", "title": "A ring signature does not tell its signer", "statement": "Every ring signature which verifies (with one response for every member) could have been made by every member of the ring, with exactly one nonce each, and every signature made in this way verifies; RingSign makes its signatures in this way. So the signature alone excludes no member. The code violates the anonymity as soon as the signer also signs the same message plainly: the nonce is the same, and the point of the plain signature appears at the position of the signer. Two answers to one point give the private key away.", "quantifier": "all prime orders, curves, hashes, rings, keys, messages and signatures", "why_tests_cant": "all signatures and keys", "anchors": ["domain/cryptography/keys/signature/privatekey.go:RingSign", "domain/cryptography/keys/signature/ringsignature.go:Verify", "domain/cryptography/keys/signature/privatekey.go:Sign"]}
{"id": "C112", "title": "What not lines mean", "statement": "A token with not lines should be recognised exactly if its lines read something and its not lines read nothing at the beginning of the script. The code keeps a part of this: if the not lines read something the token is not valid; if they read nothing and the lines read a text, the token is valid and has this text; and the text of a valid token is what the lines read, or empty. It violates the rest: a token whose lines read nothing is valid all the same, on every text at whose beginning no not line is read either.", "quantifier": "all roots with lines as in the exact reading, channels, scripts, numbers of steps and states; for the violation all alternatives of rules", "why_tests_cant": "unbounded grammars and texts", "anchors": ["domain/languages/lexers/asts/tokens/adapter.go:elementToTokenContent", "domain/languages/lexers/asts/tokens/tokencontent.go:IsValid"]}
{"id": "C113", "title": "The head binds the history", "statement": "If the blocks of a chain are linked (each one names the hash of the block before it and is one higher, the first has height 1), the hash of the head binds the whole history: two histories with the same head hash and height have the same blocks, as far as they are hashed, down to the first one, unless two blocks at the same place are a collision; the same holds for two chains with one hash. A list of transactions binds the hashes of its transactions in order, for a given number of them.", "quantifier": "all histories of any length, all digest functions", "why_tests_cant": "unbounded histories, hostile inputs", "anchors": ["domain/chains/block_builder.go:Now", "domain/chains/builder.go:Now", "domain/transactions/builder.go:Now"]}
{"id": "C114", "title": "The ledger does not enforce its rules", "statement": "An origin should be spent once, a transaction should be authorized by the owners of its origin, a block should follow the block it names, a chain should begin at its root and nobody should spend more than there is. The builders violate all of this: for every origin a block with any number of transactions of it is built; every authorization is accepted for every content; every height with every previous hash and every root with every head is accepted; the amount of a secret is not compared with that of its origin.", "quantifier": "all origins, lists of spendings, contents, authorizations, heights, hashes and amounts", "why_tests_cant": "hostile inputs", "anchors": ["domain/transactions/content_builder.go:Now", "domain/transactions/transaction_builder.go:Now", "domain/chains/block_builder.go:Now", "domain/chains/builder.go:Now", "domain/transactions/secrets/secret_builder.go:Now"]}
{"id": "C115", "title": "A transaction binds its provenance", "statement": "The hash of a transaction binds the way of its money: two transactions with the same hash have the same origins, transaction by transaction and as far as they are hashed, down to units of the genesis with the same content and owner, unless two of the texts which were hashed on the two ways are a collision. The texts of the authorizations must not be empty nor have the length of a hash.", "quantifier": "all transactions with origins of any depth, all digest functions", "why_tests_cant": "unbounded histories, hostile inputs", "anchors": ["domain/transactions/transaction_builder.go:Now", "domain/transactions/content_builder.go:Now", "domain/transactions/origin.go:Hash", "domain/genesis/unit_builder.go:Now"]}
{"id": "C116", "title": "The arithmetic of the scalars is right", "statement": "Addition, subtraction, negation, multiplication, multiplication with addition, inversion and division of scalars give, for any 32 bytes, reduced or not, the 32 bytes of the number below the group order which the operation has modulo this order; no intermediate 64-bit number overflows. The order is a prime; the inverse of a multiple of it is zero. SetBytes of bytes of any length, MarshalBinary and String reduce; reading a scalar takes its first 32 bytes unreduced, ignores what is after them and fails exactly on fewer bytes.", "quantifier": "all 32-byte scalars, all byte strings", "why_tests_cant": "2^256 values each, carries which almost never occur", "anchors": ["vendor/go.dedis.ch/kyber/v3/group/edwards25519/scalar.go:scMulAdd", "vendor/go.dedis.ch/kyber/v3/group/edwards25519/scalar.go:scAdd", "vendor/go.dedis.ch/kyber/v3/group/edwards25519/scalar.go:scSub", "vendor/go.dedis.ch/kyber/v3/group/edwards25519/scalar.go:scMul", "vendor/go.dedis.ch/kyber/v3/group/edwards25519/scalar.go:Inv", "vendor/go.dedis.ch/kyber/v3/group/edwards25519/scalar.go:SetBytes", "vendor/go.dedis.ch/kyber/v3/group/internal/marshalling/marshal.go:ScalarUnmarshalFrom", "domain/cryptography/keys/signature/helper.go:fromStringToScalar"]}
{"id": "C117", "title": "Multiplication of a point", "statement": "Multiplying a point by a scalar should add the point to itself as often as the scalar says. This holds for every point and every scalar up to 0x8777...7. Above, the code violates it: the highest digit is dropped, so that the result is wrong for every point of the subgroup other than zero. A private key above the limit, which ToPrivateKey reads without an error, therefore has a PublicKey which is not the key recovered from its signatures, and the ring signature which it makes for its own ring verifies only if two different points have the same challenge.", "quantifier": "all points of any commutative group, all 32-byte scalars, all messages", "why_tests_cant": "2^256 scalars", "anchors": ["vendor/go.dedis.ch/kyber/v3/group/edwards25519/ge.go:geScalarMult", "vendor/go.dedis.ch/kyber/v3/group/edwards25519/point.go:Mul", "domain/cryptography/keys/signature/privatekey.go:PublicKey", "domain/cryptography/keys/signature/privatekey_adapter.go:ToPrivateKey"]}
{"id": "C118", "title": "The keys on bytes are the keys of the algebra", "statement": "On the 32-byte scalars of the library, Sign for all private keys, PublicKey and RingSign for private keys up to the limit of C117, and the recovery of keys and the verification for responses up to it do what they do in the field of the residues. So a signature tells the public key of its signer, ring signatures of members verify, others get an error, and the texts of signatures and ring signatures give them back.", "quantifier": "all groups of points, hashes, keys, rings, messages and signatures", "why_tests_cant": "all keys and messages", "anchors": ["domain/cryptography/keys/signature/privatekey.go:Sign", "domain/cryptography/keys/signature/privatekey.go:RingSign", "domain/cryptography/keys/signature/signature.go:PublicKey", "domain/cryptography/keys/signature/ringsignature.go:Verify", "domain/cryptography/keys/signature/ringsignature_adapter.go:ToSignature", "domain/cryptography/keys/signature/adapter.go:ToSignature"]}
{"id": "C119", "title": "Scalars have one form", "statement": "A signature or a key should have one form. What holds: a first challenge which is not reduced never verifies with a ring which is not empty, and what is printed is reduced. The code violates the rest: responses can be replaced by others of the same residue, and the other ring signature verifies, too; private keys of one residue make the same signatures; the text of a private key may be followed by anything; a response of any 32 bytes passes the verification of plain signatures; and a signature whose response is above the limit of C117 is, after printing and reading, the signature of another public key.", "quantifier": "all groups of points, hashes, scalars, signatures and texts", "why_tests_cant": "hostile inputs", "anchors": ["domain/cryptography/keys/signature/ringsignature.go:Verify", "domain/cryptography/keys/signature/ringsignature.go:String", "domain/cryptography/keys/signature/signature.go:Verify", "domain/cryptography/keys/signature/helper.go:fromStringToScalar", "vendor/go.dedis.ch/kyber/v3/group/edwards25519/scalar.go:UnmarshalBinary", "vendor/go.dedis.ch/kyber/v3/group/edwards25519/scalar.go:Equal"]}
{"id": "C120", "title": "Built objects and the memory of their caller", "statement": "Building an object should not change the data of the caller, and later changes of this data should not change the object. What holds: a hash tree is the tree of the blocks at the time of Now, building it again gives the same tree, and with two blocks or more nothing is written; transactions and ring signatures are unaffected by writes to other arrays. The code violates the rest: with at most one block and spare capacity, the element after the blocks is overwritten with the empty block, so that after a tree of all[:1] was built, all gives the tree with an empty second block, which has another head; a write to the slice given to the builder of transactions, rings, secrets, private transactions or of a ring of hashes, or to the slice which List returns, changes their List but not their Hash; a write to the slice given to RingSign changes the ring of the signature, which then does not verify.", "quantifier": "all memories, slices, blocks, transactions, keys and rings", "why_tests_cant": "any later write by any part of a program", "anchors": ["domain/hashtree/block.go:createBlockFromData", "domain/hashtree/builder.go:WithBlocks", "domain/transactions/builder.go:Now", "domain/transactions/transactions.go:List", "domain/rings/builder.go:Now", "domain/rings/ring_builder.go:Now", "domain/transactions/secrets/builder.go:Now", "domain/transactions/privates/builder.go:Now", "domain/cryptography/keys/signature/privatekey.go:RingSign", "domain/cryptography/keys/signature/ringsignature.go:Verify"]}
{"id": "C121", "title": "A ring signature and its ring", "statement": "A ring signature should be bound to its ring. What holds: a single member cannot be replaced by another key, unless its challenge is zero or the hash has a collision. The code violates the rest, because the ring is not hashed: from any ring signature anyone, without a private key, makes one for the same message in whose ring any member is replaced by any key, by replacing the next member by a multiple of it; so it verifies although no member of its ring took part.", "quantifier": "all groups of points, hashes, ring signatures, positions and keys", "why_tests_cant": "hostile inputs, all keys", "anchors": ["domain/cryptography/keys/signature/ringsignature.go:Verify", "domain/cryptography/keys/signature/privatekey.go:RingSign"]}
{"id": "C122", "title": "Points in coordinates are the points of Ed25519", "statement": "The curve of the library, -x^2 + y^2 = 1 + d x^2 y^2 with d = -121665/121666 modulo the prime 2^255-19, is a commutative group with the addition of the textbook, which has no exceptional pairs of points. The neutral point, the opposite, the sum, the difference and the multiple (up to the limit of C117; above it the wrong multiple of C117) which the library computes in its coordinates are those of this group, whichever coordinates of the points are given. Equal, MarshalBinary and String depend on the point only, and two points are equal exactly if their bytes and their texts are.", "quantifier": "all points, all their coordinates, all 32-byte scalars", "why_tests_cant": "2^255 points, exceptional cases almost never occur", "anchors": ["vendor/go.dedis.ch/kyber/v3/group/edwards25519/ge.go:Add", "vendor/go.dedis.ch/kyber/v3/group/edwards25519/ge.go:Sub", "vendor/go.dedis.ch/kyber/v3/group/edwards25519/ge.go:Double", "vendor/go.dedis.ch/kyber/v3/group/edwards25519/ge.go:ToBytes", "vendor/go.dedis.ch/kyber/v3/group/edwards25519/ge.go:geScalarMult", "vendor/go.dedis.ch/kyber/v3/group/edwards25519/point.go:Add", "vendor/go.dedis.ch/kyber/v3/group/edwards25519/point.go:Sub", "vendor/go.dedis.ch/kyber/v3/group/edwards25519/point.go:Mul", "vendor/go.dedis.ch/kyber/v3/group/edwards25519/point.go:Equal", "vendor/go.dedis.ch/kyber/v3/group/edwards25519/point.go:MarshalBinary"]}
{"id": "C123", "title": "The base point and the public keys", "statement": "The base point is the one of Ed25519 and its order is exactly the prime order of the scalars. Up to the limit of C117 two private keys have one public key if and only if they are the same number modulo the order, and only the multiples of the order have the neutral point.", "quantifier": "all 32-byte private keys, all multiples", "why_tests_cant": "2^256 keys", "anchors": ["vendor/go.dedis.ch/kyber/v3/group/edwards25519/const.go:baseext", "vendor/go.dedis.ch/kyber/v3/group/edwards25519/point.go:Base", "domain/cryptography/keys/signature/privatekey.go:PublicKey", "domain/cryptography/keys/signature/publickey.go:Equals"]}
{"id": "C124", "title": "The texts of public keys", "statement": "ToPublicKey accepts exactly the hexadecimal forms of 32 bytes which stand for a point, that is whose y is that of a point of the curve, and gives this point; anything else is an error, never a panic; the text of a public key gives it back. A key should have one text and should belong to somebody. The code violates this: a point whose y is below 19 has a second text with y plus the prime, and a point with x = 0 has texts with both signs; these are all texts; the neutral point has four. (0,-1), which is no multiple of the base point, is accepted.", "quantifier": "all texts, all points", "why_tests_cant": "2^255 points, hostile inputs", "anchors": ["domain/cryptography/keys/signature/publickey_adapter.go:ToPublicKey", "domain/cryptography/keys/signature/helper.go:fromStringToPoint", "vendor/go.dedis.ch/kyber/v3/group/edwards25519/ge.go:FromBytes", "vendor/go.dedis.ch/kyber/v3/group/edwards25519/point.go:UnmarshalBinary"]}
{"id": "C125", "title": "Keys and signatures on the real curve", "statement": "With the coordinates, scalars and texts of the library, and any hash, Sign, RingSign, PublicKey, Verify, String and the adapters give exactly what they give in the group of Ed25519. So a private key up to the limit of C117 signs every message (if two challenges are not zero), the signature tells its public key and is read back from its text; a ring signature of a member of a ring of points verifies, before and after printing, and others get an error; a private key above the limit signs for another public key. A text should always be a signature or never. The code violates this: for a signature with the point (0,-1) and response zero, it depends on the parity of a product which depends on the message that Verify draws at random.", "quantifier": "all hashes, keys, messages, rings of points, texts", "why_tests_cant": "all keys and messages, hostile inputs", "anchors": ["domain/cryptography/keys/signature/privatekey.go:Sign", "domain/cryptography/keys/signature/privatekey.go:RingSign", "domain/cryptography/keys/signature/signature.go:PublicKey", "domain/cryptography/keys/signature/signature.go:Verify", "domain/cryptography/keys/signature/ringsignature.go:Verify", "domain/cryptography/keys/signature/adapter.go:ToSignature", "domain/cryptography/keys/signature/ringsignature_adapter.go:ToSignature"]}
{"id": "C126", "title": "The field in machine words never overflows", "statement": "The field arithmetic of the library, in ten 32-bit limbs with 64-bit products, gives exactly the results of the integers modulo 2^255-19: products and squares of factors up to three times as large as reduced elements are reduced again, sums and differences are exact, inversion inverts every element but zero, reading takes the low 255 bits of any bytes, writing gives the 32 bytes of the residue whatever limbs it had, the tests for parity and zero are those of the residue. No 32-bit and no 64-bit number wraps around on the way. With factors four times as large a product is wrong.", "quantifier": "all limbs within the bounds, all byte strings", "why_tests_cant": "carries and overflows which almost never occur", "anchors": ["vendor/go.dedis.ch/kyber/v3/group/edwards25519/fe.go:feMul", "vendor/go.dedis.ch/kyber/v3/group/edwards25519/fe.go:feSquare", "vendor/go.dedis.ch/kyber/v3/group/edwards25519/fe.go:feSquare2", "vendor/go.dedis.ch/kyber/v3/group/edwards25519/fe.go:feAdd", "vendor/go.dedis.ch/kyber/v3/group/edwards25519/fe.go:feSub", "vendor/go.dedis.ch/kyber/v3/group/edwards25519/fe.go:feCMove", "vendor/go.dedis.ch/kyber/v3/group/edwards25519/fe.go:feFromBytes", "vendor/go.dedis.ch/kyber/v3/group/edwards25519/fe.go:feToBytes", "vendor/go.dedis.ch/kyber/v3/group/edwards25519/fe.go:feInvert", "vendor/go.dedis.ch/kyber/v3/group/edwards25519/fe.go:fePow22523", "vendor/go.dedis.ch/kyber/v3/group/edwards25519/fe.go:feIsNegative", "vendor/go.dedis.ch/kyber/v3/group/edwards25519/fe.go:feIsNonZero"]}
{"id": "C127", "title": "Points in machine words are the points of Ed25519", "statement": "What the library computes with points in machine words is what the group of Ed25519 has: neutral point, base point, opposite, sum, difference, multiple, Equal, MarshalBinary and UnmarshalBinary, for all points and all limbs of them. Everything computed by any sequence of these operations, from points which were read from any bytes, stands for a point and has limbs within the bounds, so that no operation overflows, however long the sequence.", "quantifier": "all points, all limbs of them, all 32-byte scalars, all byte strings, all sequences of operations", "why_tests_cant": "unbounded histories, carries which almost never occur", "anchors": ["vendor/go.dedis.ch/kyber/v3/group/edwards25519/ge.go:Add", "vendor/go.dedis.ch/kyber/v3/group/edwards25519/ge.go:Sub", "vendor/go.dedis.ch/kyber/v3/group/edwards25519/ge.go:Double", "vendor/go.dedis.ch/kyber/v3/group/edwards25519/ge.go:ToBytes", "vendor/go.dedis.ch/kyber/v3/group/edwards25519/ge.go:FromBytes", "vendor/go.dedis.ch/kyber/v3/group/edwards25519/ge.go:geScalarMult", "vendor/go.dedis.ch/kyber/v3/group/edwards25519/ge.go:selectCached", "vendor/go.dedis.ch/kyber/v3/group/edwards25519/point.go:Add", "vendor/go.dedis.ch/kyber/v3/group/edwards25519/point.go:Sub", "vendor/go.dedis.ch/kyber/v3/group/edwards25519/point.go:Mul", "vendor/go.dedis.ch/kyber/v3/group/edwards25519/point.go:Equal"]}
{"id": "C128", "title": "Keys and signatures in machine words", "statement": "With the machine words of the library for points and scalars, and any hash, Sign, RingSign, PublicKey, Verify, String and the adapters give exactly what they give in the group of Ed25519: the same errors, the same booleans, the same texts and limbs of the same points. So what C117 to C125 say of keys and signatures holds of the code with the arithmetic which it has.", "quantifier": "all hashes, keys, messages, rings, signatures and texts", "why_tests_cant": "all keys and messages, carries which almost never occur", "anchors": ["domain/cryptography/keys/signature/privatekey.go:Sign", "domain/cryptography/keys/signature/privatekey.go:RingSign", "domain/cryptography/keys/signature/privatekey.go:PublicKey", "domain/cryptography/keys/signature/signature.go:PublicKey", "domain/cryptography/keys/signature/signature.go:Verify", "domain/cryptography/keys/signature/ringsignature.go:Verify", "domain/cryptography/keys/signature/adapter.go:ToSignature", "domain/cryptography/keys/signature/ringsignature_adapter.go:ToSignature", "vendor/go.dedis.ch/kyber/v3/group/edwards25519/fe.go:feMul", "vendor/go.dedis.ch/kyber/v3/group/edwards25519/scalar.go:scMulAdd"]}
{"id": "C129", "title": "Signatures which give the private key away", "statement": "Signatures should not tell anything about the private key. The code violates this, because the nonce depends on key and message only: from a plain signature and a ring signature of one message by one key, and from a ring signature of a message and a plain signature of this message followed by the number of another member of the ring, everybody computes the private key, with the operations of the library on public data, unless two challenges are the same, or one is zero.", "quantifier": "all hashes, private keys up to the limit of C117, messages, rings of points", "why_tests_cant": "hostile readers, all keys and messages", "anchors": ["domain/cryptography/keys/signature/helper.go:genK", "domain/cryptography/keys/signature/privatekey.go:Sign", "domain/cryptography/keys/signature/privatekey.go:RingSign", "domain/cryptography/keys/signature/ringsignature.go:Verify", "vendor/go.dedis.ch/kyber/v3/group/edwards25519/scalar.go:scMulAdd"]}
{"id": "C130", "title": "Ring signatures of others in machine words", "statement": "A ring signature should show that one of its members made it. The code violates this: from a ring signature which verifies everybody computes, with the operations of the library on public data, one which verifies for the same message, in which any member but the last is replaced by any key, and only the next member is changed, too; this needs that the new challenge is not zero, and holds for the ring signatures of all rings whose members are multiples of the base point.", "quantifier": "all hashes, ring signatures, messages, positions and keys", "why_tests_cant": "hostile readers, all keys and messages", "anchors": ["domain/cryptography/keys/signature/ringsignature.go:Verify", "domain/cryptography/keys/signature/privatekey.go:RingSign", "vendor/go.dedis.ch/kyber/v3/group/edwards25519/ge.go:geScalarMult", "vendor/go.dedis.ch/kyber/v3/group/edwards25519/scalar.go:scMulAdd"]}
{"id": "C131", "title": "Time of the shipped lexer", "statement": "The time of AST with the shipped grammar should be bounded by a polynomial in the length of the program. The code violates this: on every program which begins with log( and 2n opening brackets, whatever follows, AST answers, but only after it has gone through the channels at least 2^n times, for every order of the channels and every setting.", "quantifier": "all numbers of brackets, all continuations, settings and orders of the channels", "why_tests_cant": "running times on unbounded inputs, map iteration orders", "anchors": ["domain/languages/lexers/asts/tokens/adapter.go:findMatchesInChannels", "domain/languages/lexers/asts/tokens/adapter.go:containerToMatch", "domain/languages/lexers/asts/adapter.go:ToAST", "applications/languages/lexers/application.go:AST"]}
{"id": "C132", "title": "Hash trees and JSON", "statement": "The JSON of a block of hashes is read back, with any blanks around it, and different blocks have different JSON. A hash tree should be restored from its JSON. The code violates this: the JSON of every tree and of every compact tree is {}, so that nothing can restore even the number of leaves; reading it into a new tree gives no error, but the zero hash, and Height, Length, Compact and Order of the result panic.", "quantifier": "all blocks, trees, hash functions, blanks", "why_tests_cant": "the unit test compares {} with {} and passes; all sizes", "anchors": ["domain/hashtree/block.go:MarshalJSON", "domain/hashtree/block.go:UnmarshalJSON", "domain/hashtree/hashtree.go:Length", "domain/hashtree/compact.go:Head"]}
{"id": "C133", "title": "IsExact and Input of matches", "statement": "A token which is valid, and made without alternatives which must not match, is exact exactly if every token of which its text consists was found at least once. IsExact should not depend on the text behind the match, and be told apart from IsValid; Input should return the text which was read. The code violates this: the same recognised text is exact at the end of the text and not before another text, exact tokens need not be valid, as the numbers of repetitions are not looked at; Input of a rule is its definition in the grammar, whatever the text, that of a token is all the text which was left, and Input panics where the text ended too early and for alternatives in parentheses.", "quantifier": "all tokens, all runs of the matcher, texts and grammars", "why_tests_cant": "all tokens and all grammars", "anchors": ["domain/languages/lexers/asts/tokens/token.go:IsExact", "domain/languages/lexers/asts/tokens/tokenresult.go:IsExact", "domain/languages/lexers/asts/tokens/tokencontent.go:IsExact", "domain/languages/lexers/asts/tokens/blockmatch.go:Input", "domain/languages/lexers/asts/tokens/match.go:Input", "domain/languages/lexers/asts/tokens/skipmatch.go:Input", "domain/languages/lexers/asts/tokens/matches.go:Input"]}
