import Verif.Props.Hash
import Verif.Props.HashTree
import Verif.Props.Cipher
import Verif.Props.Signature
import Verif.Props.SignatureMore
import Verif.Props.Ledger
import Verif.Props.LedgerHistory
import Verif.Props.Peers
import Verif.Props.Cardinality
import Verif.Props.Patterns
import Verif.Props.Lexer
import Verif.Props.Ast
import Verif.Props.LexerMore
import Verif.Props.LexerChannels
import Verif.Props.GrammarRec
import Verif.Props.Roots
import Verif.Props.Containers
import Verif.Props.Grammar
import Verif.Props.Parsers
import Verif.Props.Suites
import Verif.Props.App
import Verif.Props.AstMore
import Verif.Props.BaseAst
import Verif.Props.BaseParser
import Verif.Props.BaseMeaning
import Verif.Props.BaseConfusion
import Verif.Props.BaseSource
import Verif.Props.BaseClear
import Verif.Props.TextTokens
import Verif.Props.TextRules
import Verif.Props.TextPatterns
import Verif.Props.BaseText
import Verif.Props.Derivation
import Verif.Props.LexerOrder
import Verif.Props.BaseApp
import Verif.Props.LexerEnds
import Verif.Props.LexerTotal
import Verif.Props.LexerAnswers
import Verif.Props.BaseTotal
import Verif.Props.TextRefs
import Verif.Props.RootTotal
import Verif.Props.BaseRuns
import Verif.Props.BaseWritten
import Verif.Props.BaseTexts
import Verif.Props.Rsa
import Verif.Props.LexerRead
import Verif.Props.LexerNot
import Verif.Props.RingAmbiguity
import Verif.Props.Scalars
import Verif.Props.SignatureBytes
import Verif.Props.RingMembers
import Verif.Props.Memory
import Verif.Props.CipherBytes
import Verif.Props.Edwards
import Verif.Props.SignatureEd
import Verif.Props.FieldLimbs
import Verif.Props.EdwardsLimbs
import Verif.Props.SignatureLimbs
import Verif.Props.SignatureAttacks
import Verif.Props.Work
import Verif.Props.HashTreeJson
import Verif.Props.MemoryLists
import Verif.Props.Observers
