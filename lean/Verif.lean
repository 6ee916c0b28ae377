import Verif.Dlog.PropsIssue
import Verif.Dlog.PropsCred
import Verif.Dlog.PropsNym
import Verif.Dlog.PropsSig
import Verif.Dlog.PropsSign
import Verif.Dlog.PropsVerify
import Verif.Dlog.PropsAnon
import Verif.Dlog.PropsMeta
import Verif.Dlog.Translator
import Verif.Dlog.PropsBridge
import Verif.Dlog.PropsBridge2
import Verif.Bbs.PropsCodec
import Verif.Bbs.PropsSig
import Verif.Bbs.PropsProof
import Verif.Bbs.Cache
import Verif.Aries.PropsIssue
import Verif.Aries.PropsSign
import Verif.Aries.SignLemmas
import Verif.Aries.SignProve
import Verif.Aries.SignVerify
import Verif.Aries.PropsVerify
import Verif.Aries.PropsExtract
import Verif.Aries.PropsMeta
import Verif.Aries.PropsCard
import Verif.WeakBB
import Verif.Msp.Roles
import Verif.Aries.Signer
import Verif.Aries.Smartcard
import Verif.Base.Text
import Verif.Provider.Types
import Verif.Provider.Handlers
import Verif.Provider.Csp
import Verif.Provider.PropsDispatch
import Verif.Base.Json
import Verif.Base.JsonLemmas
import Verif.Base.Utf8
import Verif.Base.JsonGrammar
import Verif.Base.ProtoTorn
import Verif.Provider.Entry
import Verif.Provider.Json
import Verif.Provider.KeyStore
import Verif.Provider.PropsStore
import Verif.Provider.Instances
import Verif.Provider.PropsKeys
import Verif.Aries.PropsPanic
import Verif.Msp.Wire
import Verif.Msp.Model
import Verif.Msp.PropsIdentity
import Verif.Msp.PropsNym
import Verif.Msp.PropsPrincipal
import Verif.Msp.PropsPolicy
import Verif.Msp.PropsPanic
import Verif.Msp.PropsSetup
import Verif.Tools.Gen
import Verif.Tools.PropsGen
import Verif.Tools.PropsGenAries
import Verif.Tools.PropsCli
import Verif.Tools.Examples
import Verif.Aries.PropsTypes
import Verif.Bbs.PropsAnon
import Verif.Aries.PropsAnon
import Verif.Aries.PropsBinding
import Verif.Provider.PropsVerify
import Verif.Msp.PropsAgree
import Verif.Tools.PropsPeers
import Verif.Provider.PropsLife
import Verif.Provider.LifeExamples
import Verif.Provider.Concurrent
import Verif.Provider.PropsConcurrent
import Verif.Provider.PropsFiles
import Verif.Provider.PropsRewrite
import Verif.Provider.RewriteExamples
import Verif.Provider.Examples
import Verif.Dlog.PropsKinds
import Verif.Aries.PropsKinds
import Verif.Dlog.PropsHide
import Verif.Aries.PropsHide
import Verif.Aries.PropsBlind
import Verif.Msp.PropsKnowledge
import Verif.Mem.Prog
import Verif.Mem.Logic
import Verif.Mem.Interleave
import Verif.Mem.Ops
import Verif.Mem.Bbs
import Verif.Mem.BbsRefine
import Verif.Mem.BbsProofRefine
import Verif.Mem.BbsDeriveRefine
import Verif.Mem.BbsVerifyRefine
import Verif.Mem.Calls
import Verif.Mem.Props
import Verif.Mem.Dlog
import Verif.Mem.Tactic
import Verif.Mem.DlogRefine
import Verif.Mem.DlogSignRefine
import Verif.Mem.DlogVerifyRefine
import Verif.Mem.DlogCalls
import Verif.Mem.DlogProps
import Verif.Mem.Aries
import Verif.Mem.AriesRefine
import Verif.Mem.AriesSignRefine
import Verif.Mem.AriesVerifyRefine
import Verif.Mem.AriesCalls
import Verif.Mem.AriesProps
import Verif.Tools.PropsAnon
import Verif.Tools.ExamplesAnon
import Verif.Tools.PropsTorn
import Verif.Tools.ExamplesTorn
import Verif.Msp.PropsReports
import Verif.Msp.PropsWellFormed
import Verif.Tools.PropsCertified
import Verif.Tools.ExamplesReports
import Verif.Forge.Props
import Verif.Forge.Aries
import Verif.Forge.Bbs
import Verif.Fork.Count
import Verif.Fork.Game
import Verif.Fork.Dlog
import Verif.Fork.Adaptive
import Verif.Fork.Props
import Verif.Fork.Owner
import Verif.Fork.PropsOwner
import Verif.Fork.Visit
import Verif.Fork.Member
import Verif.Fork.PropsMember
import Verif.Fork.Unlink
import Verif.Fork.PropsUnlink
import Verif.Aries.PropsEscalate
import Verif.Tools.PropsEscalate
import Verif.Base.ProtoRaw
import Verif.Base.ProtoFields
import Verif.Base.ProtoSchema
import Verif.Dlog.PropsExtra
import Verif.Aries.PropsExtra
import Verif.Msp.PropsExtra
import Verif.Bbs.PropsWeak
import Verif.Fork.Single
import Verif.Fork.PropsSingle
import Verif.Fork.BbsProof
import Verif.Fork.PropsAries
import Verif.Fork.AriesSign
import Verif.Dlog.PropsMalformed
import Verif.Aries.PropsMalformed
import Verif.Msp.PropsMalformed
import Verif.Tools.PropsDirectory
import Verif.Dlog.PropsAlter
import Verif.Aries.PropsAlter
import Verif.Aries.PropsAlterComm
import Verif.Msp.PropsAttribution
import Verif.Dlog.PropsAudit
import Verif.Aries.PropsAudit
import Verif.Dlog.PropsLink
import Verif.Aries.PropsLink
import Verif.Dlog.PropsSameId
import Verif.Aries.PropsSameId
