import Verif.Suite
import Verif.Base.Buf

/-!
# Messages of the dlog scheme

The protobuf messages of `bccsp/schemes/dlog/crypto/idemix.pb.go` that the code reads and writes, as
plain structures.  Pointers that can be nil are `Option`; `bytes` fields are byte lists, except where
the code distinguishes nil from empty.
-/

namespace Idemix.Dlog

/-- The `unknownFields` of an issuer public key and of its points (`idemix.pb.go`, `amcl.pb.go`): bytes of undeclared
fields met when the key was unmarshalled, written again when it is marshalled. Entry `i` of `hAttrs` belongs to base `i`;
missing entries are empty. -/
structure IpkUnknown where
  top : Bytes := []
  hSk : Bytes := []
  hRand : Bytes := []
  hAttrs : List Bytes := []
  w : Bytes := []
  barG1 : Bytes := []
  barG2 : Bytes := []
  deriving DecidableEq, Repr

/-- `IssuerPublicKey` (`bccsp/schemes/dlog/crypto/idemix.pb.go`, message of `idemix.proto`). Attribute
names are byte strings, because Go strings need not be valid UTF-8. The unknown fields are kept because they are hashed
(`issuerkey.go:226`); those of other messages are dropped. -/
structure IssuerPublicKey where
  attributeNames : List Bytes
  hSk : Option ECP
  hRand : Option ECP
  hAttrs : List (Option ECP)
  w : Option ECP2
  barG1 : Option ECP
  barG2 : Option ECP
  proofC : Bytes
  proofS : Bytes
  hash : Bytes
  unknown : IpkUnknown := {}
  deriving DecidableEq, Repr

/-- `IssuerKey`. -/
structure IssuerKey where
  isk : Bytes
  ipk : IssuerPublicKey
  deriving DecidableEq, Repr

/-- `CredRequest`. The nonce is `none` when the field is nil (`credrequest.go:102`). -/
structure CredRequest where
  nym : Option ECP
  issuerNonce : Option Bytes
  proofC : Bytes
  proofS : Bytes
  deriving DecidableEq, Repr

/-- `Credential`. Entries of `attrs` are never nil in the model. -/
structure Credential where
  a : Option ECP
  b : Option ECP
  e : Bytes
  s : Bytes
  attrs : List Bytes
  deriving DecidableEq, Repr

/-- `NonRevocationProof`. -/
structure NonRevocationProof where
  revocationAlg : Int
  proof : Bytes
  deriving DecidableEq, Repr

/-- `EIDNym` and `RHNym` (same shape). -/
structure AttrNym where
  nym : Option ECP
  proofS : Option Bytes
  deriving DecidableEq, Repr

/-- `Signature`. -/
structure Signature where
  aPrime : Option ECP
  aBar : Option ECP
  bPrime : Option ECP
  proofC : Bytes
  proofSSk : Bytes
  proofSE : Bytes
  proofSR2 : Bytes
  proofSR3 : Bytes
  proofSSPrime : Bytes
  proofSAttrs : List Bytes
  nonce : Bytes
  nym : Option ECP
  proofSRNym : Bytes
  revocationEpochPk : Option ECP2
  revocationPkSig : Bytes
  epoch : Int
  nonRevocationProof : Option NonRevocationProof
  eidNym : Option AttrNym
  rhNym : Option AttrNym
  deriving DecidableEq, Repr

/-- `NymSignature`. -/
structure NymSignature where
  proofC : Bytes
  proofSSk : Bytes
  proofSRNym : Bytes
  nonce : Bytes
  deriving DecidableEq, Repr

/-- `CredentialRevocationInformation`. -/
structure CRI where
  epoch : Int
  epochPk : Option ECP2
  epochPkSig : Bytes
  revocationAlg : Int
  revocationData : Bytes
  deriving DecidableEq, Repr

/-- `types.SignatureType` (`bccsp/types/idemixopts.go`). -/
inductive SigType where
  | standard
  | eidNym
  | eidNymRhNym
  | smartcard
  | smartcardNoNyms
  | unknown (n : Int)
  deriving DecidableEq, Repr

/-- `types.VerificationType` (`bccsp/types/idemixopts.go`). -/
inductive VerType where
  | basic
  | bestEffort
  | expectStandard
  | expectEidNym
  | expectEidNymRhNym
  | expectSmartcard
  | expectSmartcardNoNyms
  | unknown (n : Int)
  deriving DecidableEq, Repr

/-- `types.AuditVerificationType` (`bccsp/types/idemixopts.go:451-460`). -/
inductive AuditType where
  | expectSignature | expectEidNym | expectEidNymRhNym | unknown (n : Int)
  deriving DecidableEq, Repr

/-- `types.AttrNymAuditData`. -/
structure AuditData (S : Suite) where
  nym : Option S.G1
  rand : S.F
  attr : S.F

/-- `types.IdemixSignerMetadata`. -/
structure SignerMetadata (S : Suite) where
  eidNymAuditData : Option (AuditData S)
  rhNymAuditData : Option (AuditData S)
  eidNym : Bytes
  rhNym : Bytes

/-- `"sign"` (`signature.go:20`). -/
def signLabel : Bytes := [0x73, 0x69, 0x67, 0x6e]
/-- `"signWithEidNym"` (`signature.go:21`). -/
def signWithEidNymLabel : Bytes :=
  [0x73, 0x69, 0x67, 0x6e, 0x57, 0x69, 0x74, 0x68, 0x45, 0x69, 0x64, 0x4e, 0x79, 0x6d]
/-- `"signWithEidNymRhNym"` (`signature.go:22`). -/
def signWithEidNymRhNymLabel : Bytes :=
  [0x73, 0x69, 0x67, 0x6e, 0x57, 0x69, 0x74, 0x68, 0x45, 0x69, 0x64, 0x4e, 0x79, 0x6d, 0x52, 0x68,
   0x4e, 0x79, 0x6d]
/-- `"credRequest"` (`credrequest.go:17`). -/
def credRequestLabel : Bytes :=
  [0x63, 0x72, 0x65, 0x64, 0x52, 0x65, 0x71, 0x75, 0x65, 0x73, 0x74]

end Idemix.Dlog
