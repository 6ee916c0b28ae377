import Verif.Base.Codec
import Verif.Dlog.Types

/-!
# Keys, options and the interfaces of the schemes

Model of `bccsp/types/idemix.go`, `bccsp/types/idemixopts.go` and of the key types of `bccsp/handlers`.

A scheme (dlog or aries) enters the provider as a `Backend`. Every algorithm that samples takes its randomness as
an argument. Typed nil pointers inside keys and options are not represented, except the absent ("nil interface")
keys in options, which are `none`.
-/

namespace Idemix.Provider

variable {S : Suite}

/-- What the handlers use of `crypto/ecdsa`, `crypto/x509` and `encoding/pem`. -/
structure EcKeys (dsa : Ecdsa) where
  /-- `ecdsa.GenerateKey`. -/
  gen : dsa.Rnd → Res dsa.Sk
  /-- `D.Bytes()`: the minimal big-endian representation. -/
  dBytes : dsa.Sk → Bytes
  /-- `D = SetBytes(raw)` and the point computed from it (`aries/revocation.go:37-44`,
  `dlog/crypto/revocation_authority.go`). -/
  ofD : Bytes → dsa.Sk
  ofD_dBytes : ∀ k, ofD (dBytes k) = k
  /-- `elliptic.Marshal`. -/
  point : dsa.Pk → Bytes
  /-- `x509.MarshalPKIXPublicKey`. -/
  pkix : dsa.Pk → Res Bytes
  /-- `x509.ParsePKIXPublicKey`; `none` for a key that is not an ECDSA key. -/
  parsePkix : Bytes → Res (Option dsa.Pk)
  parse_pkix : ∀ k b, pkix k = .ok b → parsePkix b = .ok (some k)
  pkix_np : ∀ k, pkix k ≠ .panic
  parsePkix_np : ∀ b, parsePkix b ≠ .panic
  /-- The bytes of the first block `pem.Decode` finds. -/
  pemDecode : Bytes → Option Bytes
  /-- `pem.EncodeToMemory`. -/
  pemEncode : Bytes → Bytes
  decode_encode : ∀ b, pemDecode (pemEncode b) = some b
  encode_ne : ∀ b, pemEncode b ≠ []
  /-- Without `-----BEGIN` there is no block. -/
  decode_none : ∀ b, ¬ ([45, 45, 45, 45, 45, 66, 69, 71, 73, 78] : Bytes) <:+: b → pemDecode b = none

/-- `CredRequest` (`idemix.go:72-79`). -/
structure RequestScheme (S : Suite) (IPK Rnd : Type) where
  sign : S.F → IPK → Bytes → Rnd → Res Bytes
  verify : Bytes → IPK → Bytes → Res Unit

/-- `BlindCredRequest` (`idemix.go:84-93`); `Unblind` is not reached through the provider. -/
structure BlindScheme (S : Suite) (IPK Rnd : Type) where
  blind : S.F → IPK → Bytes → Rnd → Res (Bytes × Bytes)
  blindVerify : Bytes → IPK → Bytes → Res Unit

/-- `SmartcardNymSignatureScheme` (`idemix.go:191-197`). -/
structure CardScheme (S : Suite) (IPK Card Rnd : Type) where
  sign : Card → IPK → Bytes → Rnd → Res (Bytes × S.G1 × S.F)
  verify : IPK → S.G1 → Bytes → Bytes → Res Unit

/-- A scheme, as a provider is assembled from it: the interfaces of `idemix.go:14-197`. `none` for the three
optional interfaces is a nil handler or a nil interface in `New` and `NewAries`. -/
structure Backend (S : Suite) where
  /-- Values of the interface `IssuerPublicKey`. -/
  IPK : Type
  /-- Values of the interface `IssuerSecretKey`. -/
  ISK : Type
  /-- Values supplied as smartcard. -/
  Card : Type
  Rnd : Type
  Bases : Type
  T : Translator S
  dsa : Ecdsa
  ec : EcKeys dsa
  -- `IssuerPublicKey` (14-23), `IssuerSecretKey` (26-33)
  ipkBytes : IPK → Res Bytes
  ipkHash : IPK → Res Bytes
  iskBytes : ISK → Res Bytes
  iskPublic : ISK → Res IPK
  -- `Issuer` (36-51)
  newIssuerKey : List Bytes → Rnd → Res ISK
  issuerKeyFromBytes : Bytes → List Bytes → Res ISK
  issuerPkFromBytes : Bytes → List Bytes → Res IPK
  bases : IPK → Int → Int → Int → Int → Res Bases
  -- `User` (54-68)
  newUserKey : Rnd → Res S.F
  userKeyFromBytes : Bytes → Res S.F
  makeNym : S.F → IPK → Rnd → Res (S.G1 × S.F)
  nymFromBytes : Bytes → Res (S.G1 × S.F)
  publicNymFromBytes : Bytes → Res S.G1
  -- `CredRequest` (72-79), `BlindCredRequest` (84-93)
  request : Option (RequestScheme S IPK Rnd)
  blind : Option (BlindScheme S IPK Rnd)
  -- `Credential` (97-107)
  credSign : ISK → Bytes → List IdemixAttribute → Rnd → Res Bytes
  credVerify : S.F → IPK → Bytes → List IdemixAttribute → Res Unit
  -- `Revocation` (111-131)
  newRevKey : Rnd → Res dsa.Sk
  revKeyFromBytes : Bytes → Res dsa.Sk
  revSign : dsa.Sk → List Bytes → Int → Int → Rnd → Res Bytes
  revVerify : dsa.Pk → Bytes → Int → Int → Res Unit
  -- `SignatureScheme` (135-177)
  sign : Bytes → S.F → S.G1 → S.F → IPK → List IdemixAttribute → Bytes → Int → Int → Bytes → Dlog.SigType →
    Option (Dlog.SignerMetadata S) → Rnd → Res (Bytes × Option (Dlog.SignerMetadata S))
  verify : IPK → Bytes → Bytes → List IdemixAttribute → Int → Int → Int → Option dsa.Pk → Int → Dlog.VerType →
    Option (Dlog.SignerMetadata S) → Res Unit
  auditEid : IPK → Int → Int → Bytes → Bytes → Option S.F → Dlog.AuditType → Res Unit
  auditRh : IPK → Int → Int → Bytes → Bytes → Option S.F → Dlog.AuditType → Res Unit
  -- `NymSignatureScheme` (181-187)
  nymSign : S.F → S.G1 → S.F → IPK → Bytes → Rnd → Res Bytes
  nymVerify : IPK → S.G1 → Bytes → Bytes → Int → Res Unit
  card : Option (CardScheme S IPK Card Rnd)

variable (B : Backend S)

/-- A key held by a caller (`handlers/*.go`): the seven kinds of the library, or a key of any other Go type. The
translator carried by pseudonym keys is the provider's. -/
inductive Key where
  /-- `UserSecretKey` (`user.go:17-22`). -/
  | userSk (sk : S.F) (exportable : Bool)
  /-- `NymSecretKey` (`nym.go:18-29`). -/
  | nymSk (ski : Bytes) (sk : S.F) (pk : S.G1) (exportable : Bool)
  /-- `nymPublicKey` (`nym.go:75-82`). -/
  | nymPk (pk : S.G1)
  /-- `issuerSecretKey` (`issuer.go:16-21`). -/
  | issuerSk (sk : B.ISK) (exportable : Bool)
  /-- `issuerPublicKey` (`issuer.go:58-60`). -/
  | issuerPk (pk : B.IPK)
  /-- `revocationSecretKey` (`revocation.go:23-28`). -/
  | revSk (sk : B.dsa.Sk) (exportable : Bool)
  /-- `revocationPublicKey` (`revocation.go:74-76`). -/
  | revPk (pk : B.dsa.Pk)
  | foreign (n : Nat)

/-- `IdemixSignerOpts` (`idemixopts.go:264-303`). -/
structure SigOpts where
  nym : Option (Key B)
  issuerPK : Option (Key B)
  credential : Bytes
  attributes : List IdemixAttribute
  rhIndex : Int
  eidIndex : Int
  skIndex : Int
  cri : Bytes
  epoch : Int
  revocationPK : Option (Key B)
  sigType : Dlog.SigType
  metadata : Option (Dlog.SignerMetadata S)
  verType : Dlog.VerType

/-- `IdemixNymSignerOpts` (`idemixopts.go:332-363`). -/
structure NymSigOpts where
  nym : Option (Key B)
  issuerPK : Option (Key B)
  isSmartcard : Bool
  smartcard : Option B.Card
  nymEid : Option S.G1
  nymG1 : Option S.G1
  rNym : Option S.F
  skIndex : Int

/-- `bccsp.SignerOpts`: the option types of the library (`idemixopts.go:158-412`), or any other. -/
inductive SignerOpts where
  | sig (o : SigOpts B)
  | nymSig (o : NymSigOpts B)
  /-- `IdemixCredentialRequestSignerOpts`. -/
  | credReq (issuerPK : Option (Key B)) (nonce : Bytes)
  /-- `IdemixBlindCredentialRequestSignerOpts`. -/
  | blindReq (issuerPK : Option (Key B)) (nonce : Bytes) (blinding : Bytes)
  /-- `IdemixCredentialSignerOpts`. -/
  | cred (attributes : List IdemixAttribute) (issuerPK : Option (Key B))
  /-- `IdemixCRISignerOpts`. -/
  | cri (epoch : Int) (alg : Int) (unrevoked : List Bytes)
  /-- `EidNymAuditOpts`. -/
  | eidAudit (type : Dlog.AuditType) (index : Int) (value : Bytes) (r : Option S.F) (skIndex : Int)
  /-- `RhNymAuditOpts`. -/
  | rhAudit (type : Dlog.AuditType) (index : Int) (value : Bytes) (r : Option S.F) (skIndex : Int)
  | foreign (n : Nat)

/-- `bccsp.KeyGenOpts`. -/
inductive GenOpts where
  /-- `IdemixIssuerKeyGenOpts` (24-35). -/
  | issuer (temporary : Bool) (names : List Bytes)
  /-- `IdemixUserSecretKeyGenOpts` (91-99). -/
  | user (temporary : Bool)
  /-- `IdemixRevocationKeyGenOpts` (366-375). -/
  | revocation (temporary : Bool)
  | foreign (n : Nat) (temporary : Bool)

/-- `bccsp.KeyDerivOpts`. -/
inductive DerivOpts where
  /-- `IdemixNymKeyDerivationOpts` (114-131). -/
  | nym (temporary : Bool) (issuerPK : Option (Key B))
  | foreign (n : Nat) (temporary : Bool)

/-- `bccsp.KeyImportOpts`. -/
inductive ImportOpts where
  /-- `IdemixIssuerPublicKeyImportOpts` (55-75): names, requested type of commitment bases (0 is `None`), and
  indices of the revocation handle, the enrolment id and the secret key. -/
  | issuerPk (temporary : Bool) (names : List Bytes) (basesRequest rh eid sk : Int)
  /-- `IdemixIssuerKeyImportOpts` (78-88). -/
  | issuerSk (temporary : Bool) (names : List Bytes)
  /-- `IdemixUserSecretKeyImportOpts` (102-110). -/
  | userSk (temporary : Bool)
  /-- `IdemixNymPublicKeyImportOpts` (134-143). -/
  | nymPk (temporary : Bool)
  /-- `IdemixNymKeyImportOpts` (146-155). -/
  | nymSk (temporary : Bool)
  /-- `IdemixRevocationPublicKeyImportOpts` (378-386). -/
  | revPk (temporary : Bool)
  /-- `IdemixRevocationKeyImportOpts` (389-397). -/
  | revSk (temporary : Bool)
  | foreign (n : Nat) (temporary : Bool)

/-- A Go type that keys or options can have (`reflect.TypeOf`). -/
inductive GoType where
  | userSk | nymSk | nymPk | issuerSk | issuerPk | revSk | revPk
  | genIssuer | genUser | genRevocation
  | impIssuerPk | impIssuerSk | impUserSk | impNymPk | impNymSk | impRevPk | impRevSk
  | foreignKey (n : Nat) | foreignGen (n : Nat) | foreignImport (n : Nat)
  deriving DecidableEq, Repr

variable {B}

/-- `reflect.TypeOf` of a key. -/
def Key.type : Key B → GoType
  | .userSk .. => .userSk
  | .nymSk .. => .nymSk
  | .nymPk .. => .nymPk
  | .issuerSk .. => .issuerSk
  | .issuerPk .. => .issuerPk
  | .revSk .. => .revSk
  | .revPk .. => .revPk
  | .foreign n => .foreignKey n

/-- `reflect.TypeOf` of generation options. -/
def GenOpts.type : GenOpts → GoType
  | .issuer .. => .genIssuer
  | .user .. => .genUser
  | .revocation .. => .genRevocation
  | .foreign n _ => .foreignGen n

/-- `reflect.TypeOf` of import options. -/
def ImportOpts.type : ImportOpts → GoType
  | .issuerPk .. => .impIssuerPk
  | .issuerSk .. => .impIssuerSk
  | .userSk .. => .impUserSk
  | .nymPk .. => .impNymPk
  | .nymSk .. => .impNymSk
  | .revPk .. => .impRevPk
  | .revSk .. => .impRevSk
  | .foreign n _ => .foreignImport n

/-- `Ephemeral()` of generation options. -/
def GenOpts.ephemeral : GenOpts → Bool
  | .issuer t _ | .user t | .revocation t | .foreign _ t => t

/-- `Ephemeral()` of derivation options. -/
def DerivOpts.ephemeral : DerivOpts B → Bool
  | .nym t _ | .foreign _ t => t

/-- `Ephemeral()` of import options. -/
def ImportOpts.ephemeral : ImportOpts → Bool
  | .issuerPk t .. | .issuerSk t _ | .userSk t | .nymPk t | .nymSk t | .revPk t | .revSk t | .foreign _ t => t

/-! ## Methods of keys -/

/-- `NewNymSecretKey` (`nym.go:40-44`) with `computeSKI` (31-38). -/
def newNymSecretKey (B : Backend S) (sk : S.F) (pk : S.G1) (exportable : Bool) : Key B :=
  .nymSk (B.dsa.sha256 (S.zrBytes sk)) sk pk exportable

/-- `Key.PublicKey` (`user.go:52-54`, `nym.go:69-73`, `106-108`, `issuer.go:52-54`, `82-84`,
`revocation.go:70-72`, `119-121`). Methods of foreign keys are not modelled. -/
def Key.publicKey : Key B → Res (Key B)
  | .userSk _ _ => .err "cannot call this method on a symmetric key"
  | .nymSk _ _ pk _ => .ok (.nymPk pk)
  | .nymPk pk => .ok (.nymPk pk)
  | .issuerSk sk _ => do
    let pk ← B.iskPublic sk
    pure (.issuerPk pk)
  | .issuerPk pk => .ok (.issuerPk pk)
  | .revSk sk _ => .ok (.revPk (B.dsa.pub sk))
  | .revPk pk => .ok (.revPk pk)
  | .foreign _ => .err "foreign key"

/-- `Key.Bytes` (`user.go:28-34`, `nym.go:46-52`, `88-92`, `issuer.go:27-33`, `66-68`, `revocation.go:36-42`,
`84-91`). -/
def Key.bytes : Key B → Res Bytes
  | .userSk sk e => if e then .ok (S.zrBytes sk) else .err "not exportable"
  | .nymSk _ sk _ e => if e then .ok (S.zrBytes sk) else .err "not supported"
  | .nymPk pk => .ok ((B.T.g1ToProto pk).x ++ (B.T.g1ToProto pk).y)
  | .issuerSk sk e => if e then B.iskBytes sk else .err "not exportable"
  | .issuerPk pk => B.ipkBytes pk
  | .revSk sk e => if e then .ok (B.ec.dBytes sk) else .err "not exportable"
  | .revPk pk => B.ec.pkix pk
  | .foreign _ => .err "foreign key"

/-- `Key.SKI` (`user.go:36-42`, `nym.go:54-59`, `94-96`, `issuer.go:35-42`, `70-72`, `revocation.go:45-54`,
`94-103`). -/
def Key.ski : Key B → Res Bytes
  | .userSk sk _ => .ok (B.dsa.sha256 (S.zrBytes sk))
  | .nymSk ski _ _ _ => .ok ski
  | .nymPk pk => .ok (B.dsa.sha256 (S.g1Bytes pk))
  | .issuerSk sk _ => do
    let pk ← B.iskPublic sk
    B.ipkHash pk
  | .issuerPk pk => B.ipkHash pk
  | .revSk sk _ => .ok (B.dsa.sha256 (B.ec.point (B.dsa.pub sk)))
  | .revPk pk => .ok (B.dsa.sha256 (B.ec.point pk))
  | .foreign _ => .err "foreign key"

/-- `Key.Private` (`user.go:48-50`, `nym.go:65-67`, `issuer.go:48-50`, `revocation.go:62-64`, …). -/
def Key.private : Key B → Bool
  | .userSk .. | .nymSk .. | .issuerSk .. | .revSk .. => true
  | _ => false

end Idemix.Provider
