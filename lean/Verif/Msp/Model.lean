import Verif.Msp.Wire
import Verif.Msp.Roles
import Verif.Base.Text
import Verif.Provider.PropsDispatch
import Verif.Provider.KeyStore
import Verif.Provider.Instances

/-!
# The MSP

Model of `msp/idemixmsp.go`. MSP objects are shared by reference: identities point to the MSP that made them. The
model has a heap of MSPs, and references into it. The MSP uses the cryptography only through the provider
(`Idemix.Provider`). Logging is not modelled.
-/

namespace Idemix.Msp

open Provider (Backend Key SigOpts NymSigOpts SignerOpts ImportOpts DerivOpts Raw)

/-- The curves of `curveAndTranslator` (`idemixmsp.go:87-124`). -/
inductive CurveId where
  | fp256bnAmcl | bn254 | fp256bnAmclMiracl | bls12_377Gurvy | bls12_381Gurvy | bls12_381 | bls12_381Bbs
  | bls12_381BbsGurvy
  deriving DecidableEq, Repr

/-- Which provider an MSP has made: the scheme (`NewAries` or `New`, `idemixmsp.go:290-294`) and the curve. -/
structure CspId where
  aries : Bool
  curve : CurveId
  deriving DecidableEq, Repr

/-- The schemes on all curves. `typed` tells which errors of the import of an issuer public key are of the type
`IdemixIssuerPublicKeyImporterError` (`errors.As`, `idemixmsp.go:312-313`), and their category. -/
structure World where
  S : CspId → Suite
  B : (p : CspId) → Backend (S p)
  typed : CspId → String → Option Dlog.ImportError

/-- The curves with the dlog scheme and the BBS+ library on each of them. -/
structure Platform where
  S : CurveId → Suite
  env : (c : CurveId) → Dlog.Env (S c)
  lib : (c : CurveId) → Bbs.Lib (S c)
  ec : (c : CurveId) → Provider.EcKeys (env c).dsa

/-- Category of an error of the dlog scheme (`dlog/bridge/issuer.go:89-145`). -/
def importError (m : String) : Option Dlog.ImportError :=
  [Dlog.ImportError.unmarshalling, .hash, .validation, .numAttributes, .attributeName].find? fun e => e.msg = m

/-- The two schemes of the repository. The aries scheme never makes an `IdemixIssuerPublicKeyImporterError`
(`schemes/aries/issuer.go`). -/
def Platform.world (P : Platform) : World where
  S p := P.S p.curve
  B p := match p.aries with
    | true => Provider.ariesBackend (P.lib p.curve) (P.env p.curve).T (P.env p.curve).dsa (P.ec p.curve)
    | false => Provider.dlogBackend (P.env p.curve) (P.ec p.curve)
  typed p m := match p.aries with
    | true => none
    | false => importError m

variable (W : World)

/-- A `bccsp.Key`: it belongs to the provider that made it. -/
structure AnyKey where
  csp : CspId
  key : Key (W.B csp)

/-- A key as another provider sees it. Keys of other providers are treated as keys of a foreign type. (In Go they
may have the same type, and the scheme fails on their contents.) -/
def AnyKey.under {W : World} (k : AnyKey W) (p : CspId) : Key (W.B p) :=
  if h : k.csp = p then h ▸ k.key else .foreign 0

/-- A reference to an MSP. -/
abbrev Ref := Nat

/-- `Idemixidentity` with `IdentityIdentifier` (`idemixmsp.go:729-739`). `Role` and `OU` are not nil: every function
that makes an identity sets them. -/
structure Identity where
  nym : AnyKey W
  msp : Ref
  idMsp : Bytes
  idBytes : Bytes
  role : MSPRole
  ou : OrganizationUnit
  proof : Bytes

/-- `IdemixSigningIdentity` (`idemixmsp.go:858-864`). -/
structure SigningIdentity where
  identity : Identity W
  cred : Bytes
  userKey : AnyKey W
  nymKey : AnyKey W
  enrollmentId : Bytes

/-- The dynamic value of an `Identity` interface: the two types of this package, or anything else, including nil. -/
inductive AnyIdentity where
  | identity (i : Identity W)
  | signing (s : SigningIdentity W)
  | other

/-- `Idemixmsp` (`idemixmsp.go:135-146`), without the logger. -/
structure IMsp where
  csp : Option CspId
  version : Int
  ipk : Option (AnyKey W)
  signer : Option (SigningIdentity W)
  name : Bytes
  revocationPK : Option (AnyKey W)
  epoch : Int
  aries : Bool
  exportable : Bool

/-- The MSPs of a process. -/
abbrev Heap := Ref → IMsp W

variable {W}

/-- `NewIdemixMspWithLogger` (`idemixmsp.go:209-217`) and `NewIdemixMspAriesWithLogger` (230-238). -/
def newMsp (W : World) (aries : Bool) (version : Int) : IMsp W :=
  ⟨none, version, none, none, [], none, 0, aries, true⟩

/-- The provider held in `msp.csp`; calling a method of the nil interface panics. -/
def IMsp.provider (m : IMsp W) : Res CspId := Res.deref m.csp

/-- The registrations of a provider made by the MSP (`idemixmsp.go:290-294`). -/
def IMsp.registry (m : IMsp W) (p : CspId) : Provider.Registry (W.B p) := Provider.provider (W.B p) m.exportable

/-- `KeyImport` with the dummy key store (`idemixmsp.go:291-293`). -/
def IMsp.import (m : IMsp W) (p : CspId) (raw : Bytes) (o : ImportOpts) : Res (Key (W.B p)) :=
  (Provider.keyImport (Provider.dummyStore (W.B p)) (m.registry p) () (some (.bytes raw)) (some o)).2

/-! ## Set-up -/

/-- `curveAndTranslator` (`idemixmsp.go:74-124`). -/
def curveOf (s : Bytes) : Option CurveId :=
  if s = ascii "FP256BN_AMCL" then some .fp256bnAmcl
  else if s = ascii "BN254" then some .bn254
  else if s = ascii "FP256BN_AMCL_MIRACL" then some .fp256bnAmclMiracl
  else if s = ascii "BLS12_377_GURVY" then some .bls12_377Gurvy
  else if s = ascii "BLS12_381_GURVY" then some .bls12_381Gurvy
  else if s = ascii "BLS12_381" then some .bls12_381
  else if s = ascii "BLS12_381_BBS" then some .bls12_381Bbs
  else if s = ascii "BLS12_381_BBS_GURVY" then some .bls12_381BbsGurvy
  else none

/-- The choice of the curve (`idemixmsp.go:267-287`). -/
def chooseCurve (aries : Bool) (s : Bytes) : Res CurveId :=
  if aries then
    if s = [] ∨ s = ascii "BLS12_381_BBS" then Res.ofOption "unknown curve id" (curveOf (ascii "BLS12_381_BBS"))
    else if s = ascii "BLS12_381_BBS_GURVY" then Res.ofOption "unknown curve id" (curveOf s)
    else .err "setup error: aries MSP requires a BBS curve"
  else if s = [] then Res.ofOption "unknown curve id" (curveOf (ascii "FP256BN_AMCL"))
  else Res.ofOption "unknown curve id" (curveOf s)

/-- The names of the attributes (`idemixmsp.go:46-58`, 304-309). -/
def attributeNames : List Bytes :=
  [ascii "OU", ascii "Role", ascii "EnrollmentID", ascii "RevocationHandle"]

/-- The options for the issuer key (`idemixmsp.go:302-310`). -/
def ipkOpts : ImportOpts := .issuerPk true attributeNames 0 0 0 0

/-- Import of the issuer public key (`idemixmsp.go:299-331`). Errors of other types than
`IdemixIssuerPublicKeyImporterError` panic. The provider wraps errors of the handler (`impl.go:180`), so that
`errors.As` finds them. -/
def IMsp.importIpk (m : IMsp W) (p : CspId) (raw : Bytes) : Res (Key (W.B p)) :=
  match m.import p raw ipkOpts with
  | .ok k => .ok k
  | .panic => .panic
  | .err _ =>
    match Provider.issuerPkImport (W.B p) (.bytes raw) ipkOpts with
    | .err e =>
      match W.typed p e with
      | none => .panic
      | some .unmarshalling => .err "failed to unmarshal ipk from idemix msp config"
      | some .hash => .err "setting the hash of the issuer public key failed"
      | some .validation => .err "cannot setup idemix msp with invalid public key"
      | some .numAttributes => .err "issuer public key must have attributes OU, Role, EnrollmentId, and RevocationHandle"
      | some .attributeName => .err "issuer public key must have attributes OU, Role, EnrollmentId, and RevocationHandle"
    | _ => .panic

/-- A byte-slice method of a key that cannot fail in Go; the model's failures (foreign keys) give nothing. -/
def orEmpty : Res Bytes → Res Bytes
  | .ok b => .ok b
  | .err _ => .ok []
  | .panic => .panic

/-- `newIdemixIdentity` (`idemixmsp.go:745-763`). -/
def newIdentity (me : Ref) (name : Bytes) (nym : AnyKey W) (role : MSPRole) (ou : OrganizationUnit) (proof : Bytes) :
    Res (Identity W) :=
  match nym.key.bytes with
  | .ok raw => .ok ⟨nym, me, name, raw, role, ou, proof⟩
  | _ => .panic

/-- An attribute with a value. -/
def bytesAttr (b : Bytes) : IdemixAttribute := ⟨1, .bytes b⟩
/-- See `bytesAttr`. -/
def intAttr (i : Int) : IdemixAttribute := ⟨2, .int i⟩
/-- An attribute that is not disclosed. -/
def hiddenAttr : IdemixAttribute := ⟨0, .other⟩

/-- `getIdemixRoleFromMSPRole` (`roles.go:49-51`) as an `int`. -/
def roleAttr (r : MSPRole) : IdemixAttribute := intAttr (getIdemixRoleFromMSPRoleValue r.role).toInt

/-- The options for the credential (`idemixmsp.go:390-398`). -/
def credOpts {p : CspId} (ipk : Key (W.B p)) (ou : Bytes) (role : MSPRole) (eid : Bytes) : SignerOpts (W.B p) :=
  .cred [bytesAttr ou, roleAttr role, bytesAttr eid, hiddenAttr] (some ipk)

/-- The options for the proof of the default signer (`idemixmsp.go:411-424`): types without values. -/
def proofOpts {p : CspId} (ipk nym : Key (W.B p)) (cred cri : Bytes) : SignerOpts (W.B p) :=
  .sig { nym := some nym, issuerPK := some ipk, credential := cred,
         attributes := [⟨1, .other⟩, ⟨2, .other⟩, ⟨0, .other⟩, ⟨0, .other⟩], rhIndex := 3, eidIndex := 2,
         skIndex := 0, cri := cri, epoch := 0, revocationPK := none, sigType := .standard, metadata := none,
         verType := .basic }

/-- The role of the default signer (`idemixmsp.go:369-375`). -/
def signerRole (name : Bytes) (s : SignerConfig) : MSPRole :=
  ⟨name, if checkRole (BitVec.ofInt 64 s.role) ADMIN then 1 else 0⟩

/-- The default signer (`idemixmsp.go:351-436`). -/
def IMsp.newSigner (m : IMsp W) (me : Ref) (p : CspId) (ipk : Key (W.B p)) (s : SignerConfig)
    (ρ : (W.B p).Rnd × (W.B p).Rnd) : Res (SigningIdentity W) := do
  let userKey ← m.import p s.sk (.userSk true)
  let nymKey ← (Provider.keyDeriv (Provider.dummyStore (W.B p)) (m.registry p) () (some userKey)
    (some (.nym true (some ipk))) ρ.1).2
  let nymPk ← nymKey.publicKey
  let role := signerRole m.name s
  let ski ← orEmpty ipk.ski
  let ou : OrganizationUnit := ⟨m.name, s.ou, ski⟩
  let valid ← Provider.verify (m.registry p) (some userKey) s.cred [] (some (credOpts ipk s.ou role s.enrollmentId))
  Res.guardErr (!valid) "credential is not cryptographically valid"
  let (proof, _) ← Provider.sign (m.registry p) (some userKey) [] (some (proofOpts ipk nymKey s.cred s.cri)) ρ.2
  let identity ← newIdentity me m.name ⟨p, nymPk⟩ role ou proof
  pure ⟨identity, s.cred, ⟨p, userKey⟩, ⟨p, nymKey⟩, s.enrollmentId⟩

/-- The randomness that a set-up uses: for the pseudonym, and for the proof. -/
abbrev SetupRnd (W : World) := (p : CspId) → (W.B p).Rnd × (W.B p).Rnd

/-- Continue with the value of an outcome; otherwise the state stays. -/
def andThen {α : Type} (m : IMsp W) (x : Res α) (f : α → IMsp W × Res Unit) : IMsp W × Res Unit :=
  match x with
  | .ok a => f a
  | .err e => (m, .err e)
  | .panic => (m, .panic)

/-- `ProviderType` (`provider.go`): FABRIC 0, IDEMIX 1, IDEMIX_ARIES 2, OTHER 3. -/
def typeOf (aries : Bool) : Int := if aries then 2 else 1

/-- `Setup` (`idemixmsp.go:240-439`): the MSP afterwards, and the result. The fields are written one after the other.
`New` and `NewAries` do not fail (`C46_constructor`). -/
def IMsp.setup (m : IMsp W) (me : Ref) (conf1 : Option MSPConfig) (ρ : SetupRnd W) : IMsp W × Res Unit :=
  match conf1 with
  | none => (m, .err "setup error: nil conf reference")
  | some conf1 =>
    andThen m (Wire.configCodec.unmarshal conf1.config) fun conf =>
      let m := { m with name := conf.name }
      if conf1.type ≠ typeOf m.aries then (m, .err "setup error: config of the wrong type")
      else
        andThen m (chooseCurve m.aries conf.curveId) fun curve =>
          let p : CspId := ⟨m.aries, curve⟩
          let m := { m with csp := some p }
          andThen m (m.importIpk p conf.ipk) fun ipk =>
            let m := { m with ipk := some ⟨p, ipk⟩ }
            andThen m (m.import p conf.revocationPk (.revPk true)) fun rpk =>
              let m := { m with revocationPK := some ⟨p, rpk⟩ }
              match conf.signer with
              | none => (m, .ok ())
              | some s =>
                andThen m (m.newSigner me p ipk s (ρ p)) fun signer =>
                  ({ m with signer := some signer }, .ok ())

/-! ## Accessors -/

/-- `GetVersion` (`idemixmsp.go:442-444`). -/
def IMsp.getVersion (m : IMsp W) : Int := m.version

/-- `GetType` (`idemixmsp.go:446-448`). -/
def IMsp.getType (_ : IMsp W) : Int := 1

/-- `GetIdentifier` (`idemixmsp.go:450-452`). -/
def IMsp.getIdentifier (m : IMsp W) : Bytes := m.name

/-- `GetDefaultSigningIdentity` (`idemixmsp.go:454-462`). -/
def IMsp.getDefaultSigningIdentity (m : IMsp W) : Res (SigningIdentity W) :=
  Res.ofOption "no default signer setup" m.signer

/-! ## Identities -/

/-- `GetMSPIdentifier` (`idemixmsp.go:775-779`). -/
def Identity.mspIdentifier (h : Heap W) (i : Identity W) : Bytes := (h i.msp).getIdentifier

/-- `DeserializeIdentityInternal` (`idemixmsp.go:478-516`). -/
def deserializeInternal (h : Heap W) (me : Ref) (b : Bytes) : Res (Identity W) := do
  let s ← Wire.identCodec.unmarshal b
  match s.nymX, s.nymY with
  | some x, some y => do
    let p ← (h me).provider
    let nym ← (h me).import p (x ++ y) (.nymPk true)
    let ou ← Wire.unitCodec.unmarshal s.ou
    let role ← Wire.roleCodec.unmarshal s.role
    newIdentity me (h me).name ⟨p, nym⟩ role ou s.proof
  | _, _ => .err "unable to deserialize idemix identity: pseudonym is invalid"

/-- `DeserializeIdentity` (`idemixmsp.go:464-476`). -/
def deserializeIdentity (h : Heap W) (me : Ref) (b : Bytes) : Res (Identity W) := do
  let s ← Wire.serialCodec.unmarshal b
  Res.guardErr (decide (s.mspid ≠ (h me).name)) "expected another MSP ID"
  deserializeInternal h me s.idBytes

/-- `IsWellFormed` (`idemixmsp.go:709-717`); `none` is a nil pointer, whose field is read. -/
def IMsp.isWellFormed (_ : IMsp W) : Option SerializedIdentity → Res Unit
  | none => .panic
  | some s => do
    let _ ← Wire.identCodec.unmarshal s.idBytes
    pure ()

/-- `Serialize` (`idemixmsp.go:819-856`). Simplified: undeclared fields in the unit and role that an identity was read
with, which the Go messages keep, are dropped. -/
def Identity.serialize (h : Heap W) (i : Identity W) : Res Bytes := do
  let raw ← i.nym.key.bytes
  let ou ← Wire.unitCodec.marshal i.ou
  let role ← Wire.roleCodec.marshal i.role
  let inner ← Wire.identCodec.marshal ⟨some (raw.take (raw.length / 2)), some (raw.drop (raw.length / 2)), ou, role,
    i.proof, []⟩
  Wire.serialCodec.marshal ⟨i.mspIdentifier h, inner⟩

/-- `verifyProof` (`idemixmsp.go:537-561`). -/
def Identity.verifyProof (h : Heap W) (i : Identity W) : Res Unit := do
  let m := h i.msp
  let p ← m.provider
  let valid ← Provider.verify (m.registry p) (m.ipk.map fun k => k.under p) i.proof []
    (some (.sig { nym := none, issuerPK := none, credential := [],
                  attributes := [bytesAttr i.ou.ou, roleAttr i.role, hiddenAttr, hiddenAttr], rhIndex := 3,
                  eidIndex := 2, skIndex := 0, cri := [], epoch := m.epoch,
                  revocationPK := m.revocationPK.map fun k => k.under p, sigType := .standard, metadata := none,
                  verType := .basic }))
  if valid then pure () else .panic

/-- The identity inside an interface value; `none` if its type is not recognized (`idemixmsp.go:519-527`). -/
def AnyIdentity.get? : AnyIdentity W → Option (Identity W)
  | .identity i => some i
  | .signing s => some s.identity
  | .other => none

/-- `Idemixmsp.Validate` (`idemixmsp.go:518-535`). -/
def validate (h : Heap W) (me : Ref) (id : AnyIdentity W) : Res Unit := do
  let i ← Res.ofOption "identity type is not recognized" id.get?
  Res.guardErr (decide (i.mspIdentifier h ≠ (h me).name)) "the supplied identity does not belong to this msp"
  i.verifyProof h

/-- `Idemixidentity.Validate` (`idemixmsp.go:793-795`). -/
def Identity.validate (h : Heap W) (i : Identity W) : Res Unit := Idemix.Msp.validate h i.msp (.identity i)

/-- `Idemixidentity.Verify` (`idemixmsp.go:797-813`). -/
def Identity.verify (h : Heap W) (i : Identity W) (msg sig : Bytes) : Res Unit := do
  let m := h i.msp
  let p ← m.provider
  let _ ← Provider.verify (m.registry p) (some (i.nym.under p)) sig msg
    (some (.nymSig { nym := none, issuerPK := m.ipk.map fun k => k.under p, isSmartcard := false, smartcard := none,
                     nymEid := none, nymG1 := none, rNym := none, skIndex := 0 }))
  pure ()

/-- `IdemixSigningIdentity.Sign` (`idemixmsp.go:866-882`). -/
def SigningIdentity.sign (h : Heap W) (s : SigningIdentity W) (msg : Bytes) (ρ : (p : CspId) → (W.B p).Rnd) :
    Res Bytes := do
  let m := h s.identity.msp
  let p ← m.provider
  let (sig, _) ← Provider.sign (m.registry p) (some (s.userKey.under p)) msg
    (some (.nymSig { nym := some (s.nymKey.under p), issuerPK := m.ipk.map fun k => k.under p, isSmartcard := false,
                     smartcard := none, nymEid := none, nymG1 := none, rNym := none, skIndex := 0 })) (ρ p)
  pure sig

/-- `GetOrganizationalUnits` (`idemixmsp.go:781-791`): pairs of the issuer key and the unit. A nil issuer key is
dereferenced. -/
def Identity.organizationalUnits (h : Heap W) (i : Identity W) : Res (List (Bytes × Bytes)) :=
  match (h i.msp).ipk with
  | none => .panic
  | some k =>
    match k.key.bytes with
    | .ok b => .ok [(b, i.ou.ou)]
    | .err _ => .ok []
    | .panic => .panic

/-! ## Principals -/

/-- `id.(*Idemixidentity)` (`idemixmsp.go:602`, `653`). -/
def AnyIdentity.asIdentity : AnyIdentity W → Res (Identity W)
  | .identity i => .ok i
  | _ => .panic

/-- `id.Serialize()` through the interface; other types are not modelled. -/
def AnyIdentity.serialize (h : Heap W) : AnyIdentity W → Res Bytes
  | .identity i => i.serialize h
  | .signing s => s.identity.serialize h
  | .other => .err "not modelled"

/-- The loop over the principals (`idemixmsp.go:675-680`). -/
def allOf {α : Type} (f : α → Res Unit) : List α → Res Unit
  | [] => .ok ()
  | a :: l => do
    f a
    allOf f l

/-- The principals of class ROLE (`idemixmsp.go:578-621`). -/
def satisfiesRole (m : IMsp W) (id : AnyIdentity W) (b : Bytes) : Res Unit := do
  let r ← Wire.roleCodec.unmarshal b
  Res.guardErr (decide (r.mspIdentifier ≠ m.name)) "the identity is a member of a different MSP"
  if r.role = 0 then .ok ()
  else if r.role = 1 then do
    let i ← id.asIdentity
    if i.role.role ≠ 1 then .err "user is not an admin" else .ok ()
  else if r.role = 3 then
    if m.version ≥ 2 then .err "idemixmsp only supports client use" else .err "invalid MSP role type"
  else if r.role = 2 then
    if m.version ≥ 2 then .ok () else .err "invalid MSP role type"
  else .err "invalid MSP role type"

/-- The principals of class ORGANIZATION_UNIT (`idemixmsp.go:638-657`). -/
def satisfiesUnit (m : IMsp W) (id : AnyIdentity W) (b : Bytes) : Res Unit := do
  let o ← Wire.unitCodec.unmarshal b
  Res.guardErr (decide (o.mspIdentifier ≠ m.name)) "the identity is a member of a different MSP"
  let i ← id.asIdentity
  if o.ou ≠ i.ou.ou then .err "user is not part of the desired organizational unit" else .ok ()

/-- The principals of class IDENTITY (`idemixmsp.go:624-636`). -/
def satisfiesIdentity (h : Heap W) (id : AnyIdentity W) (b : Bytes) : Res Unit := do
  let raw ← id.serialize h
  if raw = b then .ok () else .err "the identities do not match"

/-- The principals of class ANONYMITY (`idemixmsp.go:683-700`). -/
def satisfiesAnonymity (m : IMsp W) (b : Bytes) : Res Unit := do
  Res.guardErr (decide (m.version ≤ 1)) "anonymity MSP Principals are unsupported in MSPv1_1"
  let t ← Wire.anonCodec.unmarshal b
  if t = 1 then .ok ()
  else if t = 0 then .err "principal is nominal, but idemix MSP is anonymous"
  else .err "unknown principal anonymity type"

/-- `satisfiesPrincipalValidated` (`idemixmsp.go:574-704`). -/
def satisfiesValidated (h : Heap W) (me : Ref) (id : AnyIdentity W) (q : Principal) : Res Unit :=
  if q.classification = 0 then satisfiesRole (h me) id q.principal
  else if q.classification = 2 then satisfiesIdentity h id q.principal
  else if q.classification = 1 then satisfiesUnit (h me) id q.principal
  else if q.classification = 4 then
    if (h me).version ≤ 1 then .err "combined MSP Principals are unsupported in MSPv1_1"
    else
      match hc : Wire.combinedCodec.unmarshal q.principal with
      | .ok l =>
        if l = [] then .err "no principals in CombinedPrincipal"
        else allOf (fun c : { c // c ∈ l } => satisfiesValidated h me id c.1) l.attach
      | .err _ => .err "could not unmarshal CombinedPrincipal from principal"
      | .panic => .panic
  else if q.classification = 3 then satisfiesAnonymity (h me) q.principal
  else .err "invalid principal type"
termination_by q.principal.length
decreasing_by exact Wire.combined_length hc c.1 c.2

/-- `SatisfiesPrincipal` (`idemixmsp.go:563-570`); a nil principal is dereferenced. -/
def satisfiesPrincipal (h : Heap W) (me : Ref) (id : AnyIdentity W) (q : Option Principal) : Res Unit := do
  validate h me id
  let q ← Res.deref q
  satisfiesValidated h me id q

/-! ## Configurations from a directory -/

/-- The conversion `int32(mspType)` (`idemixmsp.go:947`), for an `int` of 64 bits. -/
def toInt32 (i : Int) : Int := (i + 2147483648) % 4294967296 - 2147483648

/-- `GetIdemixMspConfigWithType` (`idemixmsp.go:911-948`); `read` is the outcome of reading the file with
the given path below the directory. Errors of reading the signer are taken as its absence. Simplified: undeclared fields
of the signer's file, which the Go code copies, are dropped (`C95_msp`: MSPs ignore them). -/
def getConfig (read : List Bytes → Res Bytes) (id : Bytes) (mspType : Int) : Res MSPConfig := do
  Res.guardErr (decide (mspType < 0)) "msp type is not supported"
  let ipk ← read [ascii "msp", ascii "IssuerPublicKey"]
  let rpk ← read [ascii "msp", ascii "RevocationPublicKey"]
  let signer ← match read [ascii "user", ascii "SignerConfig"] with
    | .ok b => do
      let s ← Wire.signerCodec.unmarshal b
      pure (some s)
    | _ => .ok none
  let b ← Wire.configCodec.marshal ⟨id, ipk, signer, rpk, 0, [], []⟩
  pure ⟨toInt32 mspType, b⟩

end Idemix.Msp
