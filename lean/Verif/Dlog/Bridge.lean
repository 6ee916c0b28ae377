import Verif.Base.Codec
import Verif.Dlog.Sign
import Verif.Dlog.Translator
import Verif.Dlog.Wire

/-!
# The dlog bridge

Model of `bccsp/schemes/dlog/bridge/*.go` and of `revocation_authority.go`: byte-level entry points that
unmarshal their arguments, call the scheme and convert panics to errors.
-/

namespace Idemix.Dlog

variable {S : Suite}

/-- Everything the bridge takes from its surroundings: the translator and ECDSA. -/
structure Env (S : Suite) where
  T : Translator S
  /-- `Translator.G1FromRawBytes`. -/
  rawG1 : Bytes → Res S.G1
  /-- `curve.CoordByteSize`. -/
  coordLen : Nat
  dsa : Ecdsa

variable (E : Env S)

/-! ## Issuer (`issuer.go`) -/

/-- Categories of `types.IdemixIssuerPublicKeyImporterError` (`bccsp/types/idemixerrs.go:13-21`). -/
inductive ImportError where
  | unmarshalling | hash | validation | numAttributes | attributeName
  deriving DecidableEq, Repr

/-- The category as carried by the error. -/
def ImportError.msg : ImportError → String
  | .unmarshalling => "import error 0"
  | .hash => "import error 1"
  | .validation => "import error 2"
  | .numAttributes => "import error 3"
  | .attributeName => "import error 4"

/-- Wrapping an error in a category; panics pass. -/
def wrapErr {α : Type} (m : String) : Res α → Res α
  | .ok a => .ok a
  | .err _ => .err m
  | .panic => .panic

@[simp] theorem wrapErr_eq_ok {α : Type} {m : String} {x : Res α} {a : α} :
    wrapErr m x = .ok a ↔ x = .ok a := by cases x <;> simp [wrapErr]

/-- `Issuer.NewKey` (`issuer.go:48-65`). -/
def Env.newKey (names : List Bytes) (ρ : IssuerRand S) : Res IssuerKey :=
  (newIssuerKey E.T Wire.ipkCodec.marshal names ρ).recovered

/-- `Issuer.NewKeyFromBytes` (`issuer.go:67-83`; `issuerkey.go:119-137`). -/
def Env.newKeyFromBytes (_E : Env S) (raw : Bytes) : Res IssuerKey := (Wire.keyCodec.unmarshal raw).recovered

/-- `Issuer.Bases` (`issuer.go:85-87`). -/
def Env.bases (_E : Env S) : Res Unit := .panic

/-- The comparison of the names in `NewPublicKeyFromBytes` (`issuer.go:122-140`). -/
def checkNames (expected names : List Bytes) : Res Unit :=
  if expected.length = 0 then .ok ()
  else if expected.length ≠ names.length then .err ImportError.numAttributes.msg
  else if expected ≠ names then .err ImportError.attributeName.msg
  else .ok ()

/-- `Issuer.NewPublicKeyFromBytes` (`issuer.go:89-145`). The element-wise loop is modelled as comparison of
the lists (they have equal length at that point). -/
def Env.newPublicKeyFromBytes (raw : Bytes) (expected : List Bytes) : Res IssuerPublicKey :=
  Res.recovered do
    let ipk ← wrapErr ImportError.unmarshalling.msg (Wire.ipkCodec.unmarshal raw)
    let ipk ← wrapErr ImportError.hash.msg (setHash (S := S) Wire.ipkCodec.marshal ipk)
    let ipk ← wrapErr ImportError.validation.msg (ipk.check E.T Wire.ipkCodec.marshal)
    checkNames expected ipk.attributeNames
    pure ipk

/-! ## Credential requests (`credrequest.go`) -/

/-- `CredRequest.Sign` (`bridge/credrequest.go:28-56`). A nil scalar is `none`; the nonce passed is never
nil after its length check, because scalars have positive length. -/
def Env.requestSign (sk : Option S.F) (ipk : Dyn IssuerPublicKey) (nonce : Bytes) (rSk : S.F) : Res Bytes :=
  Res.recovered do
    let ipk ← ipk.get "invalid issuer public key"
    Res.guardErr (decide (nonce.length ≠ S.scalarLen)) "invalid issuer nonce"
    let sk ← Res.deref sk
    let req ← newCredRequest E.T sk (some nonce) ipk rSk
    Wire.reqCodec.marshal req

/-- `CredRequest.Verify` (`bridge/credrequest.go:60-92`). -/
def Env.requestVerify (raw : Bytes) (ipk : Dyn IssuerPublicKey) (nonce : Bytes) : Res Unit :=
  Res.recovered do
    let req ← Wire.reqCodec.unmarshal raw
    let ipk ← ipk.get "invalid issuer public key"
    req.check E.T ipk
    Res.guardErr (decide (nonce.length ≠ S.scalarLen)) "invalid issuer nonce"
    Res.guardErr (decide (nonce ≠ req.issuerNonce.getD [])) "invalid nonce"

/-! ## Credentials (`bridge/credential.go`) -/

/-- The scalar of an integer attribute (`credential.go:56-64`, `109-119`; `signaturescheme.go:243-253`). -/
def intAttr (S : Suite) : AttrValue → Res S.F
  | .int v => .ok (S.zrOfInt v)
  | .int64 v => .ok (S.zrOfInt v)
  | _ => .err "invalid int type for IdemixIntAttribute attribute"

/-- The scalar of a bytes attribute: `Value.([]byte)` panics for another dynamic type. -/
def bytesAttr (S : Suite) : AttrValue → Res S.F
  | .bytes b => .ok (S.hashToZr b)
  | _ => .panic

/-- One attribute in `Credential.Sign` (`credential.go:52-67`). -/
def signAttr (S : Suite) (a : IdemixAttribute) : Res S.F :=
  if a.type = 1 then bytesAttr S a.value
  else if a.type = 2 then intAttr S a.value
  else .err "attribute type not allowed or supported"

/-- `Credential.Sign` (`credential.go:31-76`). -/
def Env.credSign (key : Dyn IssuerKey) (request : Bytes) (attributes : List IdemixAttribute) (e s : S.F) :
    Res Bytes :=
  Res.recovered do
    let key ← key.get "invalid issuer secret key"
    let req ← Wire.reqCodec.unmarshal request
    let values ← Res.mapM' (signAttr S) attributes
    let cred ← newCredential E.T key req values e s
    Wire.credCodec.marshal cred

/-- One attribute in `Credential.Verify` (`credential.go:101-127`), at position `i`. -/
def verAttr (S : Suite) (cred : Credential) (i : Nat) (a : IdemixAttribute) : Res Unit :=
  if a.type = 1 then do
    let v ← bytesAttr S a.value
    let c ← Res.nth cred.attrs i
    Res.guardErr (decide (S.zrBytes v ≠ c)) "credential does not contain the correct attribute value"
  else if a.type = 2 then do
    let v ← intAttr S a.value
    let c ← Res.nth cred.attrs i
    Res.guardErr (decide (S.zrBytes v ≠ c)) "credential does not contain the correct attribute value"
  else if a.type = 0 then .ok ()
  else .err "attribute type not allowed or supported"

/-- The attribute loop of `Credential.Verify`. -/
def verAttrs (S : Suite) (cred : Credential) (i : Nat) : List IdemixAttribute → Res Unit
  | [] => .ok ()
  | a :: as => do
    verAttr S cred i a
    verAttrs S cred (i + 1) as

/-- `Credential.Verify` (`credential.go:82-131`). -/
def Env.credVerify (sk : Option S.F) (ipk : Dyn IssuerPublicKey) (credential : Bytes)
    (attributes : List IdemixAttribute) : Res Unit :=
  Res.recovered do
    let ipk ← ipk.get "invalid issuer public key"
    let cred ← Wire.credCodec.unmarshal credential
    verAttrs S cred 0 attributes
    let sk ← Res.deref sk
    cred.ver E.T sk ipk

/-! ## Signatures (`signaturescheme.go`) -/

/-- Disclosure vector in `Sign` (`signaturescheme.go:55-62`). -/
def disclosureOf (attributes : List IdemixAttribute) : Bytes :=
  attributes.map fun a => if a.type = 0 then 0 else 1

/-- One attribute in `Verify` (`signaturescheme.go:235-256`): disclosed value or nil. -/
def verifyAttr (S : Suite) (a : IdemixAttribute) : Res (Option S.F) :=
  if a.type = 0 then .ok none
  else if a.type = 1 then do
    let v ← bytesAttr S a.value
    pure (some v)
  else if a.type = 2 then do
    let v ← intAttr S a.value
    pure (some v)
  else .err "attribute type not allowed or supported"

/-- `SignatureScheme.Sign` (`signaturescheme.go:29-90`). -/
def Env.sign (cred : Bytes) (sk : Option S.F) (nym : Option S.G1) (rNym : Option S.F)
    (ipk : Dyn IssuerPublicKey) (attributes : List IdemixAttribute) (msg : Bytes) (rhIndex eidIndex : Int)
    (criRaw : Bytes) (ρ : SigRand S) (sigType : SigType) (md : Option (SignerMetadata S)) :
    Res (Bytes × Option (SignerMetadata S)) :=
  Res.recovered do
    let ipk ← ipk.get "invalid issuer public key"
    let credential ← Wire.credCodec.unmarshal cred
    let cri ← Wire.criCodec.unmarshal criRaw
    let sk ← Res.deref sk
    let nym ← Res.deref nym
    let rNym ← Res.deref rNym
    let (sig, m) ← newSignature E.T credential sk nym rNym ipk (disclosureOf attributes) msg rhIndex
      eidIndex cri ρ sigType md
    let raw ← Wire.sigCodec.marshal sig
    pure (raw, m)

/-- `SignatureScheme.Verify` (`signaturescheme.go:206-276`). The loop goes on after an
unsupported type; the model stops there (the result is an error in both cases). -/
def Env.verify (ipk : Dyn IssuerPublicKey) (signature digest : Bytes) (attributes : List IdemixAttribute)
    (rhIndex eidIndex : Int) (revPk : Option E.dsa.Pk) (epoch : Int) (verType : VerType)
    (md : Option (SignerMetadata S)) : Res Unit :=
  Res.recovered do
    let ipk ← ipk.get "invalid issuer public key"
    let sig ← Wire.sigCodec.unmarshal signature
    let values ← Res.mapM' (verifyAttr S) attributes
    sig.ver E.T (disclosureOf attributes) (some ipk) digest values rhIndex eidIndex revPk epoch verType md

/-- `SignatureScheme.AuditNymEid` (`signaturescheme.go:93-147`). -/
def Env.auditNymEid (ipk : Dyn IssuerPublicKey) (eidIndex : Int) (signature enrollmentID : Bytes)
    (r : Option S.F) (verType : AuditType) : Res Unit :=
  Res.recovered do
    let ipk ← ipk.get "invalid issuer public key"
    let attr := S.hashToZr enrollmentID
    match verType with
    | .expectSignature => do
      let sig ← Wire.sigCodec.unmarshal signature
      let r ← Res.deref r
      sig.auditNymEid E.T ipk attr eidIndex r
    | .expectEidNymRhNym | .expectEidNym => do
      let r ← Res.deref r
      auditRawNym E.T signature ipk attr eidIndex r
    | .unknown _ => .err "invalid audit type"

/-- `SignatureScheme.AuditNymRh` (`signaturescheme.go:150-202`). -/
def Env.auditNymRh (ipk : Dyn IssuerPublicKey) (rhIndex : Int) (signature revocationHandle : Bytes)
    (r : Option S.F) (verType : AuditType) : Res Unit :=
  Res.recovered do
    let ipk ← ipk.get "invalid issuer public key"
    let attr := S.hashToZr revocationHandle
    match verType with
    | .expectSignature => do
      let sig ← Wire.sigCodec.unmarshal signature
      let r ← Res.deref r
      sig.auditNymRh E.T ipk attr rhIndex r
    | .expectEidNymRhNym => do
      let r ← Res.deref r
      auditRawNym E.T signature ipk attr rhIndex r
    | _ => .err "invalid audit type"

/-! ## Users and pseudonym signatures (`user.go`, `nymsignaturescheme.go`) -/

/-- `User.NewKeyFromBytes` (`user.go:36-44`); no `recover` here. -/
def Env.userKeyFromBytes (_E : Env S) (raw : Bytes) : Res S.F := do
  Res.guardErr (decide (raw.length ≠ S.scalarLen)) "invalid length"
  pure (S.zrOfBytes raw)

/-- `User.MakeNym` (`user.go:47-67`). -/
def Env.makeNym (sk : Option S.F) (ipk : Dyn IssuerPublicKey) (r : S.F) : Res (S.G1 × S.F) :=
  Res.recovered do
    let ipk ← ipk.get "invalid issuer public key"
    let sk ← Res.deref sk
    Dlog.makeNym E.T sk ipk r

/-- `User.NewNymFromBytes` (`user.go:70-84`). -/
def Env.nymFromBytes (raw : Bytes) : Res (S.G1 × S.F) := (makeNymFromBytes E.T E.coordLen raw).recovered

/-- `User.NewPublicNymFromBytes` (`user.go:86-97`). -/
def Env.publicNymFromBytes (raw : Bytes) : Res S.G1 := (E.rawG1 raw).recovered

/-- `NymSignatureScheme.Sign` (`nymsignaturescheme.go:27-53`). -/
def Env.nymSign (sk : Option S.F) (nym : Option S.G1) (rNym : Option S.F) (ipk : Dyn IssuerPublicKey)
    (digest : Bytes) (ρ : NymRand S) : Res Bytes :=
  Res.recovered do
    let ipk ← ipk.get "invalid issuer public key"
    let sk ← Res.deref sk
    let nym ← Res.deref nym
    let rNym ← Res.deref rNym
    let sig ← newNymSignature E.T sk nym rNym ipk digest ρ
    Wire.nymSigCodec.marshal sig

/-- `NymSignatureScheme.Verify` (`nymsignaturescheme.go:57-76`). -/
def Env.nymVerify (ipk : Dyn IssuerPublicKey) (nym : Option S.G1) (signature digest : Bytes) : Res Unit :=
  Res.recovered do
    let ipk ← ipk.get "invalid issuer public key"
    let sig ← Wire.nymSigCodec.unmarshal signature
    let nym ← Res.deref nym
    sig.ver E.T nym ipk digest

/-! ## Revocation (`revocation.go`, `revocation_authority.go`) -/

/-- The part of the CRI that is signed (`revocation_authority.go:70-84`, `117-120`). -/
def criBody (epochPk : Option ECP2) (epoch alg : Int) : CRI := ⟨epoch, epochPk, [], alg, []⟩

/-- `createCRI` (`revocation_authority.go:67-102`); the unrevoked handles are not used
(converting them cannot fail). `wbb` is the public
key that `WbbKeyGen` samples for an algorithm other than `ALG_NO_REVOCATION`. -/
def Env.createCRI (key : Option E.dsa.Sk) (epoch alg : Int) (wbb : S.G2) (ρ : E.dsa.Rnd) : Res CRI := do
  let key ← Res.ofOption "createCRI received nil input" key
  let epochPk := if alg = 0 then E.T.g2ToProto S.genG2 else E.T.g2ToProto wbb
  let cri := criBody (some epochPk) epoch alg
  let bytes ← Wire.criCodec.marshal cri
  let sig ← E.dsa.sign key ρ (E.dsa.sha256 bytes)
  if alg = 0 then pure { cri with epochPkSig := sig }
  else .err "the specified revocation algorithm is not supported"

/-- `verifyEpochPK` (`revocation_authority.go:113-137`). Parsing the ASN.1 signature is part of
`dsa.verify`. The unknown fields `u` of the epoch key are part of what is hashed. -/
def Env.verifyEpochPK (pk : Option E.dsa.Pk) (epochPk : Option ECP2) (u epochPkSig : Bytes)
    (epoch alg : Int) : Res Unit := do
  let pk ← Res.ofOption "epochPK invalid: received nil input" pk
  let epochPk ← Res.ofOption "epochPK invalid: received nil input" epochPk
  let bytes := Proto.encode (Wire.criU (criBody (some epochPk) epoch alg) u)
  Res.guardErr (!E.dsa.verify pk (E.dsa.sha256 bytes) epochPkSig) "epochPKSig invalid"

/-- `Revocation.Sign` (`revocation.go:34-52`). -/
def Env.revSign (key : Option E.dsa.Sk) (epoch alg : Int) (wbb : S.G2) (ρ : E.dsa.Rnd) : Res Bytes :=
  Res.recovered do
    let cri ← E.createCRI key epoch alg wbb ρ
    Wire.criCodec.marshal cri

/-- `Revocation.Verify` (`revocation.go:56-76`): the epoch and algorithm asked for are not used. -/
def Env.revVerify (pk : Option E.dsa.Pk) (criRaw : Bytes) (_epoch _alg : Int) : Res Unit :=
  Res.recovered do
    let cri ← Wire.criCodec.unmarshal criRaw
    E.verifyEpochPK pk cri.epochPk (Wire.epochPkUnknown criRaw) cri.epochPkSig cri.epoch cri.revocationAlg

end Idemix.Dlog
