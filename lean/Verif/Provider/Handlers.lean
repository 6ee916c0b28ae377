import Verif.Provider.Types

/-!
# Handlers

Model of `bccsp/handlers/*.go`. A handler checks the dynamic types of its arguments and calls the scheme. Signing
handlers return the signature together with the options as they leave them (some write results into the options).
-/

namespace Idemix.Provider

variable {S : Suite} (B : Backend S)

/-- The `any` passed to `KeyImport` when it is not nil. -/
inductive Raw where
  | bytes (b : Bytes)
  | other

/-- The first checks of every importer (`user.go:83-90`, `issuer.go:117-124`, `160-167`, `nym.go:155-162`,
`193-200`, `revocation.go:147-154`, `182-189`). -/
def rawBytes : Raw → Res Bytes
  | .other => .err "invalid raw, expected byte array"
  | .bytes b => do
    Res.guardErr (decide (b.length = 0)) "invalid raw, it must not be nil"
    pure b

/-- The check of the issuer public key in options (`cred.go:29-35`, `nym.go:130-136`, `nymsigner.go:26-32`,
`signer.go:31-37`). -/
def issuerPKOf {B : Backend S} : Option (Key B) → Res B.IPK
  | none => .err "invalid options, missing issuer public key"
  | some (.issuerPk pk) => .ok pk
  | some _ => .err "invalid options, expected IssuerPK as *issuerPublicKey"

/-- The check of the pseudonym in options (`signer.go:40-46`, `nymsigner.go:61-67`): the point and its secret. -/
def nymSkOf {B : Backend S} : Option (Key B) → Res (S.G1 × S.F)
  | none => .err "invalid options, missing nym key"
  | some (.nymSk _ sk pk _) => .ok (pk, sk)
  | some _ => .err "invalid nym key, expected *nymSecretKey"

/-! ## Generation and derivation -/

/-- `IssuerKeyGen.KeyGen` (`issuer.go:95-108`). -/
def issuerKeyGen (exportable : Bool) (opts : GenOpts) (ρ : B.Rnd) : Res (Key B) :=
  match opts with
  | .issuer _ names => do
    let k ← B.newIssuerKey names ρ
    pure (.issuerSk k exportable)
  | _ => .err "invalid options, expected *bccsp.IdemixIssuerKeyGenOpts"

/-- `UserKeyGen.KeyGen` (`user.go:64-71`): the options are not looked at. -/
def userKeyGen (exportable : Bool) (_opts : GenOpts) (ρ : B.Rnd) : Res (Key B) := do
  let sk ← B.newUserKey ρ
  pure (.userSk sk exportable)

/-- `RevocationKeyGen.KeyGen` (`revocation.go:132-140`): the options are not looked at. -/
def revocationKeyGen (exportable : Bool) (_opts : GenOpts) (ρ : B.Rnd) : Res (Key B) := do
  let sk ← B.newRevKey ρ
  pure (.revSk sk exportable)

/-- `NymKeyDerivation.KeyDeriv` (`nym.go:121-144`). -/
def nymKeyDeriv (exportable : Bool) (k : Key B) (opts : DerivOpts B) (ρ : B.Rnd) : Res (Key B) :=
  match k with
  | .userSk sk _ =>
    match opts with
    | .nym _ issuerPK => do
      let ipk ← issuerPKOf issuerPK
      let (nym, r) ← B.makeNym sk ipk ρ
      pure (newNymSecretKey B r nym exportable)
    | _ => .err "invalid options, expected *IdemixNymKeyDerivationOpts"
  | _ => .err "invalid key, expected *userSecretKey"

/-! ## Import -/

/-- `UserKeyImporter.KeyImport` (`user.go:82-98`). -/
def userKeyImport (exportable : Bool) (raw : Raw) (_opts : ImportOpts) : Res (Key B × Option B.Bases) := do
  let b ← rawBytes raw
  let sk ← B.userKeyFromBytes b
  pure (.userSk sk exportable, none)

/-- `IssuerPublicKeyImporter.KeyImport` (`issuer.go:116-148`): the key, and the commitment bases written into the
options. -/
def issuerPkImport (raw : Raw) (opts : ImportOpts) : Res (Key B × Option B.Bases) := do
  let b ← rawBytes raw
  match opts with
  | .issuerPk _ names req rh eid sk => do
    let pk ← B.issuerPkFromBytes b names
    if req = 0 then pure (.issuerPk pk, none)
    else do
      let bases ← B.bases pk req rh eid sk
      pure (.issuerPk pk, some bases)
  | _ => .err "invalid options, expected *bccsp.IdemixIssuerPublicKeyImportOpts"

/-- `IssuerKeyImporter.KeyImport` (`issuer.go:159-183`). -/
def issuerSkImport (exportable : Bool) (raw : Raw) (opts : ImportOpts) : Res (Key B × Option B.Bases) := do
  let b ← rawBytes raw
  match opts with
  | .issuerSk _ names => do
    let sk ← B.issuerKeyFromBytes b names
    pure (.issuerSk sk exportable, none)
  | _ => .err "invalid options, expected *bccsp.IdemixIssuerKeyImportOpts"

/-- `NymPublicKeyImporter.KeyImport` (`nym.go:154-181`): a second attempt with the prefix 4 after an error. -/
def nymPkImport (raw : Raw) (_opts : ImportOpts) : Res (Key B × Option B.Bases) := do
  let b ← rawBytes raw
  let pk ← match B.publicNymFromBytes b with
    | .err _ => B.publicNymFromBytes (4 :: b)
    | r => r
  pure (.nymPk pk, none)

/-- `NymKeyImporter.KeyImport` (`nym.go:192-208`). -/
def nymSkImport (exportable : Bool) (raw : Raw) (_opts : ImportOpts) : Res (Key B × Option B.Bases) := do
  let b ← rawBytes raw
  let (nym, r) ← B.nymFromBytes b
  pure (newNymSecretKey B r nym exportable, none)

/-- `RevocationPublicKeyImporter.KeyImport` (`revocation.go:146-170`). -/
def revPkImport (raw : Raw) (_opts : ImportOpts) : Res (Key B × Option B.Bases) := do
  let b ← rawBytes raw
  let block ← Res.ofOption "failed to decode revocation ECDSA public key" (B.ec.pemDecode b)
  let pk ← B.ec.parsePkix block
  let pk ← Res.ofOption "key is not of type ECDSA" pk
  pure (.revPk pk, none)

/-- `RevocationKeyImporter.KeyImport` (`revocation.go:181-200`). -/
def revSkImport (exportable : Bool) (raw : Raw) (_opts : ImportOpts) : Res (Key B × Option B.Bases) := do
  let b ← rawBytes raw
  let sk ← B.revKeyFromBytes b
  pure (.revSk sk exportable, none)

/-! ## Signing -/

/-- `CredentialRequestSigner.Sign` (`cred.go:20-38`); a nil handler is dereferenced after the checks. -/
def credReqSign (k : Key B) (_digest : Bytes) (opts : Option (SignerOpts B)) (ρ : B.Rnd) :
    Res (Bytes × SignerOpts B) :=
  match k with
  | .userSk sk _ =>
    match opts with
    | some (.credReq issuerPK nonce) => do
      let ipk ← issuerPKOf issuerPK
      match B.request with
      | none => .panic
      | some R => do
        let sig ← R.sign sk ipk nonce ρ
        pure (sig, .credReq issuerPK nonce)
    | _ => .err "invalid options, expected *IdemixCredentialRequestSignerOpts"
  | _ => .err "invalid key, expected *userSecretKey"

/-- `BlindCredentialRequestSigner.Sign` (`cred.go:44-69`): the blinding is written into the options. -/
def blindReqSign (k : Key B) (_digest : Bytes) (opts : Option (SignerOpts B)) (ρ : B.Rnd) :
    Res (Bytes × SignerOpts B) :=
  match k with
  | .userSk sk _ =>
    match opts with
    | some (.blindReq issuerPK nonce _) => do
      let ipk ← issuerPKOf issuerPK
      match B.blind with
      | none => .panic
      | some R => do
        let (req, blinding) ← R.blind sk ipk nonce ρ
        pure (req, .blindReq issuerPK nonce blinding)
    | _ => .err "invalid options, expected *IdemixCredentialRequestSignerOpts"
  | _ => .err "invalid key, expected *userSecretKey"

/-- `CredentialSigner.Sign` (`cred.go:121-137`); the digest is the request. -/
def credentialSign (k : Key B) (digest : Bytes) (opts : Option (SignerOpts B)) (ρ : B.Rnd) :
    Res (Bytes × SignerOpts B) :=
  match k with
  | .issuerSk sk _ =>
    match opts with
    | some (.cred attributes issuerPK) => do
      let sig ← B.credSign sk digest attributes ρ
      pure (sig, .cred attributes issuerPK)
    | _ => .err "invalid options, expected *IdemixCredentialSignerOpts"
  | _ => .err "invalid key, expected *issuerSecretKey"

/-- `CriSigner.Sign` (`revocation.go:206-222`). -/
def criSign (k : Key B) (_digest : Bytes) (opts : Option (SignerOpts B)) (ρ : B.Rnd) : Res (Bytes × SignerOpts B) :=
  match k with
  | .revSk sk _ =>
    match opts with
    | some (.cri epoch alg unrevoked) => do
      let sig ← B.revSign sk unrevoked epoch alg ρ
      pure (sig, .cri epoch alg unrevoked)
    | _ => .err "invalid options, expected *IdemixCRISignerOpts"
  | _ => .err "invalid key, expected *revocationSecretKey"

/-- `Signer.Sign` (`signer.go:19-69`): the metadata is written into the options. -/
def signerSign (k : Key B) (digest : Bytes) (opts : Option (SignerOpts B)) (ρ : B.Rnd) :
    Res (Bytes × SignerOpts B) :=
  match k with
  | .userSk sk _ =>
    match opts with
    | some (.sig o) => do
      let ipk ← issuerPKOf o.issuerPK
      let (nym, rNym) ← nymSkOf o.nym
      let (sig, md) ← B.sign o.credential sk nym rNym ipk o.attributes digest o.rhIndex o.eidIndex o.cri
        o.sigType o.metadata ρ
      pure (sig, .sig { o with metadata := md })
    | _ => .err "invalid options, expected *IdemixSignerOpts"
  | _ => .err "invalid key, expected *userSecretKey"

/-- `NymSigner.Sign` (`nymsigner.go:19-79`): pseudonym and randomness of a smartcard are written into the
options. -/
def nymSignerSign (k : Key B) (digest : Bytes) (opts : Option (SignerOpts B)) (ρ : B.Rnd) :
    Res (Bytes × SignerOpts B) :=
  match opts with
  | some (.nymSig o) => do
    let ipk ← issuerPKOf o.issuerPK
    if o.isSmartcard then
      match B.card, o.smartcard with
      | none, _ => .err "smartcard mode is unsupported"
      | some _, none => .err "no s/w smartcard supplied in opts"
      | some C, some card => do
        let (sig, nym, r) ← C.sign card ipk digest ρ
        pure (sig, .nymSig { o with nymG1 := some nym, rNym := some r })
    else
      match k with
      | .userSk sk _ => do
        let (nym, rNym) ← nymSkOf o.nym
        let sig ← B.nymSign sk nym rNym ipk digest ρ
        pure (sig, .nymSig o)
      | _ => .err "invalid key, expected *userSecretKey"
  | _ => .err "invalid options, expected *IdemixNymSignerOpts"

/-! ## Verification -/

/-- The last step of every verifier: an error of the scheme is returned with `false`. -/
def accepted (r : Res Unit) : Res Bool := do
  r
  pure true

/-- `CredentialRequestVerifier.Verify` (`cred.go:77-93`). -/
def credReqVerify (k : Key B) (signature _digest : Bytes) (opts : Option (SignerOpts B)) : Res Bool :=
  match k with
  | .issuerPk pk =>
    match opts with
    | some (.credReq _ nonce) =>
      match B.request with
      | none => .panic
      | some R => accepted (R.verify signature pk nonce)
    | _ => .err "invalid options, expected *IdemixCredentialRequestSignerOpts"
  | _ => .err "invalid key, expected *issuerPublicKey"

/-- `BlindCredentialRequestVerifier.Verify` (`cred.go:99-115`). -/
def blindReqVerify (k : Key B) (signature _digest : Bytes) (opts : Option (SignerOpts B)) : Res Bool :=
  match k with
  | .issuerPk pk =>
    match opts with
    | some (.blindReq _ nonce _) =>
      match B.blind with
      | none => .panic
      | some R => accepted (R.blindVerify signature pk nonce)
    | _ => .err "invalid options, expected *IdemixCredentialRequestSignerOpts"
  | _ => .err "invalid key, expected *issuerPublicKey"

/-- `CredentialVerifier.Verify` (`cred.go:143-169`). -/
def credentialVerify (k : Key B) (signature _digest : Bytes) (opts : Option (SignerOpts B)) : Res Bool :=
  match k with
  | .userSk sk _ =>
    match opts with
    | some (.cred attributes issuerPK) => do
      let ipk ← issuerPKOf issuerPK
      Res.guardErr (decide (signature.length = 0)) "invalid signature, it must not be empty"
      accepted (B.credVerify sk ipk signature attributes)
    | _ => .err "invalid options, expected *IdemixCredentialSignerOpts"
  | _ => .err "invalid key, expected *userSecretKey"

/-- `CriVerifier.Verify` (`revocation.go:228-252`). -/
def criVerify (k : Key B) (signature _digest : Bytes) (opts : Option (SignerOpts B)) : Res Bool :=
  match k with
  | .revPk pk =>
    match opts with
    | some (.cri epoch alg _) => do
      Res.guardErr (decide (signature.length = 0)) "invalid signature, it must not be empty"
      accepted (B.revVerify pk signature epoch alg)
    | _ => .err "invalid options, expected *IdemixCRISignerOpts"
  | _ => .err "invalid key, expected *revocationPublicKey"

/-- The revocation key in verification options (`signer.go:148-155`). -/
def revPKOf {B : Backend S} : Option (Key B) → Res (Option B.dsa.Pk)
  | none => .ok none
  | some (.revPk pk) => .ok (some pk)
  | some _ => .err "invalid options, expected *revocationPublicKey"

/-- `Verifier.Verify` (`signer.go:137-178`). -/
def verifierVerify (k : Key B) (signature digest : Bytes) (opts : Option (SignerOpts B)) : Res Bool :=
  match k with
  | .issuerPk pk =>
    match opts with
    | some (.sig o) => do
      let rpk ← revPKOf o.revocationPK
      Res.guardErr (decide (signature.length = 0)) "invalid signature, it must not be empty"
      accepted (B.verify pk signature digest o.attributes o.rhIndex o.eidIndex o.skIndex rpk o.epoch o.verType
        o.metadata)
    | _ => .err "invalid options, expected *IdemixSignerOpts"
  | _ => .err "invalid key, expected *issuerPublicKey"

/-- `Verifier.AuditNymEid` (`signer.go:75-104`). -/
def auditNymEid (k : Key B) (signature _digest : Bytes) (opts : Option (SignerOpts B)) : Res Bool :=
  match k with
  | .issuerPk pk =>
    match opts with
    | some (.eidAudit t index value r skIndex) => do
      Res.guardErr (decide (signature.length = 0)) "invalid signature, it must not be empty"
      accepted (B.auditEid pk index skIndex signature value r t)
    | _ => .err "invalid options, expected *EidNymAuditOpts"
  | _ => .err "invalid key, expected *issuerPublicKey"

/-- `Verifier.AuditNymRh` (`signer.go:106-135`). -/
def auditNymRh (k : Key B) (signature _digest : Bytes) (opts : Option (SignerOpts B)) : Res Bool :=
  match k with
  | .issuerPk pk =>
    match opts with
    | some (.rhAudit t index value r skIndex) => do
      Res.guardErr (decide (signature.length = 0)) "invalid signature, it must not be empty"
      accepted (B.auditRh pk index skIndex signature value r t)
    | _ => .err "invalid options, expected *RhNymAuditOpts"
  | _ => .err "invalid key, expected *issuerPublicKey"

/-- `NymVerifier.Verify` (`nymsigner.go:86-141`). -/
def nymVerifierVerify (k : Key B) (signature digest : Bytes) (opts : Option (SignerOpts B)) : Res Bool :=
  match k with
  | .nymPk nym =>
    match opts with
    | some (.nymSig o) => do
      let ipk ← issuerPKOf o.issuerPK
      Res.guardErr (decide (signature.length = 0)) "invalid signature, it must not be empty"
      if o.isSmartcard then
        match B.card, o.nymEid with
        | none, _ => .err "smartcard mode is unsupported"
        | some _, none => .err "nym eid missing"
        | some C, some nymEid => accepted (C.verify ipk nymEid signature digest)
      else accepted (B.nymVerify ipk nym signature digest o.skIndex)
    | _ => .err "invalid options, expected *IdemixNymSignerOpts"
  | _ => .err "invalid key, expected *nymPublicKey"

/-! ## The multiplexers of `bccsp.go` -/

/-- `userSecreKeySignerMultiplexer.Sign` (`bccsp.go:429-442`). -/
def userSign (k : Key B) (digest : Bytes) (opts : Option (SignerOpts B)) (ρ : B.Rnd) : Res (Bytes × SignerOpts B) :=
  match opts with
  | some (.sig _) => signerSign B k digest opts ρ
  | some (.nymSig _) => nymSignerSign B k digest opts ρ
  | some (.credReq _ _) => credReqSign B k digest opts ρ
  | some (.blindReq _ _ _) => blindReqSign B k digest opts ρ
  | _ => .err "invalid opts"

/-- `issuerPublicKeyVerifierMultiplexer.Verify` (`bccsp.go:450-465`). -/
def issuerVerify (k : Key B) (signature digest : Bytes) (opts : Option (SignerOpts B)) : Res Bool :=
  match opts with
  | some (.eidAudit ..) => auditNymEid B k signature digest opts
  | some (.rhAudit ..) => auditNymRh B k signature digest opts
  | some (.sig _) => verifierVerify B k signature digest opts
  | some (.credReq _ _) => credReqVerify B k signature digest opts
  | some (.blindReq _ _ _) => blindReqVerify B k signature digest opts
  | _ => .err "invalid opts"

end Idemix.Provider
