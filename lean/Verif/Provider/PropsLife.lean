import Verif.Provider.PropsVerify
import Verif.Tools.PropsGenAries
import Verif.Aries.PropsTypes

/-!
# C68: the life cycle of a credential at the interface of the provider

An issuer, a user, a revocation authority and a verifier have a provider each. They exchange byte strings only: exported
public keys, a request, a credential, revocation information, signatures. Concrete runs to which the theorems apply are in
`Verif/Provider/LifeExamples.lean`.
-/

namespace Idemix.Provider

open Dlog (SigType VerType SignerMetadata)

variable {S : Suite}

namespace Spec

/-- A party: its provider, with key store. -/
structure Party (B : Backend S) where
  σ : Type
  store : KeyStore B σ
  state : σ
  exportable : Bool

namespace Party

variable {B : Backend S} (p : Party B)

/-- `KeyGen`. -/
def gen (o : GenOpts) (ρ : B.Rnd) : Res (Key B) := (keyGen p.store (provider B p.exportable) p.state (some o) ρ).2

/-- `KeyDeriv`. -/
def derive (k : Key B) (o : DerivOpts B) (ρ : B.Rnd) : Res (Key B) :=
  (keyDeriv p.store (provider B p.exportable) p.state (some k) (some o) ρ).2

/-- `KeyImport`, of bytes. -/
def read (b : Bytes) (o : ImportOpts) : Res (Key B) :=
  (keyImport p.store (provider B p.exportable) p.state (some (.bytes b)) (some o)).2

/-- `Sign`. -/
def sign (k : Key B) (digest : Bytes) (o : SignerOpts B) (ρ : B.Rnd) : Res (Bytes × SignerOpts B) :=
  Provider.sign (provider B p.exportable) (some k) digest (some o) ρ

/-- `Verify`, with a check that the answer is true. -/
def accepts (k : Key B) (signature digest : Bytes) (o : SignerOpts B) : Res Unit :=
  match Provider.verify (provider B p.exportable) (some k) signature digest (some o) with
  | .ok true => .ok ()
  | _ => .err "not accepted"

end Party

/-- What the parties agree on: the attribute names, the nonce of the issuer, the attributes of the user and those that the
user compares with, the attributes shown, the positions of revocation handle and enrolment id and their values, the epoch,
the type of signature and verification. -/
structure Plan where
  names : List Bytes
  nonce : Bytes
  attributes : List IdemixAttribute
  compared : List IdemixAttribute
  shown : List IdemixAttribute
  rh : Nat
  eid : Nat
  rhValue : Bytes
  eidValue : Bytes
  epoch : Int
  sigType : SigType
  verType : VerType

/-- The randomness of each step. -/
structure Draws (B : Backend S) where
  issuer : B.Rnd
  user : B.Rnd
  request : B.Rnd
  cred : B.Rnd
  rev : B.Rnd
  cri : B.Rnd
  nym : B.Rnd
  sig : B.Rnd
  nymSig : B.Rnd

/-- What `Sign` wrote into the options. -/
def metadataOf {B : Backend S} : SignerOpts B → Option (SignerMetadata S)
  | .sig o => o.metadata
  | _ => none

/-- The audits of a signature by somebody who knows the openings: the enrolment id if the signature commits to it, and the
revocation handle. -/
def audits {B : Backend S} (p : Party B) (ipk : Key B) (sig : Bytes) (md : Option (SignerMetadata S)) (j : Plan) :
    Res Unit :=
  match j.sigType with
  | .standard => .ok ()
  | .eidNym => do
    let e ← Res.ofOption "no opening" (md.bind (·.eidNymAuditData))
    p.accepts ipk sig [] (.eidAudit .expectSignature j.eid j.eidValue (some e.rand) 0)
  | _ => do
    let e ← Res.ofOption "no opening" (md.bind (·.eidNymAuditData))
    p.accepts ipk sig [] (.eidAudit .expectSignature j.eid j.eidValue (some e.rand) 0)
    let h ← Res.ofOption "no opening" (md.bind (·.rhNymAuditData))
    p.accepts ipk sig [] (.rhAudit .expectSignature j.rh j.rhValue (some h.rand) 0)

/-- Issuance with the provider of `New`. -/
def issueDlog {B : Backend S} (issuer user : Party B) (j : Plan) (ρ : Draws B) (isk ipk usk : Key B) : Res Bytes := do
  let (request, _) ← user.sign usk [] (.credReq (some ipk) j.nonce) ρ.request
  let pk ← isk.publicKey
  issuer.accepts pk request [] (.credReq (some pk) j.nonce)
  let (cred, _) ← issuer.sign isk request (.cred j.attributes (some pk)) ρ.cred
  user.accepts usk cred [] (.cred j.compared (some ipk))
  pure cred

/-- What a blind request wrote into the options. -/
def blindingOf {B : Backend S} : SignerOpts B → Bytes
  | .blindReq _ _ b => b
  | _ => []

/-- Issuance with the provider of `NewAries`. The provider has no operation that unblinds a credential; the user calls
`CredRequest.Unblind` (`aries/credrequest.go:59-80`). -/
def issueAries {B : Backend S} (issuer user : Party B) (j : Plan) (ρ : Draws B) (isk ipk usk : Key B) : Res Bytes := do
  let (request, o) ← user.sign usk [] (.blindReq (some ipk) j.nonce []) ρ.request
  let pk ← isk.publicKey
  issuer.accepts pk request [] (.blindReq (some pk) j.nonce [])
  let (signed, _) ← issuer.sign isk request (.cred j.attributes (some pk)) ρ.cred
  let cred ← Aries.unblind S signed (blindingOf o)
  user.accepts usk cred [] (.cred j.compared (some ipk))
  pure cred

/-- The life cycle: the issuer makes and publishes its key; the user imports it, makes a secret and gets a credential; the
authority publishes its key and revocation information; the user makes a pseudonym, a signature and a pseudonym signature;
the verifier, who imports all keys, accepts both, the first with and without the openings, and can audit it. All keys are
temporary. -/
def lifeCycle (B : Backend S) (issue : (isk ipk usk : Key B) → Res Bytes) (issuer user authority verifier : Party B)
    (j : Plan) (ρ : Draws B) (msg msg' : Bytes) : Res Unit := do
  let isk ← issuer.gen (.issuer true j.names) ρ.issuer
  let pk ← isk.publicKey
  let published ← pk.bytes
  let ipk ← user.read published (.issuerPk true j.names 0 0 0 0)
  let usk ← user.gen (.user true) ρ.user
  let cred ← issue isk ipk usk
  let rsk ← authority.gen (.revocation true) ρ.rev
  let rpk ← rsk.publicKey
  let der ← rpk.bytes
  let (cri, _) ← authority.sign rsk [] (.cri j.epoch 0 []) ρ.cri
  let rpkU ← user.read (B.ec.pemEncode der) (.revPk true)
  user.accepts rpkU cri [] (.cri j.epoch 0 [])
  let nym ← user.derive usk (.nym true (some ipk)) ρ.nym
  let nymPk ← nym.publicKey
  let nymRaw ← nymPk.bytes
  let (sig, o) ← user.sign usk msg
    (.sig ⟨some nym, some ipk, cred, j.shown, j.rh, j.eid, 0, cri, 0, none, j.sigType, none, .bestEffort⟩) ρ.sig
  let (sig', _) ← user.sign usk msg' (.nymSig ⟨some nym, some ipk, false, none, none, none, none, 0⟩) ρ.nymSig
  let ipkV ← verifier.read published (.issuerPk true j.names 0 0 0 0)
  let rpkV ← verifier.read (B.ec.pemEncode der) (.revPk true)
  let nymV ← verifier.read nymRaw (.nymPk true)
  verifier.accepts ipkV sig msg
    (.sig ⟨none, none, [], j.shown, j.rh, j.eid, 0, [], j.epoch, some rpkV, .standard, none, j.verType⟩)
  verifier.accepts ipkV sig msg
    (.sig ⟨none, none, [], j.shown, j.rh, j.eid, 0, [], j.epoch, some rpkV, .standard, metadataOf o, j.verType⟩)
  audits verifier ipkV sig (metadataOf o) j
  verifier.accepts nymV sig' msg' (.nymSig ⟨none, some ipkV, false, none, none, none, none, 0⟩)

end Spec

open Spec

/-! ## Single steps -/

section Steps

variable {B : Backend S} (p : Party B)

theorem gen_issuer {names : List Bytes} {ρ : B.Rnd} {k : B.ISK} (h : B.newIssuerKey names ρ = .ok k) :
    p.gen (.issuer true names) ρ = .ok (.issuerSk k p.exportable) := by
  have : p.gen (.issuer true names) ρ =
    (keep p.store p.state true (issuerKeyGen B p.exportable (.issuer true names) ρ) "failed generating key").2 := rfl
  rw [this]
  simp [issuerKeyGen, h, keep]

theorem gen_user {ρ : B.Rnd} {k : S.F} (h : B.newUserKey ρ = .ok k) :
    p.gen (.user true) ρ = .ok (.userSk k p.exportable) := by
  have : p.gen (.user true) ρ =
    (keep p.store p.state true (userKeyGen B p.exportable (.user true) ρ) "failed generating key").2 := rfl
  rw [this]
  simp [userKeyGen, h, keep]

theorem gen_rev {ρ : B.Rnd} {k : B.dsa.Sk} (h : B.newRevKey ρ = .ok k) :
    p.gen (.revocation true) ρ = .ok (.revSk k p.exportable) := by
  have : p.gen (.revocation true) ρ =
    (keep p.store p.state true (revocationKeyGen B p.exportable (.revocation true) ρ) "failed generating key").2 := rfl
  rw [this]
  simp [revocationKeyGen, h, keep]

theorem derive_nym {ρ : B.Rnd} {sk r : S.F} {e : Bool} {nym : S.G1} {ipk : B.IPK} (h : B.makeNym sk ipk ρ = .ok (nym, r)) :
    p.derive (.userSk sk e) (.nym true (some (.issuerPk ipk))) ρ = .ok (newNymSecretKey B r nym p.exportable) := by
  have : p.derive (.userSk sk e) (.nym true (some (.issuerPk ipk))) ρ =
    (keep p.store p.state true (nymKeyDeriv B p.exportable (.userSk sk e) (.nym true (some (.issuerPk ipk))) ρ)
      "failed deriving key").2 := rfl
  rw [this]
  simp [nymKeyDeriv, issuerPKOf, h, keep]

theorem read_issuer {b : Bytes} {names : List Bytes} {k : Key B}
    (h : ∀ (σ : Type) (ks : KeyStore B σ) (s : σ),
      keyImport ks (provider B true) s (some (.bytes b)) (some (.issuerPk true names 0 0 0 0)) = (s, .ok k)) :
    p.read b (.issuerPk true names 0 0 0 0) = .ok k := by
  have : p.read b (.issuerPk true names 0 0 0 0) =
    (keyImport p.store (provider B true) p.state (some (.bytes b)) (some (.issuerPk true names 0 0 0 0))).2 := rfl
  rw [this, h]

theorem read_nym {b : Bytes} {k : Key B}
    (h : ∀ (σ : Type) (ks : KeyStore B σ) (s : σ),
      keyImport ks (provider B true) s (some (.bytes b)) (some (.nymPk true)) = (s, .ok k)) :
    p.read b (.nymPk true) = .ok k := by
  have : p.read b (.nymPk true) =
    (keyImport p.store (provider B true) p.state (some (.bytes b)) (some (.nymPk true))).2 := rfl
  rw [this, h]

theorem read_rev {der : Bytes} {pk : B.dsa.Pk} (h : B.ec.pkix pk = .ok der) :
    p.read (B.ec.pemEncode der) (.revPk true) = .ok (.revPk pk) := by
  have : p.read (B.ec.pemEncode der) (.revPk true) =
    (keyImport p.store (provider B true) p.state (some (.bytes (B.ec.pemEncode der))) (some (.revPk true))).2 := rfl
  rw [this, C52_revocation_public_partial pk der h]

theorem sign_of {k : Key B} {digest : Bytes} {o o' : SignerOpts B} {ρ : B.Rnd} {x : Bytes}
    (hn : ¬ NoHandler B (some o)) (h : signCall B digest ρ (some k) (some o) = some (.ok (x, o'))) :
    p.sign k digest o ρ = .ok (x, o') := by
  have h' := C46_sign_dispatch_partial (B := B) p.exportable (some k) digest (some o) ρ hn
  rw [h] at h'
  unfold Party.sign
  generalize Provider.sign _ _ _ _ _ = v at h' ⊢
  cases v with
  | ok y => simp only [Obeys, Agree] at h'; rw [h']
  | err e => simp [Obeys, Agree] at h'
  | panic => simp [Obeys, Agree] at h'

theorem accepts_of {k : Key B} {signature digest : Bytes} {o : SignerOpts B} (hn : ¬ NoHandler B (some o))
    (hne : signature ≠ []) (h : verifyCall B signature digest (some k) (some o) = some (.ok ())) :
    p.accepts k signature digest o = .ok () := by
  have h' := (C46_verify_dispatch_partial (B := B) p.exportable (some k) signature digest (some o) hn).2 hne
  rw [h] at h'
  unfold Party.accepts
  generalize Provider.verify _ _ _ _ _ = v at h' ⊢
  cases v with
  | ok y =>
    simp only [Obeys, Option.map_some, Res.ok_bind, Agree] at h'
    rw [h']
  | err e => simp [Obeys, Agree] at h'
  | panic => simp [Obeys, Agree] at h'

end Steps

/-- What a scheme has to provide for the life cycle to complete. -/
structure Completes (B : Backend S) (j : Plan) (ρ : Draws B) (msg msg' : Bytes) (isk : B.ISK) (ipk : B.IPK) (usk : S.F)
    (cred : Bytes) (rsk : B.dsa.Sk) (der cri : Bytes) (nym : S.G1) (r : S.F) (sig sig' : Bytes)
    (md : Option (SignerMetadata S)) : Prop where
  issuerKey : B.newIssuerKey j.names ρ.issuer = .ok isk
  issuerPk : B.iskPublic isk = .ok ipk
  publish : RoundTrips B (.issuerPk ipk) (.issuerPk true j.names 0 0 0 0)
  userKey : B.newUserKey ρ.user = .ok usk
  revKey : B.newRevKey ρ.rev = .ok rsk
  pkix : B.ec.pkix (B.dsa.pub rsk) = .ok der
  criMade : B.revSign rsk [] j.epoch 0 ρ.cri = .ok cri
  cri_ne : cri ≠ []
  criOk : B.revVerify (B.dsa.pub rsk) cri j.epoch 0 = .ok ()
  nymMade : B.makeNym usk ipk ρ.nym = .ok (nym, r)
  nymPk : RoundTrips B (.nymPk nym) (.nymPk true)
  sign : B.sign cred usk nym r ipk j.shown msg j.rh j.eid cri j.sigType none ρ.sig = .ok (sig, md)
  sig_ne : sig ≠ []
  verify : ∀ m, m = none ∨ m = md →
    B.verify ipk sig msg j.shown j.rh j.eid 0 (some (B.dsa.pub rsk)) j.epoch j.verType m = .ok ()
  type : j.sigType = .standard ∨ j.sigType = .eidNym ∨ j.sigType = .eidNymRhNym
  eid : j.sigType ≠ .standard → ∃ m e, md = some m ∧ m.eidNymAuditData = some e ∧
    B.auditEid ipk j.eid 0 sig j.eidValue (some e.rand) .expectSignature = .ok ()
  rh : j.sigType = .eidNymRhNym → ∃ m e, md = some m ∧ m.rhNymAuditData = some e ∧
    B.auditRh ipk j.rh 0 sig j.rhValue (some e.rand) .expectSignature = .ok ()
  nymSign : B.nymSign usk nym r ipk msg' ρ.nymSig = .ok sig'
  nymSig_ne : sig' ≠ []
  nymVerify : B.nymVerify ipk nym sig' msg' 0 = .ok ()

theorem lifeCycle_of {B : Backend S} {j : Plan} {ρ : Draws B} {msg msg' : Bytes} {isk : B.ISK} {ipk : B.IPK} {usk : S.F}
    {cred : Bytes} {rsk : B.dsa.Sk} {der cri : Bytes} {nym : S.G1} {r : S.F} {sig sig' : Bytes}
    {md : Option (SignerMetadata S)}
    (h : Completes B j ρ msg msg' isk ipk usk cred rsk der cri nym r sig sig' md)
    (issuer user authority verifier : Party B) (issue : (isk ipk usk : Key B) → Res Bytes)
    (hi : issue (.issuerSk isk issuer.exportable) (.issuerPk ipk) (.userSk usk user.exportable) = .ok cred) :
    lifeCycle B issue issuer user authority verifier j ρ msg msg' = .ok () := by
  obtain ⟨raw, k1, k2⟩ := h.publish
  obtain ⟨nraw, n1, n2⟩ := h.nymPk
  have p1 : (Key.issuerSk (B := B) isk issuer.exportable).publicKey = .ok (.issuerPk ipk) := by
    simp [Key.publicKey, h.issuerPk]
  have p2 : (Key.revSk (B := B) rsk authority.exportable).publicKey = .ok (.revPk (B.dsa.pub rsk)) := rfl
  have p3 : (Key.revPk (B := B) (B.dsa.pub rsk)).bytes = .ok der := h.pkix
  have p4 : (newNymSecretKey B r nym user.exportable).publicKey = .ok (.nymPk nym) := rfl
  have hs : ∀ o : SigOpts B, ¬ NoHandler B (some (.sig o)) := fun o => by simp [NoHandler]
  have hns : ∀ o : NymSigOpts B, ¬ NoHandler B (some (.nymSig o)) := fun o => by simp [NoHandler]
  have s1 := sign_of (p := authority) (k := .revSk rsk authority.exportable) (digest := []) (o := .cri j.epoch 0 [])
    (ρ := ρ.cri) (x := cri) (o' := .cri j.epoch 0 []) (by simp [NoHandler]) (by simp [signCall, h.criMade])
  have s2 := accepts_of (p := user) (k := .revPk (B.dsa.pub rsk)) (signature := cri) (digest := [])
    (o := .cri j.epoch 0 []) (by simp [NoHandler]) h.cri_ne (by simp [verifyCall, h.criOk])
  have s3 := sign_of (p := user) (k := .userSk usk user.exportable) (digest := msg)
    (o := .sig ⟨some (newNymSecretKey B r nym user.exportable), some (.issuerPk ipk), cred, j.shown, j.rh, j.eid, 0, cri, 0,
      none, j.sigType, none, .bestEffort⟩) (ρ := ρ.sig) (x := sig)
    (o' := .sig ⟨some (newNymSecretKey B r nym user.exportable), some (.issuerPk ipk), cred, j.shown, j.rh, j.eid, 0, cri, 0,
      none, j.sigType, md, .bestEffort⟩) (hs _) (by simp [signCall, newNymSecretKey, h.sign])
  have s4 := sign_of (p := user) (k := .userSk usk user.exportable) (digest := msg')
    (o := .nymSig ⟨some (newNymSecretKey B r nym user.exportable), some (.issuerPk ipk), false, none, none, none, none, 0⟩)
    (ρ := ρ.nymSig) (x := sig')
    (o' := .nymSig ⟨some (newNymSecretKey B r nym user.exportable), some (.issuerPk ipk), false, none, none, none, none, 0⟩)
    (hns _) (by simp [signCall, newNymSecretKey, h.nymSign])
  have s5 : ∀ m, m = none ∨ m = md → verifier.accepts (.issuerPk ipk) sig msg
      (.sig ⟨none, none, [], j.shown, j.rh, j.eid, 0, [], j.epoch, some (.revPk (B.dsa.pub rsk)), .standard, m, j.verType⟩) =
      .ok () := fun m hm =>
    accepts_of (p := verifier) (k := .issuerPk ipk) (signature := sig) (digest := msg) (hs _) h.sig_ne
      (by simp [verifyCall, h.verify m hm])
  have s6 := accepts_of (p := verifier) (k := .nymPk nym) (signature := sig') (digest := msg')
    (o := .nymSig ⟨none, some (.issuerPk ipk), false, none, none, none, none, 0⟩) (hns _) h.nymSig_ne
    (by simp [verifyCall, h.nymVerify])
  have s7 : audits verifier (.issuerPk ipk) sig md j = .ok () := by
    have e1 : j.sigType ≠ .standard → ∃ m e, md = some m ∧ m.eidNymAuditData = some e ∧
        verifier.accepts (.issuerPk ipk) sig [] (.eidAudit .expectSignature j.eid j.eidValue (some e.rand) 0) = .ok () := by
      intro ht
      obtain ⟨m, e, g1, g2, g3⟩ := h.eid ht
      exact ⟨m, e, g1, g2, accepts_of (p := verifier) (by simp [NoHandler]) h.sig_ne (by simp [verifyCall, g3])⟩
    have e2 : j.sigType = .eidNymRhNym → ∃ m e, md = some m ∧ m.rhNymAuditData = some e ∧
        verifier.accepts (.issuerPk ipk) sig [] (.rhAudit .expectSignature j.rh j.rhValue (some e.rand) 0) = .ok () := by
      intro ht
      obtain ⟨m, e, g1, g2, g3⟩ := h.rh ht
      exact ⟨m, e, g1, g2, accepts_of (p := verifier) (by simp [NoHandler]) h.sig_ne (by simp [verifyCall, g3])⟩
    unfold audits
    rcases h.type with ht | ht | ht <;> rw [ht]
    · obtain ⟨m, e, g1, g2, g3⟩ := e1 (by simp [ht])
      simp [g1, g2, g3]
    · obtain ⟨m, e, g1, g2, g3⟩ := e1 (by simp [ht])
      obtain ⟨m', e', g1', g2', g3'⟩ := e2 ht
      rw [g1] at g1'
      cases g1'
      simp [g1, g2, g3, g2', g3']
  simp only [lifeCycle, gen_issuer issuer h.issuerKey, Res.ok_bind, p1, k1, read_issuer user k2, gen_user user h.userKey, hi,
    gen_rev authority h.revKey, p2, p3, s1, read_rev user h.pkix, s2, derive_nym user h.nymMade, p4, n1, s3, s4,
    read_issuer verifier k2, read_rev verifier h.pkix, read_nym verifier n2, s5 none (.inl rfl), metadataOf,
    s5 md (.inr rfl), s7, s6]

/-! ## The provider of `New` -/

/-- Signing at the bridge: what is produced verifies with and without the metadata, and passes the audits. -/
theorem dlog_signs (E : Dlog.Env S) (rawCred rawCri : Bytes) (cred : Dlog.Credential) (cri : Dlog.CRI)
    (hcred : Dlog.Wire.credCodec.unmarshal rawCred = .ok cred) (hcri : Dlog.Wire.criCodec.unmarshal rawCri = .ok cri)
    (ipk : Dlog.IssuerPublicKey) (sk : S.F) (nym : S.G1) (rNym : S.F) (shown : List IdemixAttribute)
    (hshown : ∀ (i : Nat) (a : IdemixAttribute), shown[i]? = some a → Dlog.Spec.Hidden a ∨
      ∃ x : S.F, Dlog.Spec.Denotes S a x ∧ cred.attrs[i]?.map S.zrOfBytes = some x)
    (msg : Bytes) (rh eid : Nat) (ρ : Dlog.SigRand S)
    (h : Dlog.HonestSigner E.T cred ipk sk nym rNym (Dlog.disclosureOf shown) rh cri)
    (htape : ρ.rAttrs.length = (Dlog.disclosureOf shown).count 0) (hblind : ρ.r1 ≠ 0) (st : SigType)
    (vt : VerType) (hm : Dlog.Spec.Matching st vt)
    (heid : st ≠ .standard → (Dlog.disclosureOf shown)[eid]? = some 0) (revPk : Option E.dsa.Pk) (epoch : Int) :
    ∃ raw md, E.sign rawCred (some sk) (some nym) (some rNym) (.val ipk) shown msg rh eid rawCri ρ st none =
        .ok (raw, md) ∧
      (∀ m, m = none ∨ m = md → E.verify (.val ipk) raw msg shown rh eid revPk epoch vt m = .ok ()) ∧
      (st ≠ .standard → ∀ v, cred.attrs[eid]?.map S.zrOfBytes = some (S.hashToZr v) →
        ∃ m e, md = some m ∧ m.eidNymAuditData = some e ∧
          E.auditNymEid (.val ipk) eid raw v (some e.rand) .expectSignature = .ok ()) ∧
      (st = .eidNymRhNym → ∀ v, cred.attrs[rh]?.map S.zrOfBytes = some (S.hashToZr v) →
        ∃ m e, md = some m ∧ m.rhNymAuditData = some e ∧
          E.auditNymRh (.val ipk) rh raw v (some e.rand) .expectSignature = .ok ()) := by
  obtain ⟨raw, md, h1, h2⟩ := Dlog.C09_bridge_honest_signature E rawCred rawCri cred cri hcred hcri ipk sk nym rNym shown
    hshown msg rh eid ρ h htape hblind st vt hm (fun hs => ⟨by omega, by simpa using heid hs⟩) revPk epoch
  have h1' := h1
  simp only [Dlog.Env.sign, Res.recovered_eq_ok, Res.deref_some, Dyn.get_val, Res.ok_bind, hcred, hcri, Res.bind_eq_ok,
    Res.pure_def, Res.ok.injEq, Prod.mk.injEq, Dlog.sig_marshal] at h1'
  obtain ⟨⟨sig, md0⟩, hs, hr, rfl⟩ := h1'
  have hw := Dlog.newSignature_wire (Dlog.cri_unmarshal_wire hcri).1 hs
  have hu := Dlog.Wire.sigCodec.rt sig _ hw (Dlog.sig_marshal sig)
  rw [hr] at hu
  by_cases hst : st = .standard
  · subst hst
    have hmd : md0 = none := by
      simp only [Dlog.newSignature, Res.bind_eq_ok] at hs
      obtain ⟨p, -, hs⟩ := hs
      simp only [Dlog.finalise, Res.bind_eq_ok, Res.pure_def, Res.ok.injEq, Prod.mk.injEq, Dlog.SigType.hasEid,
        Dlog.optional] at hs
      obtain ⟨e, he, _, -, _, -, _, -, _, -, _, -, _, -, -, rfl⟩ := hs
      simp at he
      rw [← he]; rfl
    subst hmd
    exact ⟨_, none, h1, fun m hm => by rcases hm with rfl | rfl <;> exact h2, fun h => absurd rfl h, by simp⟩
  · obtain ⟨m, rfl, ⟨ad, a, e1, e2, e3, e4⟩, e5, e6⟩ := Dlog.C16_returned_metadata_consistent E.T cred ipk sk nym rNym _ msg rh
      eid cri ρ h htape hblind st hst none md0 sig hs
    refine ⟨_, some m, h1, ?_, ?_, ?_⟩
    · rintro m' (rfl | rfl)
      · exact h2
      · obtain ⟨values, hv, hsup⟩ := Dlog.shown_values hshown
        simp only [Dlog.Env.verify, Res.recovered_eq_ok, Dyn.get_val, Res.ok_bind, hu, hv]
        exact e6 vt hm values hsup revPk epoch
    · intro _ v hv
      refine ⟨m, ad, rfl, e1, (Dlog.C15_bridge_audit_eid E ipk eid _ v ad.rand).1.mpr ⟨sig, hu, ?_⟩⟩
      simp only [Int.toNat_natCast] at e2
      rw [e2, Option.map_some, Option.some.injEq] at hv
      rw [← hv]
      exact e4
    · intro hrh v hv
      obtain ⟨ad', a', f1, f2, f3, f4⟩ := e5 hrh
      refine ⟨m, ad', rfl, f1, (Dlog.C15_bridge_audit_rh E ipk rh _ v ad'.rand).1.mpr ⟨sig, hu, ?_⟩⟩
      simp only [Int.toNat_natCast] at f2
      rw [f2, Option.map_some, Option.some.injEq] at hv
      rw [← hv]
      exact f4

/-- What the bridge issues, taken apart. -/
theorem dlog_issued (E : Dlog.Env S) {key : Dlog.IssuerKey} {rawReq rawCred : Bytes} {attributes : List IdemixAttribute}
    {values : List S.F} (hden : List.Forall₂ (Dlog.Spec.Denotes S) attributes values) {e s : S.F}
    (h : E.credSign (.val key) rawReq attributes e s = .ok rawCred) :
    ∃ cred, Dlog.Wire.credCodec.unmarshal rawCred = .ok cred ∧ cred.attrs = values.map S.zrBytes ∧
      S.zrOfBytes cred.s = s := by
  have hm : Res.mapM' (Dlog.signAttr S) attributes = .ok values :=
    Res.mapM'_eq_ok.mpr (hden.imp fun a b hab => Dlog.signAttr_ok.mpr hab)
  simp only [Dlog.Env.credSign, Res.recovered_eq_ok, Dyn.get_val, Res.ok_bind, Res.bind_eq_ok, hm, Res.ok.injEq,
    Dlog.cred_marshal] at h
  obtain ⟨req, -, cred, h3, rfl⟩ := h
  obtain ⟨-, -, h7⟩ := Dlog.C07_issuer_refuses_bad_requests E.T key req _ e s cred h3
  refine ⟨cred, Dlog.Wire.credCodec.rt _ _ trivial (Dlog.cred_marshal cred), h7, ?_⟩
  simp only [Dlog.newCredential, Res.bind_eq_ok, Res.pure_def, Res.ok.injEq] at h3
  obtain ⟨_, -, _, -, _, -, _, -, _, -, _, -, rfl⟩ := h3
  simp

namespace Spec

/-- A plan that makes sense: names differ and are UTF-8; there is one attribute for each name, and its value is the
scalar in `values`; the user compares with, and shows, attributes of the credential or nothing; it shows neither the
revocation handle nor the enrolment id, if the signature commits to it; what is audited is what the issuer certified; the
verification is one for the type of signature. -/
structure DlogPlan (S : Suite) (j : Plan) (values : List S.F) : Prop where
  nodup : j.names.Nodup
  utf8 : ∀ n ∈ j.names, Proto.utf8Valid n = true
  nonce : j.nonce.length = S.scalarLen
  denotes : List.Forall₂ (Dlog.Spec.Denotes S) j.attributes values
  complete : j.attributes.length = j.names.length
  compared : ∀ (i : Nat) (a : IdemixAttribute), j.compared[i]? = some a → a.type = 0 ∨ j.attributes[i]? = some a
  shown : ∀ (i : Nat) (a : IdemixAttribute), j.shown[i]? = some a → a.type = 0 ∨ j.attributes[i]? = some a
  all : j.shown.length = j.names.length
  rh : ∃ a, j.shown[j.rh]? = some a ∧ a.type = 0
  eid : j.sigType ≠ .standard → ∃ a, j.shown[j.eid]? = some a ∧ a.type = 0
  eidValue : j.sigType ≠ .standard → j.attributes[j.eid]? = some ⟨1, .bytes j.eidValue⟩
  rhValue : j.sigType = .eidNymRhNym → j.attributes[j.rh]? = some ⟨1, .bytes j.rhValue⟩
  type : Dlog.Spec.Matching j.sigType j.verType
  epoch : Proto.Int64 j.epoch

/-- The draws for which the life cycle completes, all but a negligible fraction: no inversion of zero, no signature of the
neutral element, and samples for as many attributes as there are. -/
structure DlogDraws {E : Dlog.Env S} {ec : EcKeys E.dsa} (j : Plan) (values : List S.F) (ρ : Draws (dlogBackend E ec)) :
    Prop where
  attrs : ρ.issuer.issuer.attrs.length = j.names.length
  bar : ρ.issuer.issuer.barG1 ≠ 0
  inv : ρ.issuer.issuer.isk + ρ.cred.credE ≠ 0
  point : 1 + ρ.user.scalar * ρ.issuer.issuer.hSk + ρ.cred.credS * ρ.issuer.issuer.hRand +
    (List.zipWith (· * ·) values ρ.issuer.issuer.attrs).sum ≠ 0
  masks : ρ.sig.sig.rAttrs.length = (j.shown.filter fun a => a.type = 0).length
  blinding : ρ.sig.sig.r1 ≠ 0

end Spec

theorem count_hidden (l : List IdemixAttribute) :
    (Dlog.disclosureOf l).count 0 = (l.filter fun a => a.type = 0).length := by
  induction l with
  | nil => rfl
  | cons a l ih =>
    simp only [Dlog.disclosureOf, List.map_cons] at ih ⊢
    by_cases h : a.type = 0 <;> simp [h, ih]

theorem hidden_byte {l : List IdemixAttribute} {i : Nat} (h : ∃ a, l[i]? = some a ∧ a.type = 0) :
    (Dlog.disclosureOf l)[i]? = some 0 := by
  obtain ⟨a, h1, h2⟩ := h
  simp [Dlog.disclosureOf, h1, h2]

/-- C68, provider of `New`. For every plan that makes sense, every draw but a negligible fraction, every state of the key
stores, all messages: the life cycle completes. -/
theorem C68_dlog_life_cycle (E : Dlog.Env S) (ec : EcKeys E.dsa) (issuer user authority verifier : Party (dlogBackend E ec))
    (j : Plan) (values : List S.F) (hj : DlogPlan S j values) (ρ : Draws (dlogBackend E ec)) (hρ : DlogDraws j values ρ)
    (msg msg' : Bytes) (rsk : E.dsa.Sk) (hrsk : ec.gen ρ.rev.dsa = .ok rsk) (der : Bytes)
    (hder : ec.pkix (E.dsa.pub rsk) = .ok der) (hsign : ∀ d, ∃ s, E.dsa.sign rsk ρ.cri.dsa d = .ok s)
    (hnym : ∀ nym : S.G1, RoundTrips (dlogBackend E ec) (.nymPk nym) (.nymPk true)) :
    lifeCycle (dlogBackend E ec) (issueDlog issuer user j ρ) issuer user authority verifier j ρ msg msg' = .ok () := by
  obtain ⟨key, rawReq, rawCred, i1, i2, i3, i4, i5⟩ := Dlog.C06_bridge_issuance E j.names ρ.issuer.issuer hj.nodup hj.utf8
    hρ.attrs ρ.user.scalar ρ.request.scalar j.nonce hj.nonce j.attributes values hj.denotes hj.complete ρ.cred.credE
    ρ.cred.credS hρ.inv j.compared hj.compared
  obtain ⟨cred, c1, c2, c3⟩ := dlog_issued E hj.denotes i4
  obtain ⟨cred', c4, hver, -⟩ := (Dlog.C08_bridge_attributes E _ _ _ _).mp i5
  rw [c1] at c4
  cases c4
  have hnk : (dlogBackend E ec).newIssuerKey j.names ρ.issuer = .ok (.val key) := by
    change (_ >>= _) = _
    rw [i1]; rfl
  obtain ⟨isk', ipk', q1, q2, -, -, q3⟩ := C52_dlog_issuer E ec j.names ρ.issuer hj.nodup hj.utf8 hρ.attrs hρ.bar
  rw [hnk] at q1
  cases q1
  have hpk : (dlogBackend E ec).iskPublic (.val key) = .ok (.val key.ipk) := rfl
  rw [hpk] at q2
  cases q2
  obtain ⟨hreads, hnames⟩ := Gen.reads_new (show Dlog.newIssuerKey E.T Dlog.Wire.ipkCodec.marshal j.names ρ.issuer.issuer =
    .ok key by simpa [Dlog.Env.newKey] using i1)
  have hvals : cred.attrs.map S.zrOfBytes = values := by rw [c2]; simp [Function.comp_def]
  have hnt := Gen.cred_nontrivial hreads hver c3 hvals hρ.point
  have hcl : cred.attrs.length = j.names.length := by
    rw [c2, List.length_map, ← hj.denotes.length_eq, hj.complete]
  have hden : ∀ (i : Nat) (a : IdemixAttribute), j.attributes[i]? = some a →
      ∃ x : S.F, Dlog.Spec.Denotes S a x ∧ cred.attrs[i]?.map S.zrOfBytes = some x := by
    intro i a ha
    obtain ⟨hi, hia⟩ := List.getElem?_eq_some_iff.mp ha
    have hi' : i < values.length := by rw [← hj.denotes.length_eq]; exact hi
    have := (List.forall₂_iff_get.mp hj.denotes).2 i hi hi'
    exact ⟨values[i], by simpa [hia] using this, by simp [c2, hi']⟩
  obtain ⟨rawCri, r1⟩ := Dlog.C20_dlog_sign_succeeds E rsk j.epoch ρ.cri.wbb ρ.cri.dsa hsign
  obtain ⟨⟨cri, r2, r3, r4⟩, r5⟩ := Dlog.C20_dlog_signed_verifies E rsk j.epoch 0 hj.epoch ρ.cri.wbb ρ.cri.dsa rawCri r1
  have hcri_ne : rawCri ≠ [] := by
    rintro rfl
    have e : Dlog.Wire.criCodec.unmarshal [] = .ok ⟨0, none, [], 0, []⟩ := rfl
    simp [Dlog.Env.revVerify, Dlog.Env.verifyEpochPK, e] at r5
  have hkey : ∃ P, E.T.g2FromProto cri.epochPk = .ok P := by
    have r1' := r1
    simp only [Dlog.Env.revSign, Dlog.Env.createCRI, Res.recovered_eq_ok, Res.bind_eq_ok, Res.ofOption_some, Res.ok_bind,
      Dlog.criBody, Dlog.cri_marshal, Res.ok.injEq, if_true, Res.pure_def] at r1'
    obtain ⟨cri', ⟨sg, -, e2⟩, e3⟩ := r1'
    have hw : cri'.Wire := by rw [← e2]; exact ⟨hj.epoch, by simp [Proto.Int32]⟩
    have hu := Dlog.Wire.criCodec.rt cri' _ hw (Dlog.cri_marshal cri')
    rw [e3, r2] at hu
    cases hu
    rw [← e2]
    exact ⟨_, E.T.g2_rt _⟩
  obtain ⟨nym, hnym1⟩ : ∃ nym, Dlog.makeNym E.T ρ.user.scalar key.ipk ρ.nym.scalar = .ok (nym, ρ.nym.scalar) :=
    ⟨_, by simp only [Dlog.makeNym, hreads.hSk, hreads.hRand, Res.ok_bind, Res.pure_def]; rfl⟩
  have hnym2 : E.makeNym (some ρ.user.scalar) (.val key.ipk) ρ.nym.scalar = .ok (nym, ρ.nym.scalar) := by
    simp [Dlog.Env.makeNym, hnym1]
  have honest : Dlog.HonestSigner E.T cred key.ipk ρ.user.scalar nym ρ.nym.scalar (Dlog.disclosureOf j.shown) j.rh cri :=
    ⟨hver, hnt, hnym1, by rw [hcl, hnames], by rw [hnames]; simpa [Dlog.disclosureOf] using hj.all,
      ⟨by omega, by simpa using hidden_byte hj.rh⟩, r4, hkey⟩
  obtain ⟨sig, md, s1, s2, s3, s4⟩ := dlog_signs E rawCred rawCri cred cri c1 r2 key.ipk ρ.user.scalar nym ρ.nym.scalar
    j.shown (fun i a ha => (hj.shown i a ha).imp id (hden i a)) msg j.rh j.eid ρ.sig.sig honest
    (by rw [count_hidden]; exact hρ.masks) hρ.blinding j.sigType j.verType hj.type (fun h => hidden_byte (hj.eid h))
    (some (E.dsa.pub rsk)) j.epoch
  obtain ⟨sig', n1, n2⟩ := Dlog.C17_bridge_nym_signature E key.ipk ρ.user.scalar ρ.nym.scalar ρ.nym.scalar nym hnym2 msg'
    ρ.nymSig.nymSig
  have hat : ∀ (i : Nat) (v : Bytes), j.attributes[i]? = some ⟨1, .bytes v⟩ →
      cred.attrs[i]?.map S.zrOfBytes = some (S.hashToZr v) := by
    intro i v h
    obtain ⟨x, d, e⟩ := hden i _ h
    cases d
    exact e
  refine lifeCycle_of (B := dlogBackend E ec) (isk := .val key) (ipk := .val key.ipk) (usk := ρ.user.scalar) (cred := rawCred) (rsk := rsk)
    (der := der) (cri := rawCri) (nym := nym) (r := ρ.nym.scalar) (sig := sig) (sig' := sig') (md := md)
    ⟨hnk, rfl, q3, rfl, hrsk, hder, r1, hcri_ne, r5, hnym2, hnym nym, s1, ?_, s2, hj.type.sigType,
      fun h => s3 h _ (hat _ _ (hj.eidValue h)), fun h => s4 h _ (hat _ _ (hj.rhValue h)), n1,
      Msp.nymSign_ne_nil hnym2 n1, n2⟩ issuer user authority verifier _ ?_
  · rintro rfl
    have := s2 none (.inl rfl)
    have e : Dlog.Wire.sigCodec.unmarshal [] = .ok ⟨none, none, none, [], [], [], [], [], [], [], [], none, [], none, [], 0,
      none, none, none⟩ := rfl
    simp only [Dlog.Env.verify, Res.recovered_eq_ok, Dyn.get_val, Res.ok_bind, e, Res.bind_eq_ok, Dlog.Signature.ver] at this
    obtain ⟨_, -, _, -, _, -, _, h, -⟩ := this
    cases h
  · have hreq_ne : rawReq ≠ [] := by
      rintro rfl
      obtain ⟨req, h1, h2, h3, -⟩ := (Dlog.C04_bridge_request_nonce E _ _ _).mp i3
      have e : Dlog.Wire.reqCodec.unmarshal [] = .ok ⟨none, none, [], []⟩ := rfl
      rw [e] at h1
      cases h1
      cases h3
    have hcred_ne : rawCred ≠ [] := by
      rintro rfl
      have e : Dlog.Wire.credCodec.unmarshal [] = .ok ⟨none, none, [], [], []⟩ := rfl
      rw [e] at c1
      cases c1
      obtain ⟨a, h1, -⟩ := hj.rh
      obtain ⟨h2, -⟩ := List.getElem?_eq_some_iff.mp h1
      rw [hj.all, ← hcl] at h2
      exact absurd h2 (Nat.not_lt_zero _)
    have t1 := sign_of (p := user) (k := .userSk ρ.user.scalar user.exportable) (digest := [])
      (o := .credReq (some (.issuerPk (.val key.ipk))) j.nonce) (ρ := ρ.request) (x := rawReq)
      (o' := .credReq (some (.issuerPk (.val key.ipk))) j.nonce) (by simp [NoHandler, dlogBackend])
      (by simp [signCall, dlogBackend, i2])
    have t2 := accepts_of (p := issuer) (k := .issuerPk (.val key.ipk)) (signature := rawReq) (digest := [])
      (o := .credReq (some (.issuerPk (.val key.ipk))) j.nonce) (by simp [NoHandler, dlogBackend]) hreq_ne
      (by simp [verifyCall, dlogBackend, i3])
    have t3 := sign_of (p := issuer) (k := .issuerSk (.val key) issuer.exportable) (digest := rawReq)
      (o := .cred j.attributes (some (.issuerPk (.val key.ipk)))) (ρ := ρ.cred) (x := rawCred)
      (o' := .cred j.attributes (some (.issuerPk (.val key.ipk)))) (by simp [NoHandler])
      (by simp [signCall, dlogBackend, i4])
    have t4 := accepts_of (p := user) (k := .userSk ρ.user.scalar user.exportable) (signature := rawCred) (digest := [])
      (o := .cred j.compared (some (.issuerPk (.val key.ipk)))) (by simp [NoHandler]) hcred_ne
      (by simp [verifyCall, dlogBackend, i5])
    have t5 : (Key.issuerSk (B := dlogBackend E ec) (.val key) issuer.exportable).publicKey =
      .ok (.issuerPk (.val key.ipk)) := rfl
    simp only [issueDlog, t1, t2, t3, t4, t5, Res.ok_bind, Res.pure_def]

/-! ## The provider of `NewAries` -/

namespace Spec

/-- A plan that makes sense for the aries scheme. There is at least one name, and fewer than 65535; there is one attribute
for each name, with the scalar in `values`; the user compares with, and shows, attributes of the credential or nothing; the
positions of revocation handle and enrolment id exist, and these are not shown if the signature commits to them; what is
audited is what the issuer certified; the verification is one for the type of signature. -/
structure AriesPlan (L : Bbs.Lib S) (j : Plan) (values : List S.F) : Prop where
  some_name : 0 < j.names.length
  names : j.names.length < 65535
  encodes : List.Forall₂ (Aries.Spec.Encodes L) j.attributes values
  complete : j.attributes.length = j.names.length
  compared : ∀ (i : Nat) (a : IdemixAttribute), j.compared[i]? = some a → a.type = 0 ∨ j.attributes[i]? = some a
  allCompared : j.compared.length = j.names.length
  shown : ∀ (i : Nat) (a : IdemixAttribute), j.shown[i]? = some a → a.type = 0 ∨ j.attributes[i]? = some a
  all : j.shown.length = j.names.length
  rhIndex : j.rh < j.names.length
  eidIndex : j.eid < j.names.length
  rh : j.sigType = .eidNymRhNym → ∃ a, j.shown[j.rh]? = some a ∧ a.type = 0
  eid : j.sigType ≠ .standard → ∃ a, j.shown[j.eid]? = some a ∧ a.type = 0
  eidValue : j.sigType ≠ .standard → j.attributes[j.eid]? = some ⟨1, .bytes j.eidValue⟩
  rhValue : j.sigType = .eidNymRhNym → j.attributes[j.rh]? = some ⟨1, .bytes j.rhValue⟩
  type : Dlog.Spec.Matching j.sigType j.verType
  epoch : Proto.Int64 j.epoch

/-- The draws for which the life cycle completes, all but a negligible fraction; `okm` is what the issuer's seed expands to.
If the signature commits to attributes then the generators differ, and the blinded element of the signature is none of
them. -/
structure AriesDraws {L : Bbs.Lib S} {T : Translator S} {dsa : Ecdsa} {ec : EcKeys dsa} (j : Plan) (values : List S.F)
    (ρ : Draws (ariesBackend L T dsa ec)) (okm : Bytes) : Prop where
  seed : ρ.issuer.seed.length = 32
  expand : L.hkdf (ρ.issuer.seed ++ [0]) S.scalarLen = .ok okm
  inv : Bbs.frFromOKM L okm + ρ.cred.credE ≠ 0
  blinding : ρ.sig.sig.pok.r1 ≠ 0
  apart : j.sigType ≠ .standard → ∀ w h0 h, w = Bbs.frFromOKM L okm • S.genG2 →
    h0 = Bbs.Spec.generator w (j.names.length + 1) 0 → h = Bbs.Spec.generators w (j.names.length + 1) →
    (h0 :: h).Nodup ∧
      ρ.sig.sig.pok.r1 • (S.genG1 + (ρ.cred.credS + ρ.request.scalar) • h0 +
        (List.zipWith (· • ·) (ρ.user.scalar :: values) h).sum) - ρ.sig.sig.pok.r2 • h0 ∉ h

end Spec

/-- Attributes of which some are left out agree with the values. -/
theorem agrees_of {L : Bbs.Lib S} {attributes supplied : List IdemixAttribute} {values : List S.F}
    (h : List.Forall₂ (Aries.Spec.Encodes L) attributes values) (hl : supplied.length = attributes.length)
    (hs : ∀ (i : Nat) (a : IdemixAttribute), supplied[i]? = some a → a.type = 0 ∨ attributes[i]? = some a) :
    List.Forall₂ (Aries.Spec.Agrees L) supplied values := by
  rw [List.forall₂_iff_get] at h ⊢
  refine ⟨hl.trans h.1, fun i h1 h2 ht => ?_⟩
  rcases hs i _ (List.getElem?_eq_getElem h1) with h0 | h0
  · simp only [List.get_eq_getElem, h0] at ht
    rcases ht with ht | ht <;> cases ht
  · obtain ⟨hi, e⟩ := List.getElem?_eq_some_iff.mp h0
    have := h.2 i hi h2
    simpa [e] using this

/-- C68, provider of `NewAries`. For every plan that makes sense, every draw but a negligible fraction, every state of the
key stores, all messages: the life cycle completes. -/
theorem C68_aries_life_cycle (h32 : S.scalarLen = 32) (hg : S.g1CompLen < 2 ^ 31) (hg1 : 0 < S.g1Len) (L : Bbs.Lib S)
    (T : Translator S) (dsa : Ecdsa) (ec : EcKeys dsa) (issuer user authority verifier : Party (ariesBackend L T dsa ec))
    (j : Plan) (values : List S.F) (hj : AriesPlan L j values) (ρ : Draws (ariesBackend L T dsa ec)) (okm : Bytes)
    (hρ : AriesDraws j values ρ okm) (msg msg' : Bytes) (rsk : dsa.Sk) (hrsk : ec.gen ρ.rev.dsa = .ok rsk) (der : Bytes)
    (hder : ec.pkix (dsa.pub rsk) = .ok der) (hsign : ∀ d, ∃ s, dsa.sign rsk ρ.cri.dsa d = .ok s)
    (hnym : ∀ nym : S.G1, RoundTrips (ariesBackend L T dsa ec) (.nymPk nym) (.nymPk true)) :
    lifeCycle (ariesBackend L T dsa ec) (issueAries issuer user j ρ) issuer user authority verifier j ρ msg msg' =
      .ok () := by
  set x := Bbs.frFromOKM L okm with hxdef
  obtain ⟨n, hn⟩ : ∃ n, j.names.length = n := ⟨_, rfl⟩
  have hn0 := hj.some_name
  have hn1 := hj.names
  rw [hn] at hn0 hn1
  set w := Bbs.publicKey x with hw
  set ipk := Aries.ipkFor w n with hipk
  have hkey : Aries.newKey L j.names ρ.issuer.seed = .ok ⟨ipk, x⟩ := by
    have e : Bbs.toPKG w ((n : Int) + 1) = .ok (Bbs.pkg w (n + 1)) := Aries.toPKG_names _ _ (by omega)
    have hp : Bbs.generateKeyPair L (some ρ.issuer.seed) [] = .ok (w, x) := by
      simp [Bbs.generateKeyPair, Bbs.generateOKM, hρ.expand, hρ.seed, Bbs.frLen, hxdef, hw]
    simp only [Aries.newKey, hp, Res.ok_bind, hn, Res.pure_def, e]
    rfl
  have hisKey : Aries.Spec.IsKey ipk w n := (Aries.isKey_iff _ _ _).mpr rfl
  have hnk : (ariesBackend L T dsa ec).newIssuerKey j.names ρ.issuer = .ok (.val ⟨ipk, x⟩) := by
    change (_ >>= _) = _
    rw [hkey]; rfl
  obtain ⟨ipk', q1, -, q2⟩ := C52_aries_issuer L T dsa ec h32 j.names (by omega) ρ.issuer _ hnk
  have hpk : (ariesBackend L T dsa ec).iskPublic (.val ⟨ipk, x⟩) = .ok (.val ipk) := rfl
  rw [hpk] at q1
  cases q1
  have hvl : values.length = n := by rw [← hj.encodes.length_eq, hj.complete, hn]
  obtain ⟨req, bl, sg, h1, h2, h3, h4⟩ := Aries.issue_eq L h32 x n 0 hn0 (by omega) (by omega) j.attributes values hj.encodes
    (by rw [hj.complete, hn]) ρ.user.scalar ρ.request.scalar j.nonce ρ.request.blindings ρ.cred.credE ρ.cred.credS
  set s := ρ.cred.credS + ρ.request.scalar with hs
  set rawCred := Proto.encode (Aries.Wire.cred (Aries.issued x n 0 values ρ.user.scalar ρ.cred.credE s 0)) with hraw
  have hvalid := Bbs.valid_of_sign (x := x) (e := ρ.cred.credE) (s := s) (pk := Bbs.pkg w (n + 1)) rfl hρ.inv
    (Aries.Spec.withSecret 0 ρ.user.scalar values)
  have hv : ∀ supplied, List.Forall₂ (Aries.Spec.Agrees L) supplied values →
      Aries.credVerify L ρ.user.scalar (.val ipk) rawCred supplied = .ok () := fun supplied h =>
    (Aries.issued_valid_iff L h32 x n 0 0 (by omega) (by omega) values hvl ρ.user.scalar ρ.cred.credE s supplied h).mpr hvalid
  have hcmp := hv j.compared (agrees_of hj.encodes (by rw [hj.allCompared, hj.complete]) hj.compared)
  have hshown := hv j.shown (agrees_of hj.encodes (by rw [hj.all, hj.complete]) hj.shown)
  have hcred := Aries.Wire.credCodec_rt (Aries.issued x n 0 values ρ.user.scalar ρ.cred.credE s 0)
    (by simp [Aries.Credential.Wire, Aries.issued, Proto.Int32])
  obtain ⟨rawCri, r1⟩ : ∃ raw, Aries.revSign S dsa (some rsk) j.epoch 0 ρ.cri.wbb ρ.cri.dsa = .ok raw := by
    obtain ⟨sig, hsig⟩ := hsign (dsa.sha256 (Proto.encode (Aries.Wire.cri ⟨j.epoch, S.g2Bytes S.genG2, [], 0, []⟩)))
    exact ⟨_, by simp [Aries.revSign, hsig]; rfl⟩
  obtain ⟨⟨cri, r2, r3, r4⟩, r5⟩ := Aries.C20_aries_signed_verifies dsa rsk j.epoch 0 hj.epoch ρ.cri.wbb ρ.cri.dsa rawCri r1
  have hcri_ne : rawCri ≠ [] := by
    intro h0
    have r1' := r1
    simp only [Aries.revSign, Res.ofOption_some, Res.ok_bind, Aries.Wire.criCodec_marshal, Res.bind_eq_ok, if_true,
      Res.ok.injEq] at r1'
    obtain ⟨sig, -, e⟩ := r1'
    have hu := Aries.Wire.criCodec_rt ⟨j.epoch, S.g2Bytes S.genG2, sig, 0, []⟩ ⟨hj.epoch, by simp [Proto.Int32]⟩
    rw [e, h0, show Aries.Wire.criCodec.unmarshal [] = .ok ⟨0, [], [], 0, []⟩ from rfl, Res.ok.injEq] at hu
    have hb := (congrArg Aries.CRI.epochPk hu).symm
    simp only at hb
    have hz : ∀ P, S.g2Bytes P = [] := fun P => List.length_eq_zero_iff.mp (by
      rw [S.g2Bytes_len, ← S.g2Bytes_len S.genG2, hb]; rfl)
    exact S.genG2_ne (S.g2Bytes_inj ((hz _).trans (hz 0).symm))
  obtain ⟨nym, hnym1⟩ : ∃ nym, Aries.makeNym ρ.user.scalar (.val ipk) 0 ρ.nym.scalar = .ok (nym, ρ.nym.scalar) := by
    have hk' : 0 < ipk.pkg.h.length := by simp [hipk, Aries.ipkFor]
    refine ⟨ρ.nym.scalar • ipk.pkg.h0 + ρ.user.scalar • ipk.pkg.h[0], ?_⟩
    simp only [Aries.makeNym, Dyn.get_val, Res.ok_bind]
    rw [show (0 : Int) = ((0 : Nat) : Int) from rfl, Res.index_nat, List.getElem?_eq_getElem hk', Res.deref_some, Res.ok_bind,
      Bbs.build_eq (by simp) (by simp)]
    simp
  have hst : Aries.Spec.Defined j.sigType := by
    rcases hj.type.sigType with h | h | h <;> simp [Aries.Spec.Defined, h]
  have hcom : Aries.Spec.CommitsEid j.sigType → j.sigType ≠ .standard := by
    rintro (h | h | h) <;> simp [h]
  have hncard : j.sigType ≠ .smartcard ∧ j.sigType ≠ .smartcardNoNyms := by
    rcases hj.type.sigType with h | h | h <;> simp [h]
  have hcom' : j.sigType ≠ .standard → Aries.Spec.CommitsEid j.sigType := by
    rcases hj.type.sigType with h | h | h <;> simp [Aries.Spec.CommitsEid, h]
  have hmatch : Aries.Spec.Matches j.sigType j.verType := by
    have := hj.type
    revert this
    generalize j.sigType = t
    generalize j.verType = v
    rintro (_ | _ | _ | _ | _ | _ | _) <;> simp [Aries.Spec.Matches]
  have heid := hj.eidIndex
  have hrh := hj.rhIndex
  rw [hn, ← hvl] at heid hrh
  have hattr : ∀ i : Nat, ((Aries.issued x n 0 values ρ.user.scalar ρ.cred.credE s 0).attrs.map S.zrOfBytes)[i]? = values[i]? := by
    intro i
    simp [Aries.issued, Function.comp_def]
  have hval : ∀ (i : Nat) (v : Bytes) (hi : i < values.length), j.attributes[i]? = some ⟨1, .bytes v⟩ →
      values[i] = Bbs.frFromOKM L v := by
    intro i v hi h
    obtain ⟨hi', e⟩ := List.getElem?_eq_some_iff.mp h
    have := (List.forall₂_iff_get.mp hj.encodes).2 i hi' hi
    simp only [List.get_eq_getElem, e, Aries.Spec.Encodes] at this
    rcases this with ⟨-, b, h1, h2⟩ | ⟨h1, -⟩
    · cases h1; exact h2
    · cases h1
  have hreq : Aries.Spec.Request j.sigType j.shown 0 j.eid j.rh := by
    refine ⟨fun a ha => ?_, fun h => hj.eid (hcom h), fun h => hj.rh (h.resolve_right hncard.1), by simp, fun _ => rfl⟩
    obtain ⟨i, hi, rfl⟩ := List.getElem_of_mem ha
    rcases hj.shown i _ (List.getElem?_eq_getElem hi) with h | h
    · exact .inl h
    · obtain ⟨hi', e⟩ := List.getElem?_eq_some_iff.mp h
      have := (List.forall₂_iff_get.mp hj.encodes).2 i hi' (by rw [← hj.encodes.length_eq]; exact hi')
      simp only [List.get_eq_getElem, e, Aries.Spec.Encodes] at this
      rcases this with ⟨h, -⟩ | ⟨h, -⟩
      · exact .inr (.inl h)
      · exact .inr (.inr h)
  have hap : Aries.Spec.CommitsEid j.sigType → Aries.Spec.Apart ipk.pkg.h0 ipk.pkg.h
      ⟨(x + ρ.cred.credE)⁻¹ • Bbs.bValue (Bbs.pkg w (n + 1)) s (Aries.Spec.withSecret 0 ρ.user.scalar values), ρ.cred.credE, s⟩
      (Aries.Spec.withSecret 0 ρ.user.scalar
        ((Aries.issued x n 0 values ρ.user.scalar ρ.cred.credE s 0).attrs.map S.zrOfBytes))
      ρ.sig.sig.pok.r1 ρ.sig.sig.pok.r2 := by
    intro h
    have := hρ.apart (hcom h) w ipk.pkg.h0 ipk.pkg.h rfl (by rw [hn]; exact hisKey.2.2.1) (by rw [hn]; exact hisKey.2.2.2.1)
    simpa [Aries.Spec.Apart, Aries.Spec.withSecret, Aries.issued, Function.comp_def] using this
  obtain ⟨sig, md, s1, s2, s3, s4⟩ := Aries.C39_signatures_verify_partial L h32 hg hg1 ipk w n 0 j.eid j.rh hisKey
    (by omega) rawCred rawCri msg _ _ cri j.shown ρ.user.scalar ρ.nym.scalar ρ.nym.scalar nym j.sigType none ρ.sig.sig
    values[j.eid] values[j.rh] (by rw [hj.all, hn]) hshown hcred (by simp [Aries.issued, hvl]) rfl
    (Bbs.parseSignature_bytes h32 _ _ _) hnym1 r2 r4 hst hreq
    (by rw [hattr, List.getElem?_eq_getElem heid]) (by rw [hattr, List.getElem?_eq_getElem hrh]) hρ.blinding
    hap (by simp [Aries.Spec.Fits]) (by simp [Aries.Spec.Fits])
  have hverify := s2 j.verType hmatch
  have e1 : j.sigType ≠ .standard → ∃ m e, md = some m ∧ m.eidNymAuditData = some e ∧
      Aries.auditNymEid L (.val ipk) j.eid 0 sig j.eidValue e.rand .expectSignature = .ok () := by
    intro ht
    obtain ⟨m, h, g1, -, g3⟩ := s3 (hcom' ht)
    obtain ⟨v0, k1, k2⟩ : ∃ v0, Aries.Spec.Matches j.sigType v0 ∧
        (v0 = .expectEidNym ∨ v0 = .expectEidNymRhNym ∨ v0 = .expectSmartcard) := by
      rcases hj.type.sigType with h | h | h
      · exact absurd h ht
      · exact ⟨.expectEidNym, by simp [Aries.Spec.Matches, h], .inl rfl⟩
      · exact ⟨.expectEidNymRhNym, by simp [Aries.Spec.Matches, h], .inr (.inl rfl)⟩
    have acc := s2 v0 k1 md (.inr rfl)
    rw [g1] at acc
    exact ⟨m, _, g1, g3, (Aries.C15_aries_openings_audit L ipk sig msg j.shown j.rh j.eid 0 v0 m acc).1 k2 _ _ g3
      (hval _ _ heid (hj.eidValue ht))⟩
  have e2 : j.sigType = .eidNymRhNym → ∃ m e, md = some m ∧ m.rhNymAuditData = some e ∧
      Aries.auditNymRh L (.val ipk) j.rh 0 sig j.rhValue e.rand .expectSignature = .ok () := by
    intro ht
    obtain ⟨m, h, g1, -, g3⟩ := s4 ht
    have acc := s2 .expectEidNymRhNym (by simp [Aries.Spec.Matches, ht]) md (.inr rfl)
    rw [g1] at acc
    exact ⟨m, _, g1, g3, (Aries.C15_aries_openings_audit L ipk sig msg j.shown j.rh j.eid 0 _ m acc).2 rfl _ _ g3
      (hval _ _ hrh (hj.rhValue ht))⟩
  obtain ⟨-, sig', n1, n2⟩ := Aries.C42_complete L h32 ipk w n 0 hisKey (by omega) ρ.user.scalar ρ.nym.scalar ρ.nymSig.nonce
    (nym, ρ.nym.scalar) ρ.nymSig.blindings msg' hnym1
  refine lifeCycle_of (B := ariesBackend L T dsa ec) (isk := .val ⟨ipk, x⟩) (ipk := .val ipk) (usk := ρ.user.scalar)
    (cred := rawCred) (rsk := rsk) (der := der) (cri := rawCri) (nym := nym) (r := ρ.nym.scalar) (sig := sig) (sig' := sig')
    (md := md) ⟨hnk, rfl, q2, rfl, hrsk, hder, r1, hcri_ne, r5, hnym1, hnym nym, s1, ?_, hverify, hj.type.sigType,
      fun h => ?_, fun h => ?_, n1, ?_, n2⟩ issuer user authority verifier _ ?_
  · rintro rfl
    have e0 : Aries.Wire.sigCodec.unmarshal [] = .ok ⟨[], [], [], [], [], [], 0, [], [], 0, [], [], 0, none⟩ := rfl
    have := hverify none (.inl rfl)
    simp only [Aries.verify, Dyn.get_val, Res.ok_bind, e0, Aries.checkNonRev, Res.err_bind] at this
    cases this
  · obtain ⟨m, e, a, b, c⟩ := e1 h
    exact ⟨m, e, a, b, c⟩
  · obtain ⟨m, e, a, b, c⟩ := e2 h
    exact ⟨m, e, a, b, c⟩
  · rintro rfl
    have e0 : Aries.Wire.nymSigCodec.unmarshal [] = .ok ⟨[], []⟩ := rfl
    simp [Aries.nymVerify, e0, Bbs.parseProofG1, Res.guardErr] at n2
  · have hreq_ne : req ≠ [] := by
      rintro rfl
      have hc : 0 < S.g1CompLen := by
        rw [Nat.pos_iff_ne_zero]
        intro h0
        have hz : ∀ P, S.g1Comp P = [] := fun P => List.length_eq_zero_iff.mp (by rw [S.g1Comp_len, h0])
        exact S.genG1_ne (S.g1Comp_inj ((hz _).trans (hz 0).symm))
      simp only [Aries.blindVerify, Res.bind_eq_ok, Aries.parseBlindedMessages, Res.guardErr_eq_ok] at h2
      obtain ⟨_, -, _, -, _, ⟨_, h, -⟩, -⟩ := h2
      simp at h
      omega
    have hcred_ne : rawCred ≠ [] := by
      intro h0
      rw [← hraw, h0, show Aries.Wire.credCodec.unmarshal [] = .ok ⟨[], [], 0⟩ from rfl, Res.ok.injEq] at hcred
      have := congrArg (fun c => c.attrs.length) hcred
      simp [Aries.issued] at this
      omega
    have t1 := sign_of (p := user) (k := .userSk ρ.user.scalar user.exportable) (digest := [])
      (o := .blindReq (some (.issuerPk (.val ipk))) j.nonce []) (ρ := ρ.request) (x := req)
      (o' := .blindReq (some (.issuerPk (.val ipk))) j.nonce bl) (by simp [NoHandler, ariesBackend])
      (by change some (Aries.blind L ρ.user.scalar (.val ipk) j.nonce ((0 : Nat) : Int) ρ.request.scalar
            ρ.request.blindings >>= _) = _
          rw [h1]; rfl)
    have t2 := accepts_of (p := issuer) (k := .issuerPk (.val ipk)) (signature := req) (digest := [])
      (o := .blindReq (some (.issuerPk (.val ipk))) j.nonce []) (by simp [NoHandler, ariesBackend]) hreq_ne
      (by simp [verifyCall, ariesBackend]; exact h2)
    have t3 := sign_of (p := issuer) (k := .issuerSk (.val ⟨ipk, x⟩) issuer.exportable) (digest := req)
      (o := .cred j.attributes (some (.issuerPk (.val ipk)))) (ρ := ρ.cred) (x := sg)
      (o' := .cred j.attributes (some (.issuerPk (.val ipk)))) (by simp [NoHandler])
      (by change some (Aries.credSign L (.val ⟨ipk, x⟩) req j.attributes ((0 : Nat) : Int) ρ.cred.credE ρ.cred.credS >>= _) = _
          rw [h3]; rfl)
    have t4 := accepts_of (p := user) (k := .userSk ρ.user.scalar user.exportable) (signature := rawCred) (digest := [])
      (o := .cred j.compared (some (.issuerPk (.val ipk)))) (by simp [NoHandler]) hcred_ne
      (by simp [verifyCall, ariesBackend, hcmp])
    have t5 : (Key.issuerSk (B := ariesBackend L T dsa ec) (.val ⟨ipk, x⟩) issuer.exportable).publicKey =
      .ok (.issuerPk (.val ipk)) := rfl
    simp only [issueAries, t1, t2, t3, t4, t5, h4, blindingOf, Res.ok_bind, Res.pure_def]

end Idemix.Provider
