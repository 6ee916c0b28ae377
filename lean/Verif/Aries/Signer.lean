import Verif.Aries.Model

/-!
# The aries scheme: signatures

Model of `bccsp/schemes/aries/signer.go`. Random scalars are arguments. The map of revealed messages is only
asked for membership and size, so it is the list of its keys.
-/

namespace Idemix.Aries

open Bbs
open Dlog (SigType VerType AuditData SignerMetadata AuditType signLabel signWithEidNymLabel signWithEidNymRhNymLabel)

variable {S : Suite} (L : Lib S)

/-- `"signWithSmartcard"` (`signer.go:29`). -/
def signWithSmartcardLabel : Bytes :=
  [0x73, 0x69, 0x67, 0x6e, 0x57, 0x69, 0x74, 0x68, 0x53, 0x6d, 0x61, 0x72, 0x74, 0x63, 0x61, 0x72, 0x64]
/-- `"signWithSmartcardNoNyms"` (`signer.go:30`). -/
def signWithSmartcardNoNymsLabel : Bytes :=
  [0x73, 0x69, 0x67, 0x6e, 0x57, 0x69, 0x74, 0x68, 0x53, 0x6d, 0x61, 0x72, 0x74, 0x63, 0x61, 0x72, 0x64,
   0x4e, 0x6f, 0x4e, 0x79, 0x6d, 0x73]

/-- Run a step only under a condition. -/
def onlyIf {α : Type} (b : Bool) (x : Res α) : Res (Option α) :=
  match b with
  | true => x.bind fun y => .ok (some y)
  | false => .ok none

/-- The step of a check under a condition. -/
def checkIf (b : Bool) (x : Res Unit) : Res Unit :=
  match b with
  | true => x
  | false => .ok ()

/-- `vc2SmartcardSignatureProvider.New` (`signer.go:42-78`). -/
def smartcardVC2 (r : S.F) : VC2Provider S := fun d r3 pk sPrime messages revealed => do
  let hs ← msgBases pk (hiddenMsgs messages revealed)
  pure (d :: pk.h0 :: hs, -r3 :: (sPrime - r) :: (hiddenMsgs messages revealed).map (·.fr))

/-- `vc2SmartcardProofVerifier.Verify` (`signer.go:85-137`). -/
def smartcardVC2Verify (nym : S.G1) : VC2Verifier S := fun challenge pk revealed messages proof d => do
  Res.guardPanic (2 + pk.count - revealed.length < 0)
  let (disclosed, hidden) ← splitGens revealed 1 pk.h.tail messages
  let pr := S.zrOfInt 1 • S.genG1 + (disclosed.map fun p => p.2 • p.1).sum + S.zrOfInt 1 • nym
  badSignature (proof.verify (d :: pk.h0 :: hidden) (-pr) challenge)

/-- The signature types that involve a smartcard. -/
def cardType (t : SigType) : Bool := decide (t = .smartcard) || decide (t = .smartcardNoNyms)

/-- The verification types that involve a smartcard. -/
def cardVer (t : VerType) : Bool := decide (t = .expectSmartcard) || decide (t = .expectSmartcardNoNyms)

/-- `nymEidAttrCommitmentEnabled` (`signer.go:361-363`). -/
def eidEnabled (t : SigType) : Bool := decide (t ≠ .standard) && decide (t ≠ .smartcardNoNyms)

/-- `rhAttrCommitmentEnabled` (`signer.go:349-351`). -/
def rhEnabled (t : SigType) : Bool := decide (t = .eidNymRhNym)

/-- The card branch of `getPoKOfSignature` (`signer.go:167-183`). -/
def cardPoK (σ : Sig S) (msgs : List (SigMsg S)) (skPos : Int) (attributes : List IdemixAttribute) (pk : PKG S)
    (nym : S.G1) (rNym : S.F) (ρ : PoKRand S) : Res (PoK S) := do
  Res.guardPanic (decide (skPos < 0) || decide ((msgs.length : Int) ≤ skPos))
  let noSk := msgs.take skPos.toNat ++ msgs.drop (skPos.toNat + 1)
  let b ← computeB σ.s noSk pk
  pokOfSignatureB (smartcardVC2 rNym) false σ noSk
    ((revealedAttributesIndexNoSk attributes).map fun i : Nat => (i : Int)) pk (b + (nym - rNym • pk.h0)) ρ

/-- `getPoKOfSignature` (`signer.go:139-192`). -/
def getPoK (c : Credential) (attributes : List IdemixAttribute) (sk : S.F) (pk : PKG S) (t : SigType) (nym : S.G1)
    (rNym : S.F) (ρ : PoKRand S) : Res (PoK S × List (SigMsg S)) := do
  let σ ← parseSignature S c.cred
  let msgs ← c.toSignatureMessage sk
  let pok ← match cardType t with
    | true => cardPoK σ msgs c.skPos attributes pk nym rNym ρ
    | false => newPoKOfSignature σ msgs ((revealedAttributesIndex attributes).map fun i : Nat => (i : Int)) pk ρ
  pure (pok, msgs)

/-- `getCommitNym` (`signer.go:308-332`), `t0` being the blinding factor of the nym's randomness. -/
def commitNym (pk : PKG S) (pok : PoK S) (skPos : Int) (t0 : S.F) : Res (Committed S) := do
  let h ← Res.index pk.h skPos
  let t1 ← Res.index pok.vc2.blind (2 + skPos)
  finish [pk.h0, h] [t0, t1]

/-- `attributeCommitment` (`signer.go:334-339`). -/
structure AttrComm (S : Suite) where
  index : Nat
  proof : Committed S
  comm : S.G1
  r : S.F

/-- The commitment to the attribute: from the audit data passed, or fresh (`signer.go:382-402`). -/
def attrNym (pk : PKG S) (attr : S.F) (idx : Int) (audit : Option (AuditData S)) (fresh : S.F) :
    Res (S.G1 × S.F) :=
  match audit with
  | some a => do
    Res.guardErr (decide (attr ≠ a.attr)) "attribute supplied in metadata differs from signed"
    let h ← Res.index pk.h idx
    let nym ← build [pk.h0, h] [a.rand, a.attr]
    let given ← Res.deref a.nym
    Res.guardErr (decide (given ≠ nym)) "nym supplied in metadata cannot be recomputed"
    pure (nym, a.rand)
  | none => do
    let h ← Res.index pk.h idx
    let nym ← build [pk.h0, h] [fresh, attr]
    pure (nym, fresh)

/-- `indexOfAttributeInCommitment` (`signer.go:424-439`): the first base equal to the attribute's generator. -/
def indexInCommitment (c : Committed S) (idx : Int) (pk : PKG S) : Res Nat := do
  let base ← Res.index pk.h idx
  Res.ofOption "attribute not found" (c.bases.findIdx? fun b => decide (base = b))

/-- `getAttributeCommitment` (`signer.go:365-422`), enabled. -/
def attrCommitment (pk : PKG S) (pok : PoK S) (attr : S.F) (idx : Int) (audit : Option (AuditData S))
    (fresh t0 : S.F) : Res (AttrComm S) := do
  let (nym, r) ← attrNym pk attr idx audit fresh
  let i ← indexInCommitment pok.vc2 idx pk
  let h ← Res.index pk.h idx
  let t1 ← Res.index pok.vc2.blind i
  let proof ← finish [pk.h0, h] [t0, t1]
  pure ⟨i, proof, nym, r⟩

/-- The label of a signature type (`signer.go:204-218`). -/
def sigLabel : SigType → Res Bytes
  | .standard => .ok signLabel
  | .eidNym => .ok signWithEidNymLabel
  | .eidNymRhNym => .ok signWithEidNymRhNymLabel
  | .smartcard => .ok signWithSmartcardLabel
  | .smartcardNoNyms => .ok signWithSmartcardNoNymsLabel
  | .unknown _ => .panic

/-- Commitment and first message of its proof, hashed under a condition; nil is dereferenced
(`signer.go:229-239`). -/
def hashComm (b : Bool) (a : Option (AttrComm S)) : Res Bytes :=
  match b with
  | true => do
    let a ← Res.deref a
    pure (S.g1Bytes a.comm ++ S.g1Bytes a.proof.commitment)
  | false => .ok []

/-- First message of the proof of the pseudonym, hashed unless a card made it (`signer.go:224-227`). -/
def hashNym (b : Bool) (c : Option (Committed S)) : Res Bytes :=
  match b with
  | true => do
    let c ← Res.deref c
    pure (S.g1Bytes c.commitment)
  | false => .ok []

/-- `getChallengeHash` (`signer.go:194-254`) with the sampled nonce. -/
def challengeHash (pok : PoK S) (nym : S.G1) (cn : Option (Committed S)) (eid rh : Option (AttrComm S))
    (msg : Bytes) (t : SigType) (nonce : S.F) : Res S.F := do
  let label ← sigLabel t
  let bn ← hashNym (!cardType t) cn
  let be ← hashComm (decide (t = .eidNym) || decide (t = .eidNymRhNym) || decide (t = .smartcard)) eid
  let br ← hashComm (decide (t = .eidNymRhNym)) rh
  pure (withNonce L (frFromOKM L (label ++ pok.toBytes ++ S.g1Bytes nym ++ bn ++ be ++ br ++ nonceBytes L msg))
    (S.zrBytes nonce))

/-- Randomness of a signature: the main proof, the nonce, and for the enrolment id and the revocation handle the
commitment's randomness and the blinding factor of its proof. -/
structure SignRand (S : Suite) where
  pok : PoKRand S
  nym0 : S.F
  rEid : S.F
  eid0 : S.F
  rRh : S.F
  rh0 : S.F
  nonce : S.F

/-- The responses of an optional proof (`signer.go:551-565`). -/
def respond (c : Option (Committed S)) (challenge : S.F) (secrets : List S.F) : Res (Option (ProofG1 S)) :=
  match c with
  | some c => do
    let p ← c.generateProof challenge secrets
    pure (some p)
  | none => .ok none

/-- An optional proof as bytes; nil stays nil (`signer.go:289-303`). -/
def proofBytes (p : Option (ProofG1 S)) : Res Bytes :=
  match p with
  | some p => p.toBytes
  | none => .ok []

/-- `packageProof` (`signer.go:256-306`). The positions of the proofs of the attributes fit 32 bits. -/
def packageProof (attributes : List IdemixAttribute) (nym : S.G1) (proof : SigProof S) (pn : Option (ProofG1 S))
    (eid : Option (AttrComm S)) (pe : Option (ProofG1 S)) (rh : Option (AttrComm S)) (pr : Option (ProofG1 S))
    (cri : CRI) (nonce : S.F) : Res Bytes := do
  let payload ← Payload.toBytes ⟨attributes.length + 1,
    (revealedAttributesIndex attributes).map fun i : Nat => (i : Int)⟩
  let main ← proof.toBytes
  let bn ← proofBytes pn
  let be ← proofBytes pe
  let br ← proofBytes pr
  Wire.sigCodec.marshal ⟨payload ++ main, S.zrBytes nonce, S.g1Bytes nym, bn,
    (eid.map fun a => S.g1Bytes a.comm).getD [], be, ((eid.map (·.index)).getD 0 : Nat),
    (rh.map fun a => S.g1Bytes a.comm).getD [], br, ((rh.map (·.index)).getD 0 : Nat),
    cri.epochPk, cri.epochPkSig, cri.epoch, some ⟨cri.alg, []⟩⟩

/-- The metadata returned for a commitment (`signer.go:576-600`). -/
def auditOf (a : Option (AttrComm S)) (attr : S.F) : Option (AuditData S) :=
  a.map fun a => ⟨some a.comm, a.r, attr⟩

/-- The index of an attribute among the generators (`signer.go:515-518`, `781-789`). -/
def shiftIndex (i skPos : Int) : Int := if skPos ≤ i then i + 1 else i

/-- The check that an attribute is hidden (`signer.go:459-468`). -/
def mustHide (attributes : List IdemixAttribute) (i : Int) (msg : String) : Res Unit := do
  let a ← Res.index attributes i
  Res.guardErr (decide (a.type ≠ 0)) msg

/-- Argument checks of `Sign` (`signer.go:459-468`). -/
def signArgs (attributes : List IdemixAttribute) (rhIndex eidIndex : Int) (t : SigType) : Res Unit := do
  checkIf (decide (t = .eidNym) || decide (t = .smartcard))
    (mustHide attributes eidIndex "disclosure of enrollment ID requested for EidNym signature")
  checkIf (decide (t = .eidNymRhNym) || decide (t = .smartcard)) (do
    mustHide attributes eidIndex "disclosure of enrollment ID or RH requested for EidNymRhNym signature"
    mustHide attributes rhIndex "disclosure of enrollment ID or RH requested for EidNymRhNym signature")

/-- The metadata that `Sign` returns. -/
def signMeta (t : SigType) (eid rh : Option (AttrComm S)) (mEid mRh : S.F) : Option (SignerMetadata S) :=
  if t = .eidNymRhNym then some ⟨auditOf eid mEid, auditOf rh mRh, [], []⟩
  else if t = .eidNym ∨ t = .smartcard then some ⟨auditOf eid mEid, none, [], []⟩
  else none

/-- `Signer.Sign` (`signer.go:442-603`). -/
def sign (credBytes : Bytes) (sk : S.F) (nym : S.G1) (rNym : S.F) (key : Dyn (IPK S))
    (attributes : List IdemixAttribute) (msg : Bytes) (rhIndex eidIndex : Int) (criRaw : Bytes) (t : SigType)
    (md : Option (SignerMetadata S)) (ρ : SignRand S) : Res (Bytes × Option (SignerMetadata S)) := do
  signArgs attributes rhIndex eidIndex t
  let ipk ← key.get "invalid issuer public key"
  let cri ← Wire.criCodec.unmarshal criRaw
  Res.guardErr (decide (cri.alg ≠ 0)) "unsupported revocation algorithm"
  let c ← Wire.credCodec.unmarshal credBytes
  let (pok, msgs) ← getPoK c attributes sk ipk.pkg t nym rNym ρ.pok
  let cn ← onlyIf (!cardType t) (commitNym ipk.pkg pok c.skPos ρ.nym0)
  let mEid ← Res.index msgs (shiftIndex eidIndex c.skPos)
  let eid ← onlyIf (eidEnabled t) (attrCommitment ipk.pkg pok mEid.fr (shiftIndex eidIndex c.skPos)
    (md.bind (·.eidNymAuditData)) ρ.rEid ρ.eid0)
  let mRh ← Res.index msgs (shiftIndex rhIndex c.skPos)
  let rh ← onlyIf (rhEnabled t) (attrCommitment ipk.pkg pok mRh.fr (shiftIndex rhIndex c.skPos)
    (md.bind (·.rhNymAuditData)) ρ.rRh ρ.rh0)
  let challenge ← challengeHash L pok nym cn eid rh msg t ρ.nonce
  let proof ← pok.generateProof challenge
  let pn ← respond cn challenge [rNym, sk]
  let pe ← respond (eid.map (·.proof)) challenge [(eid.map (·.r)).getD 0, mEid.fr]
  let pr ← respond (rh.map (·.proof)) challenge [(rh.map (·.r)).getD 0, mRh.fr]
  let raw ← packageProof attributes nym proof pn eid pe rh pr cri ρ.nonce
  pure (raw, signMeta t eid rh mEid.fr mRh.fr)

/-! ## Verification -/

/-- Presence checks by verification type (`signer.go:637-658`). -/
def checkPresence (sig : Signature) (v : VerType) : Res Unit := do
  Res.guardErr (decide (v = .expectEidNym) && (sig.nymEid.isEmpty || sig.nymEidProof.isEmpty))
    "no EidNym provided but ExpectEidNym required"
  Res.guardErr (decide (v = .expectEidNymRhNym) && (sig.nymEid.isEmpty || sig.nymEidProof.isEmpty))
    "no EidNym provided but ExpectEidNymRhNym required"
  Res.guardErr (decide (v = .expectEidNymRhNym) && (sig.nymRh.isEmpty || sig.nymRhProof.isEmpty))
    "no RhNym provided but ExpectEidNymRhNym required"
  Res.guardErr ((decide (v = .expectStandard) || decide (v = .expectSmartcardNoNyms)) &&
    (!sig.nymRh.isEmpty || !sig.nymRhProof.isEmpty)) "RhNym available but ExpectStandard required"
  Res.guardErr ((decide (v = .expectStandard) || decide (v = .expectSmartcardNoNyms)) &&
    (!sig.nymEid.isEmpty || !sig.nymEidProof.isEmpty)) "EidNym available but ExpectStandard required"

/-- `verifyRHNym` (`signer.go:660`). -/
def wantRh (sig : Signature) (v : VerType) : Bool :=
  (decide (v = .bestEffort) && !sig.nymRh.isEmpty) || decide (v = .expectEidNymRhNym)

/-- `verifyEIDNym` (`signer.go:661`). -/
def wantEid (sig : Signature) (v : VerType) : Bool :=
  (decide (v = .bestEffort) && !sig.nymEid.isEmpty) || decide (v = .expectEidNym) ||
    decide (v = .expectEidNymRhNym) || decide (v = .expectSmartcard) || wantRh sig v

/-- Proof and commitment of an attribute, as parsed (`signer.go:692-718`). -/
def parseComm (S : Suite) (proof point : Bytes) : Res (ProofG1 S × S.G1) := do
  let p ← parseProofG1 S proof
  let q ← Res.ofOption "parse nym commit" (S.g1OfBytes point)
  pure (p, q)

/-- The label by verification (`signer.go:725-736`). -/
def verLabel (sig : Signature) (v : VerType) : Bytes :=
  if v = .expectSmartcard then signWithSmartcardLabel
  else if v = .expectSmartcardNoNyms then signWithSmartcardNoNymsLabel
  else if wantRh sig v then signWithEidNymRhNymLabel
  else if wantEid sig v then signWithEidNymLabel
  else signLabel

/-- Keys of the map of revealed messages as `GetBytesForChallenge` sees it (`signer.go:738-748`). -/
def revealedForChallenge (v : VerType) (rev : List Nat) : List Nat :=
  match cardVer v with
  | true => if 0 ∈ rev then rev else 0 :: rev
  | false => rev

/-- Keys of the map of revealed messages as the proof's verification sees it (`signer.go:749-751`). -/
def revealedForVerify (v : VerType) (rev : List Nat) : List Nat :=
  match cardVer v with
  | true => rev.filter fun i => i ≠ 0
  | false => rev

/-- What is hashed of a parsed commitment (`signer.go:758-766`). -/
def commBytes (raw : Bytes) (p : Option (ProofG1 S × S.G1)) : Bytes :=
  match p with
  | some (p, _) => raw ++ S.g1Bytes p.commitment
  | none => []

/-- What is hashed of the parsed proof of the pseudonym (`signer.go:753-756`). -/
def nymProofBytes (p : Option (ProofG1 S)) : Bytes := (p.map fun p => S.g1Bytes p.commitment).getD []

/-- The commitment recomputed from audit data must be the signature's, and so must the one in the data
(`signer.go:793-805`, `820-833`). -/
def auditData (pk : PKG S) (idx : Int) (comm : S.G1) (a : Option (AuditData S)) : Res Unit :=
  match a with
  | some a => do
    let h ← Res.index pk.h idx
    Res.guardErr (decide (a.attr • h + a.rand • pk.h0 ≠ comm)) "does not match regenerated nym"
    match a.nym with
    | some n => Res.guardErr (decide (comm ≠ n)) "does not match metadata"
    | none => .ok ()
  | none => .ok ()

/-- The commitment in the metadata must be the signature's (`signer.go:807-815`, `835-843`). -/
def auditBytes (S : Suite) (comm : S.G1) (raw : Bytes) : Res Unit :=
  match raw with
  | [] => .ok ()
  | raw => do
    let n ← Res.ofOption "failed to unmarshal meta nym" (S.g1OfBytes raw)
    Res.guardErr (decide (n ≠ comm)) "signature nym does not match metadata"

/-- Audit of one commitment (`signer.go:791-844`). -/
def audit (pk : PKG S) (idx : Int) (p : Option (ProofG1 S × S.G1)) (md : Option (SignerMetadata S))
    (data : SignerMetadata S → Option (AuditData S)) (raw : SignerMetadata S → Bytes) : Res Unit :=
  match p, md with
  | some (_, comm), some m => do
    auditData pk idx comm (data m)
    auditBytes S comm (raw m)
  | _, _ => .ok ()

/-- Equality with a response of the main proof, and verification of the commitment's own proof
(`signer.go:846-883`). -/
def checkComm (pk : PKG S) (sp : SigProof S) (p : ProofG1 S) (comm : S.G1) (idx resp : Int) (c : S.F) : Res Unit := do
  let r1 ← Res.index p.responses 1
  let r2 ← Res.index sp.vc2.responses resp
  Res.guardErr (decide (r1 ≠ r2)) "failed equality proof"
  let h ← Res.index pk.h idx
  p.verify [pk.h0, h] comm c

/-- See `checkComm`. -/
def checkAttrComm (pk : PKG S) (sp : SigProof S) (p : Option (ProofG1 S × S.G1)) (idx resp : Int) (c : S.F) :
    Res Unit :=
  match p with
  | some (p, comm) => checkComm pk sp p comm idx resp c
  | none => .ok ()

/-- See `checkComm`. -/
def checkNymProof (pk : PKG S) (sp : SigProof S) (p : Option (ProofG1 S)) (nym : S.G1) (skIndex : Int) (c : S.F) :
    Res Unit :=
  match p with
  | some p => checkComm pk sp p nym skIndex (2 + skIndex) c
  | none => .ok ()

/-- Check of the non-revocation proof (`signer.go:629-635`). -/
def checkNonRev (sig : Signature) : Res Unit :=
  match sig.nonRevocationProof with
  | none => .err "signature has no non-revocation proof"
  | some p => Res.guardErr (decide (p.alg ≠ 0)) "unsupported revocation algorithm"

/-- The parts of a signature that verification works with (`signer.go:665-718`). -/
structure Parsed (S : Suite) where
  rev : List Nat
  sp : SigProof S
  nym : S.G1
  nymProof : Option (ProofG1 S)
  eid : Option (ProofG1 S × S.G1)
  rh : Option (ProofG1 S × S.G1)

/-- Parsing in `Verify` (`signer.go:665-718`). -/
def parseParts (S : Suite) (sig : Signature) (v : VerType) (nMessages : Nat) : Res (Parsed S) := do
  let (count, rev) ← parsePoKPayload sig.main
  let rest ← goSlice sig.main (lenInBytes count).toNat sig.main.length
  let sp ← parseSignatureProof S rest
  Res.guardErr (decide (nMessages < rev.length)) "payload revealed bigger from messages"
  let nym ← Res.ofOption "parse nym commit" (S.g1OfBytes sig.nym)
  let pn ← onlyIf (!cardVer v) (parseProofG1 S sig.nymProof)
  let eid ← onlyIf (wantEid sig v) (parseComm S sig.nymEidProof sig.nymEid)
  let rh ← onlyIf (wantRh sig v) (parseComm S sig.nymRhProof sig.nymRh)
  pure ⟨rev, sp, nym, pn, eid, rh⟩

/-- The challenge in `Verify` (`signer.go:724-775`). -/
def verChallenge (pk : PKG S) (sig : Signature) (v : VerType) (msg : Bytes) (p : Parsed S) : Res S.F := do
  let cb ← p.sp.bytesForChallenge (revealedForChallenge v p.rev) pk
  pure (withNonce L (frFromOKM L (verLabel sig v ++ cb ++ sig.nym ++ nymProofBytes p.nymProof ++
    commBytes sig.nymEid p.eid ++ commBytes sig.nymRh p.rh ++ nonceBytes L msg)) sig.nonce)

/-- The verifier of the second commitment (`signer.go:885-891`). -/
def vc2For (v : VerType) (nym : S.G1) : VC2Verifier S :=
  match cardVer v with
  | true => smartcardVC2Verify nym
  | false => defaultVC2Verify

/-- `Signer.Verify` (`signer.go:606-894`); the revocation key and the epoch are ignored. -/
def verify (key : Dyn (IPK S)) (signature msg : Bytes) (attributes : List IdemixAttribute)
    (rhIndex eidIndex skIndex : Int) (v : VerType) (md : Option (SignerMetadata S)) : Res Unit := do
  let ipk ← key.get "invalid issuer public key"
  let sig ← Wire.sigCodec.unmarshal signature
  checkNonRev sig
  checkPresence sig v
  let messages ← attributesToSignatureMessage L attributes skIndex
  let p ← parseParts S sig v messages.length
  let c ← verChallenge L ipk.pkg sig v msg p
  audit ipk.pkg (shiftIndex eidIndex skIndex) p.eid md (·.eidNymAuditData) (·.eidNym)
  audit ipk.pkg (shiftIndex rhIndex skIndex) p.rh md (·.rhNymAuditData) (·.rhNym)
  checkNymProof ipk.pkg p.sp p.nymProof p.nym skIndex c
  checkAttrComm ipk.pkg p.sp p.eid (shiftIndex eidIndex skIndex) sig.nymEidIdx c
  checkAttrComm ipk.pkg p.sp p.rh (shiftIndex rhIndex skIndex) sig.nymRhIdx c
  p.sp.verify (vc2For v p.nym) c ipk.pkg (revealedForVerify v p.rev) messages

/-! ## Auditing -/

/-- The commitment to audit (`signer.go:910-933`, `964-985`). -/
def auditTarget (S : Suite) (field : Signature → Bytes) (direct : AuditType → Bool) (signature : Bytes)
    (t : AuditType) : Res S.G1 :=
  if t = .expectSignature then do
    let sig ← Wire.sigCodec.unmarshal signature
    Res.ofOption "parse nym commit" (S.g1OfBytes (field sig))
  else if direct t then Res.ofOption "parse nym commit" (S.g1OfBytes signature)
  else .err "invalid audit type"

/-- The comparison (`signer.go:935-945`, `987-997`). -/
def auditOpen (pk : PKG S) (index skIndex : Int) (value : Bytes) (r : S.F) (target : S.G1) : Res Unit := do
  let h ← Res.index pk.h (shiftIndex index skIndex)
  Res.guardErr (decide (frFromOKM L value • h + r • pk.h0 ≠ target)) "nym does not match"

/-- `AuditNymEid` (`signer.go:897-948`). -/
def auditNymEid (key : Dyn (IPK S)) (eidIndex skIndex : Int) (signature enrollmentID : Bytes) (r : S.F)
    (t : AuditType) : Res Unit := do
  let ipk ← key.get "invalid issuer public key"
  let target ← auditTarget S (·.nymEid) (fun t => decide (t = .expectEidNym) || decide (t = .expectEidNymRhNym))
    signature t
  auditOpen L ipk.pkg eidIndex skIndex enrollmentID r target

/-- `AuditNymRh` (`signer.go:951-1000`). -/
def auditNymRh (key : Dyn (IPK S)) (rhIndex skIndex : Int) (signature handle : Bytes) (r : S.F)
    (t : AuditType) : Res Unit := do
  let ipk ← key.get "invalid issuer public key"
  let target ← auditTarget S (·.nymRh) (fun t => decide (t = .expectEidNymRhNym)) signature t
  auditOpen L ipk.pkg rhIndex skIndex handle r target

end Idemix.Aries
