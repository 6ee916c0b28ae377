import Verif.Dlog.Issue

/-!
# dlog scheme: signatures of knowledge

Model of `bccsp/schemes/dlog/crypto/signature.go`, `nymeid.go`, `nymrh.go`, `nonrevocation-prover.go`
and `nonrevocation-verifier.go`.
-/

namespace Idemix.Dlog

variable {S : Suite} (T : Translator S)

/-- `hiddenIndices` (`signature.go:39-48`), starting at index `i`. -/
def hiddenFrom (i : Nat) : Bytes → List Nat
  | [] => []
  | d :: ds => if d = 0 then i :: hiddenFrom (i + 1) ds else hiddenFrom (i + 1) ds

/-- `hiddenIndices` (`signature.go:39-48`). -/
def hiddenIndices (disclosure : Bytes) : List Nat := hiddenFrom 0 disclosure

/-- `sort.SearchInts(a, x)`: the smallest position whose entry is at least `x`, or `len(a)`. (The
library's binary search, on the sorted lists it is called with here.) -/
def searchInts (a : List Nat) (x : Int) : Nat := a.findIdx (fun n : Nat => decide (x ≤ (n : Int)))

/-- `getNonRevocationProver` (`nonrevocation-prover.go:39-47`) and `getNonRevocationVerifier`
(`nonrevocation-verifier.go:28-36`): only `ALG_NO_REVOCATION = 0` exists; its contribution to the
Fiat–Shamir hash is empty. -/
def nonRevContribution (alg : Int) : Res Bytes :=
  if alg = 0 then .ok [] else .err "unknown revocation algorithm"

/-- `ProofBytes[alg]` (`revocation_authority.go:31-33`): zero, also for absent keys. -/
def proofBytes (_alg : Int) : Nat := 0

/-- Scalars sampled while signing, in sampling order. -/
structure SigRand (S : Suite) where
  r1 : S.F
  r2 : S.F
  nonce : S.F
  rSk : S.F
  re : S.F
  rR2 : S.F
  rR3 : S.F
  rSPrime : S.F
  rRNym : S.F
  rAttrs : List S.F
  rEid : S.F
  rREid : S.F
  rRh : S.F
  rRRh : S.F

/-- Result of `prepare`. -/
structure Prepared (S : Suite) where
  t1 : S.G1
  t2 : S.G1
  t3 : S.G1
  aPrime : S.G1
  aBar : S.G1
  bPrime : S.G1
  nonRev : Bytes
  e : S.F
  r3 : S.F
  sPrime : S.F
  hidden : List Nat

/-- `prepare` (`signature.go:234-406`). The nil tests of lines 258-260 are not represented: the
arguments are values. -/
def prepare (cred : Credential) (ipk : IssuerPublicKey) (disclosure : Bytes)
    (rhIndex : Int) (cri : CRI) (ρ : SigRand S) : Res (Prepared S) := do
  Res.guardErr (decide (rhIndex < 0) || decide (ipk.attributeNames.length ≤ rhIndex)
      || decide (disclosure.length ≠ ipk.attributeNames.length))
    "cannot create idemix signature: received invalid input"
  let dRh ← Res.index disclosure rhIndex
  Res.guardErr (decide (cri.revocationAlg ≠ 0) && decide (dRh = 1))
    "attribute is disclosed but also used as revocation handle attribute"
  let hidden := hiddenIndices disclosure
  Res.guardPanic (ρ.rAttrs.length != hidden.length) -- the tape holds one sample per hidden attribute
  let r3 := ρ.r1⁻¹
  let a ← T.g1FromProto cred.a
  let b ← T.g1FromProto cred.b
  let e := S.zrOfBytes cred.e
  let aPrime := ρ.r1 • a
  let aBar := ρ.r1 • b - e • aPrime
  let hRand ← T.g1FromProto ipk.hRand
  let hSk ← T.g1FromProto ipk.hSk
  let bPrime := ρ.r1 • b - ρ.r2 • hRand
  let s := S.zrOfBytes cred.s
  let sPrime := s - ρ.r2 * r3
  Res.guardErr (decide (cri.revocationAlg ≠ 0)) "unknown revocation algorithm"
  let _rh ← Res.index cred.attrs rhIndex
  let _rRh ← Res.nth ρ.rAttrs (searchInts hidden rhIndex)
  let nonRev ← nonRevContribution cri.revocationAlg
  let hAttrs ← parseAttrs T ipk.hAttrs
  let t1 := ρ.re • aPrime + ρ.rR2 • hRand
  let hHidden ← Res.mapM' (Res.nth hAttrs) hidden
  let t2 ← addPairs (ρ.rSPrime • hRand + (ρ.rR3 • bPrime + ρ.rSk • hSk)) ρ.rAttrs hHidden
  let t3 := ρ.rSk • hSk + ρ.rRNym • hRand
  pure { t1, t2, t3, aPrime, aBar, bPrime, nonRev, e, r3, sPrime, hidden }

/-- An attribute pseudonym under construction: the commitment, its t-value, the opening randomness and
the committed attribute. -/
structure AttrNymPart (S : Suite) where
  nym : S.G1
  t4 : S.G1
  r : S.F
  rr : S.F
  attr : S.F

/-- The opening randomness of an attribute pseudonym: from the metadata after checking the attribute, or
fresh (`signature.go:441-452`, `483-494`). -/
def nymRand (hasMeta : Bool) (audit : Option (AuditData S)) (attr rNew : S.F) : Res S.F :=
  if hasMeta then do
    let ad ← Res.ofOption "invalid argument, expected metadata" audit
    Res.guardErr (!decide (ad.attr = attr)) "audit metadata does not match (1)"
    pure ad.rand
  else pure rNew

/-- The metadata's pseudonym must be the computed one (`signature.go:473-477`, `515-519`). -/
def nymCheck (hasMeta : Bool) (audit : Option (AuditData S)) (nym : S.G1) : Res Unit :=
  if hasMeta then do
    let ad ← Res.ofOption "invalid argument, expected metadata" audit
    let mn ← Res.deref ad.nym
    Res.guardErr (!decide (mn = nym)) "audit metadata does not match (2)"
  else pure ()

/-- The attribute pseudonym part of `finalise` for one attribute (`signature.go:443-484` for the
enrollment id, `486-526` for the revocation handle): `audit` is the metadata for it, `rNew` the sample
used when no metadata is given. -/
def attrNymPart (cred : Credential) (ipk : IssuerPublicKey) (hidden : List Nat) (rAttrs : List S.F)
    (idx : Int) (hasMeta : Bool) (audit : Option (AuditData S)) (rNew rr : S.F) :
    Res (AttrNymPart S) := do
  let ab ← Res.index cred.attrs idx
  let attr := S.zrOfBytes ab
  let r ← nymRand hasMeta audit attr rNew
  let rA ← Res.nth rAttrs (searchInts hidden idx)
  let hE ← Res.index ipk.hAttrs idx
  let h ← T.g1FromProto hE
  let hRand ← T.g1FromProto ipk.hRand
  let nym := attr • h + r • hRand
  nymCheck hasMeta audit nym
  pure { nym, t4 := rA • h + rr • hRand, r, rr, attr }

/-- `if cond { v, err = f() }`: a step made only under a condition. -/
def optional {α : Type} (b : Bool) (x : Res α) : Res (Option α) :=
  if b then x.bind fun a => .ok (some a) else .ok none

/-- Label of a signature type (`signature.go:549-558`). -/
def sigLabel : SigType → Res Bytes
  | .standard => .ok signLabel
  | .eidNym => .ok signWithEidNymLabel
  | .eidNymRhNym => .ok signWithEidNymRhNymLabel
  | _ => .panic

/-- The points of an attribute pseudonym in the transcript, if present. -/
def nymPieces (S : Suite) : Option (S.G1 × S.G1) → List Bytes
  | none => []
  | some (nym, t4) => [S.g1Bytes nym, S.g1Bytes t4]

/-- First hash input of a signature (`signature.go:536-572` and `1023-1070`): `label` selects the
allocation size through `nPts`, the number of G1 points written. -/
def sigProofData (label : Bytes) (nPts : Nat) (alg : Int) (t1 t2 t3 aPrime aBar bPrime nym : S.G1)
    (eid rh : Option (S.G1 × S.G1)) (nonRev hash disclosure msg : Bytes) : Res Bytes := do
  let buf := Buf.make (S.scalarLen + disclosure.length + msg.length + proofBytes alg
    + (label.length + nPts * S.g1Len))
  let buf ← buf.appAll ([label, S.g1Bytes t1, S.g1Bytes t2, S.g1Bytes t3, S.g1Bytes aPrime,
    S.g1Bytes aBar, S.g1Bytes bPrime, S.g1Bytes nym] ++ nymPieces S eid ++ nymPieces S rh ++ [nonRev])
  let buf ← buf.slot S.scalarLen hash
  let buf ← buf.appAll [disclosure, msg]
  pure buf.data

/-- Number of G1 points in the transcript of a signature type (`signature.go:537-546`). -/
def sigPts : SigType → Res Nat
  | .standard => .ok 7
  | .eidNym => .ok 9
  | .eidNymRhNym => .ok 11
  | _ => .panic

/-- Signature types that carry an enrollment id pseudonym. -/
def SigType.hasEid : SigType → Bool
  | .eidNym => true
  | .eidNymRhNym => true
  | _ => false

/-- Signature types that carry a revocation handle pseudonym. -/
def SigType.hasRh : SigType → Bool
  | .eidNymRhNym => true
  | _ => false

/-- `rAttrs[i] + C·cred.Attrs[j]` for the hidden attributes (`signature.go:587-593`). -/
def attrResponses (cred : Credential) (proofC : S.F) (rAttrs : List S.F) (hidden : List Nat) :
    Res (List S.F) := do
  let vals ← Res.mapM' (Res.nth cred.attrs) hidden
  pure (List.zipWith (fun r v => r + proofC * S.zrOfBytes v) rAttrs vals)

/-- The wire form of an attribute pseudonym (`signature.go:656-671`). -/
def AttrNymPart.toWire (p : AttrNymPart S) (proofC : S.F) : AttrNym :=
  { nym := some (T.g1ToProto p.nym), proofS := some (S.zrBytes (p.rr + proofC * p.r)) }

/-- The audit data returned for an attribute pseudonym (`signature.go:674-700`). -/
def AttrNymPart.audit (p : AttrNymPart S) : AuditData S := { nym := some p.nym, rand := p.r, attr := p.attr }

/-- `finalise` (`signature.go:408-709`). -/
def finalise (cred : Credential) (sk : S.F) (nym : S.G1) (rNym : S.F) (ipk : IssuerPublicKey)
    (disclosure msg : Bytes) (rhIndex eidIndex : Int) (cri : CRI) (ρ : SigRand S) (p : Prepared S)
    (sigType : SigType) (md : Option (SignerMetadata S)) :
    Res (Signature × Option (SignerMetadata S)) := do
  let eid ← optional sigType.hasEid (attrNymPart T cred ipk p.hidden ρ.rAttrs eidIndex md.isSome
    (md.bind (·.eidNymAuditData)) ρ.rEid ρ.rREid)
  let rh ← optional sigType.hasRh (attrNymPart T cred ipk p.hidden ρ.rAttrs rhIndex md.isSome
    (md.bind (·.rhNymAuditData)) ρ.rRh ρ.rRRh)
  let label ← sigLabel sigType
  let nPts ← sigPts sigType
  let proofData ← sigProofData label nPts cri.revocationAlg p.t1 p.t2 p.t3 p.aPrime p.aBar p.bPrime nym
    (eid.map fun e => (e.nym, e.t4)) (rh.map fun e => (e.nym, e.t4)) p.nonRev ipk.hash disclosure msg
  let c := S.hashToZr proofData
  let proofData2 ← secondHash proofData c ρ.nonce
  let proofC := S.hashToZr proofData2
  let sAttrs ← attrResponses cred proofC ρ.rAttrs p.hidden
  let sig : Signature :=
    { aPrime := some (T.g1ToProto p.aPrime), aBar := some (T.g1ToProto p.aBar),
      bPrime := some (T.g1ToProto p.bPrime), proofC := S.zrBytes proofC,
      proofSSk := S.zrBytes (ρ.rSk + proofC * sk), proofSE := S.zrBytes (ρ.re - proofC * p.e),
      proofSR2 := S.zrBytes (ρ.rR2 + proofC * ρ.r2), proofSR3 := S.zrBytes (ρ.rR3 - proofC * p.r3),
      proofSSPrime := S.zrBytes (ρ.rSPrime + proofC * p.sPrime),
      proofSAttrs := sAttrs.map S.zrBytes, nonce := S.zrBytes ρ.nonce,
      nym := some (T.g1ToProto nym), proofSRNym := S.zrBytes (ρ.rRNym + proofC * rNym),
      revocationEpochPk := cri.epochPk, revocationPkSig := cri.epochPkSig, epoch := cri.epoch,
      nonRevocationProof := some { revocationAlg := 0, proof := [] },
      eidNym := eid.map (fun e => e.toWire T proofC), rhNym := rh.map (fun e => e.toWire T proofC) }
  let m : Option (SignerMetadata S) := eid.map fun e =>
    { eidNymAuditData := some e.audit, rhNymAuditData := rh.map (·.audit), eidNym := [], rhNym := [] }
  pure (sig, m)

/-- `Idemix.NewSignature` (`signature.go:55-79`) with `newSignature`, `newSignatureWithEIDNym` and
`newSignatureWithEIDNymAndRHNym` (`81-232`). -/
def newSignature (cred : Credential) (sk : S.F) (nym : S.G1) (rNym : S.F) (ipk : IssuerPublicKey)
    (disclosure msg : Bytes) (rhIndex eidIndex : Int) (cri : CRI) (ρ : SigRand S)
    (sigType : SigType) (md : Option (SignerMetadata S)) :
    Res (Signature × Option (SignerMetadata S)) :=
  match sigType with
  | .standard => do
    let p ← prepare T cred ipk disclosure rhIndex cri ρ
    finalise T cred sk nym rNym ipk disclosure msg rhIndex (-1) cri ρ p .standard md
  | .eidNym => do
    let d ← Res.index disclosure eidIndex
    Res.guardErr (decide (d ≠ 0)) "disclosure of enrollment ID requested"
    let p ← prepare T cred ipk disclosure rhIndex cri ρ
    finalise T cred sk nym rNym ipk disclosure msg rhIndex eidIndex cri ρ p .eidNym md
  | .eidNymRhNym => do
    let d ← Res.index disclosure eidIndex
    Res.guardErr (decide (d ≠ 0)) "disclosure of enrollment ID requested"
    let d' ← Res.index disclosure rhIndex
    Res.guardErr (decide (d' ≠ 0)) "disclosure of revocation handle requested"
    let p ← prepare T cred ipk disclosure rhIndex cri ρ
    finalise T cred sk nym rNym ipk disclosure msg rhIndex eidIndex cri ρ p .eidNymRhNym md
  | _ => .panic

/-- `Signature.AuditNymEid` and `AuditNymRh` (`signature.go:711-754`, `756-799`), which differ in the
field only; the comparison of the index with the number of bases lets negative indices through. -/
def auditSigNym (an : Option AttrNym) (ipk : IssuerPublicKey) (attr : S.F) (idx : Int) (r : S.F) :
    Res Unit := do
  let an ← Res.ofOption "no nym provided" an
  let en ← Res.ofOption "no nym provided" an.nym
  Res.guardErr (decide ((ipk.hAttrs.length : Int) ≤ idx)) "could not access H_a in array"
  let hE ← Res.index ipk.hAttrs idx
  let h ← T.g1FromProto hE
  let hRand ← T.g1FromProto ipk.hRand
  let nym ← T.g1FromProto (some en)
  Res.guardErr (!decide (attr • h + r • hRand = nym)) "nym does not match"

/-- `Signature.AuditNymEid` (`signature.go:711-754`). -/
def Signature.auditNymEid (sig : Signature) (ipk : IssuerPublicKey) (attr : S.F) (idx : Int) (r : S.F) :
    Res Unit := auditSigNym T sig.eidNym ipk attr idx r

/-- `Signature.AuditNymRh` (`signature.go:756-799`). -/
def Signature.auditNymRh (sig : Signature) (ipk : IssuerPublicKey) (attr : S.F) (idx : Int) (r : S.F) :
    Res Unit := auditSigNym T sig.rhNym ipk attr idx r

/-- `NymEID.AuditNymEid` (`nymeid.go:18-61`) and `NymRH.AuditNymRh` (`nymrh.go:18-61`): the same on the
raw bytes of the pseudonym. -/
def auditRawNym (nymBytes : Bytes) (ipk : IssuerPublicKey) (attr : S.F) (idx : Int) (r : S.F) :
    Res Unit := do
  Res.guardErr (decide (nymBytes.length = 0)) "no nym provided"
  Res.guardErr (decide ((ipk.hAttrs.length : Int) ≤ idx)) "could not access H_a in array"
  let hE ← Res.index ipk.hAttrs idx
  let h ← T.g1FromProto hE
  let hRand ← T.g1FromProto ipk.hRand
  let nym ← Res.ofOption "could not deserialize nym" (S.g1OfBytes nymBytes)
  Res.guardErr (!decide (attr • h + r • hRand = nym)) "nym does not match"

/-- The group `Σ` over disclosed attributes: `g1 · ∏ HAttrs[i]^{values[i]}`, panicking on missing bases
or values (`signature.go:948-955`). -/
def addDisclosed (hAttrs : List S.G1) (values : List (Option S.F)) (acc : S.G1) (i : Nat) :
    Bytes → Res S.G1
  | [] => .ok acc
  | d :: ds =>
    if d = 0 then addDisclosed hAttrs values acc (i + 1) ds
    else do
      let h ← Res.nth hAttrs i
      let v ← Res.nth values i
      let v ← Res.deref v
      addDisclosed hAttrs values (acc + v • h) (i + 1) ds

/-- Presence test `x == nil || x.Nym == nil || x.ProofS == nil` (`signature.go:829-842`). -/
def AttrNym.missing : Option AttrNym → Bool
  | none => true
  | some a => a.nym.isNone || a.proofS.isNone

/-- The verification-type decisions (`signature.go:829-855`). -/
def verTypeChecks (sig : Signature) (verType : VerType) : Res Unit := do
  Res.guardErr (decide (verType = .expectEidNym) && AttrNym.missing sig.eidNym)
    "no EidNym provided but ExpectEidNym required"
  Res.guardErr (decide (verType = .expectEidNymRhNym) && AttrNym.missing sig.eidNym)
    "no EidNym provided but ExpectEidNymRhNym required"
  Res.guardErr (decide (verType = .expectEidNymRhNym) && AttrNym.missing sig.rhNym)
    "no RhNym provided but ExpectEidNymRhNym required"
  Res.guardErr (decide (verType = .expectStandard) && sig.rhNym.isSome)
    "RhNym available but ExpectStandard required"
  Res.guardErr (decide (verType = .expectStandard) && sig.eidNym.isSome)
    "EidNym available but ExpectStandard required"

/-- `verifyRHNym` (`signature.go:854`). -/
def verifyRh (sig : Signature) (verType : VerType) : Bool :=
  (decide (verType = .bestEffort) && sig.rhNym.isSome) || decide (verType = .expectEidNymRhNym)

/-- `verifyEIDNym` (`signature.go:855`). -/
def verifyEid (sig : Signature) (verType : VerType) : Bool :=
  (decide (verType = .bestEffort) && sig.eidNym.isSome) || decide (verType = .expectEidNym)
    || decide (verType = .expectEidNymRhNym) || verifyRh sig verType

/-- Recomputation of a pseudonym's t-value (`signature.go:963-978` and `979-993`):
returns the pseudonym and `t4`. -/
def recomputeT4 (ipk : IssuerPublicKey) (hRand : S.G1) (proofC : S.F) (sAttrs : List S.F)
    (hidden : List Nat) (idx : Int) (an : Option AttrNym) : Res (S.G1 × S.G1) := do
  let hE ← Res.index ipk.hAttrs idx
  let h ← T.g1FromProto hE
  let an ← Res.deref an
  let sA ← Res.nth sAttrs (searchInts hidden idx)
  let v := S.zrOfBytes (an.proofS.getD []) -- a nil slice is read as the empty slice
  let nym ← T.g1FromProto an.nym
  pure (nym, sA • h + v • hRand - proofC • nym)

/-- Metadata audit of one pseudonym during verification (`signature.go:1080-1111`, `1113-1144`). -/
def metaAudit (ipk : IssuerPublicKey) (hRand nym : S.G1) (idx : Int) (ad : Option (AuditData S))
    (raw : Bytes) : Res Unit := do
  match ad with
  | none => pure ()
  | some ad => do
    let hE ← Res.index ipk.hAttrs idx
    let h ← T.g1FromProto hE
    Res.guardErr (!decide (ad.attr • h + ad.rand • hRand = nym)) "does not match regenerated nym"
    match ad.nym with
    | none => pure ()
    | some mn => Res.guardErr (!decide (nym = mn)) "does not match metadata"
  if raw.length = 0 then pure ()
  else do
    let n ← Res.ofOption "failed to unmarshal meta nym" (S.g1OfBytes raw)
    Res.guardErr (!decide (n = nym)) "signature nym does not match metadata"

/-- The audit is made only if metadata is given and the pseudonym is verified
(`signature.go:1080`, `1113`). -/
def metaAuditOpt (ipk : IssuerPublicKey) (hRand : S.G1) (idx : Int)
    (md : Option (Option (AuditData S) × Bytes)) (nym : Option S.G1) : Res Unit :=
  match md, nym with
  | some (ad, raw), some nym => metaAudit T ipk hRand nym idx ad raw
  | _, _ => .ok ()

/-- Label used by the verifier (`signature.go:1040-1046`). -/
def verLabel (vEid vRh : Bool) : Bytes :=
  if vRh then signWithEidNymRhNymLabel else if vEid then signWithEidNymLabel else signLabel

/-- Number of points the verifier allocates for (`signature.go:1031-1037`). -/
def verPts (vEid vRh : Bool) : Nat := if vRh then 11 else if vEid then 9 else 7

/-- The last part of `Signature.Ver` (`signature.go:1000-1193`): non-revocation contribution, transcript,
metadata audits and challenge comparison. -/
def verTail (sig : Signature) (ipk : IssuerPublicKey) (hRand : S.G1) (proofC nonce : S.F)
    (sAttrs : List S.F) (hidden : List Nat) (t1 t2 t3 aPrime aBar bPrime nym : S.G1)
    (eid rh : Option (S.G1 × S.G1)) (vEid vRh : Bool) (nrp : NonRevocationProof) (disclosure msg : Bytes)
    (rhIndex eidIndex : Int) (md : Option (SignerMetadata S)) : Res Unit := do
  Res.guardErr (decide (nrp.revocationAlg ≠ 0)) "unknown revocation algorithm"
  let _sRh ← Res.nth sAttrs (searchInts hidden rhIndex)
  let _epochPk ← T.g2FromProto sig.revocationEpochPk
  let nonRev ← nonRevContribution nrp.revocationAlg
  let proofData ← sigProofData (verLabel vEid vRh) (verPts vEid vRh) nrp.revocationAlg t1 t2 t3 aPrime
    aBar bPrime nym eid rh nonRev ipk.hash disclosure msg
  let c := S.hashToZr proofData
  let proofData2 ← secondHash proofData c nonce
  metaAuditOpt T ipk hRand eidIndex (md.map fun m => (m.eidNymAuditData, m.eidNym)) (eid.map Prod.fst)
  metaAuditOpt T ipk hRand rhIndex (md.map fun m => (m.rhNymAuditData, m.rhNym)) (rh.map Prod.fst)
  Res.guardErr (!decide (proofC = S.hashToZr proofData2))
    "signature invalid: zero-knowledge proof is invalid"

/-- `Signature.Ver` (`signature.go:805-1193`). `revPk` and `epoch` are parameters of the Go method that
its body never reads; they are kept to state that. -/
def Signature.ver {RevPk : Type} (sig : Signature) (disclosure : Bytes) (ipk : Option IssuerPublicKey)
    (msg : Bytes) (values : List (Option S.F)) (rhIndex eidIndex : Int) (_revPk : RevPk) (_epoch : Int)
    (verType : VerType) (md : Option (SignerMetadata S)) : Res Unit := do
  let ipk ← Res.ofOption "cannot verify idemix signature: received nil input" ipk
  Res.guardErr (decide (rhIndex < 0) || decide (ipk.attributeNames.length ≤ rhIndex)
      || decide (disclosure.length ≠ ipk.attributeNames.length))
    "cannot verify idemix signature: received invalid input"
  let nrp ← Res.deref sig.nonRevocationProof
  let dRh ← Res.index disclosure rhIndex
  Res.guardErr (decide (nrp.revocationAlg ≠ 0) && decide (dRh = 1))
    "attribute is disclosed but is also used as revocation handle"
  verTypeChecks sig verType
  let vRh := verifyRh sig verType
  let vEid := verifyEid sig verType
  let hidden := hiddenIndices disclosure
  let aPrime ← T.g1FromProto sig.aPrime
  let aBar ← T.g1FromProto sig.aBar
  let bPrime ← T.g1FromProto sig.bPrime
  let nym ← T.g1FromProto sig.nym
  let proofC := S.zrOfBytes sig.proofC
  let sSk := S.zrOfBytes sig.proofSSk
  let sE := S.zrOfBytes sig.proofSE
  let sR2 := S.zrOfBytes sig.proofSR2
  let sR3 := S.zrOfBytes sig.proofSR3
  let sSPrime := S.zrOfBytes sig.proofSSPrime
  let sRNym := S.zrOfBytes sig.proofSRNym
  Res.guardErr (decide (sig.proofSAttrs.length ≠ hidden.length))
    "signature invalid: incorrect amount of s-values for AttributeProofSpec"
  let sAttrs := sig.proofSAttrs.map S.zrOfBytes
  let nonce := S.zrOfBytes sig.nonce
  let w ← T.g2FromProto ipk.w
  let hRand ← T.g1FromProto ipk.hRand
  let hSk ← T.g1FromProto ipk.hSk
  Res.guardErr (decide (aPrime = 0)) "signature invalid: APrime = 1"
  Res.guardErr (!decide (S.pair w aPrime + -(S.pair S.genG2 aBar) = 0))
    "signature invalid: APrime and ABar don't have the expected structure"
  let hAttrs ← parseAttrs T ipk.hAttrs
  let t1 := (sE • aPrime + sR2 • hRand) - proofC • (aBar - bPrime)
  let hHidden ← Res.mapM' (Res.nth hAttrs) hidden
  let t2a ← addPairs (sSPrime • hRand + (sR3 • bPrime + sSk • hSk)) sAttrs hHidden
  let disc ← addDisclosed hAttrs values S.genG1 0 disclosure
  let t2 := t2a + proofC • disc
  let t3 := (sSk • hSk + sRNym • hRand) - proofC • nym
  let eid ← optional vEid (recomputeT4 T ipk hRand proofC sAttrs hidden eidIndex sig.eidNym)
  let rh ← optional vRh (recomputeT4 T ipk hRand proofC sAttrs hidden rhIndex sig.rhNym)
  verTail T sig ipk hRand proofC nonce sAttrs hidden t1 t2 t3 aPrime aBar bPrime nym eid rh vEid vRh nrp
    disclosure msg rhIndex eidIndex md

end Idemix.Dlog
