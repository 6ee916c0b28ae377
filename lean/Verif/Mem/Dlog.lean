import Verif.Mem.Ops
import Verif.Dlog.Sign
import Verif.WeakBB

/-!
# The dlog scheme on the heap (`bccsp/schemes/dlog/crypto`, `bccsp/schemes/weak-bb`)

The functions of `Verif/Dlog/Issue.lean` and `Verif/Dlog/Sign.lean` once more, with the pointers of the code: what is copied,
what is changed in place and what is shared is as in the Go code. Points and scalars are cells, and so is the field `Hash` of
an issuer public key, the only field of a message of the scheme that is assigned after the message has been made
(`issuerkey.go:224-233`). Everything else in protobuf messages is a value. `ModAdd`, `ModSub`, `ModMul` and `ModNeg` return a
new object; `G1FromProto`, `NewZrFromBytes`, `HashToZr` and `NewRandomZr` make one; `G1ToProto`, `Bytes`, `Equals`,
`IsInfinity` and `Pairing` read.
-/

namespace Idemix.Mem.Dlog

open Idemix.Dlog (IssuerPublicKey IssuerKey CredRequest Credential NymSignature Signature AttrNym CRI SigType VerType
  NonRevocationProof NymRand SigRand IpkMarshal)

/-- The constants of the curve that the scheme uses: `GenG1` and `GenG2`. -/
structure Consts where
  genG1 : Ptr .g1
  genG2 : Ptr .g2

/-- An issuer public key: the fields that are never assigned (`fields.hash` is not used), and the field `Hash`. -/
structure Ipk where
  fields : IssuerPublicKey
  hash : Ptr .bytes

/-- `types.AttrNymAuditData` (`bccsp/types/idemixopts.go`). -/
structure AuditPtr where
  nym : Option (Ptr .g1)
  rand : Ptr .zr
  attr : Ptr .zr

/-- `types.IdemixSignerMetadata` (`bccsp/types/idemixopts.go`). -/
structure MetaPtr where
  eidNymAuditData : Option AuditPtr
  rhNymAuditData : Option AuditPtr
  eidNym : Bytes
  rhNym : Bytes

variable {S : Suite} (T : Translator S) (c : Consts)

/-! ## Messages -/

/-- `Translator.G1FromProto`. -/
def g1FromProto (o : Option ECP) : Prog S (Ptr .g1) := do
  let v ← .lift (T.g1FromProto o)
  new .g1 v

/-- `Translator.G2FromProto`. -/
def g2FromProto (o : Option ECP2) : Prog S (Ptr .g2) := do
  let v ← .lift (T.g2FromProto o)
  new .g2 v

/-- `Translator.G1ToProto`. -/
def g1ToProto (p : Ptr .g1) : Prog S ECP := do
  let v ← load p
  pure (T.g1ToProto v)

/-- `Zr.Bytes`. -/
def zrBytes (p : Ptr .zr) : Prog S Bytes := do
  let v ← load p
  pure (S.zrBytes v)

/-- `Zr.Bytes` of each of several scalars. -/
def zrsBytes (ps : List (Ptr .zr)) : Prog S (List Bytes) := do
  let vs ← loadAll ps
  pure (vs.map S.zrBytes)

/-- New scalars. -/
def newZrs : List S.F → Prog S (List (Ptr .zr))
  | [] => pure []
  | x :: xs => do
    let p ← new .zr x
    let ps ← newZrs xs
    pure (p :: ps)

/-- Parsing `ipk.HAttrs` (`credential.go:92-99`, `174-181`; `signature.go:365-372`, `933-940`). -/
def parseAttrs : List (Option ECP) → Prog S (List (Ptr .g1))
  | [] => pure []
  | o :: os => do
    let p ← g1FromProto T o
    let ps ← parseAttrs os
    pure (p :: ps)

/-- The loops "two at a time, then the residue" (`credential.go:103-116`, `187-198`; `signature.go:380-392`, `951-956`), which
add to `acc` in place. -/
def addPairs (acc : Ptr .g1) : List (Ptr .zr) → List (Ptr .g1) → Prog S Unit
  | [], _ => pure ()
  | [a], P :: _ => do
    let t ← g1Mul P a
    g1Add acc t
  | a :: b :: as, P :: Q :: Ps => do
    let t ← g1Mul2 P a Q b
    g1Add acc t
    addPairs acc as Ps
  | _, _ => .panic

/-- `ModAdd(x, ModMul(c, y))` (`credrequest.go:73`, `nymsignature.go:73-74`, `signature.go:589-599`, `667`, `675`). -/
def respond (x pc y : Ptr .zr) : Prog S (Ptr .zr) := do
  let m ← zrMul pc y
  zrPlus x m

/-- `ModSub(x, ModMul(c, y))` (`signature.go:590`, `592`). -/
def respondSub (x pc y : Ptr .zr) : Prog S (Ptr .zr) := do
  let m ← zrMul pc y
  zrMinus x m

/-! ## Issuer keys (`issuerkey.go`) -/

/-- The t-value in `G2` that `Check` recomputes (`issuerkey.go:202-203`). -/
def checkT1 (proofC proofS : Ptr .zr) (w : Ptr .g2) : Prog S (Ptr .g2) := do
  let t1 ← g2Mul c.genG2 proofS
  let zero ← new .zr (0 : S.F)
  let n ← zrMinus zero proofC
  let m ← g2Mul w n
  g2Add t1 m
  pure t1

/-- The one in `G1` (`issuerkey.go:205-206`). -/
def checkT2 (proofC proofS : Ptr .zr) (barG1 barG2 : Ptr .g1) : Prog S (Ptr .g1) := do
  let t2 ← g1Mul barG1 proofS
  let zero ← new .zr (0 : S.F)
  let n ← zrMinus zero proofC
  let m ← g1Mul barG2 n
  g1Add t2 m
  pure t2

/-- `IssuerPublicKey.Check` before it sets the hash (`issuerkey.go:140-218`). `ModNeg` is the difference to 0. -/
def checkKey (ipk : Ipk) : Prog S Unit := do
  let numAttrs := ipk.fields.attributeNames.length
  let _hSk ← g1FromProto T ipk.fields.hSk
  let _hRand ← g1FromProto T ipk.fields.hRand
  let _hAttrs ← parseAttrs T ipk.fields.hAttrs
  let barG1 ← g1FromProto T ipk.fields.barG1
  let barG2 ← g1FromProto T ipk.fields.barG2
  let w ← g2FromProto T ipk.fields.w
  let proofC ← new .zr (S.zrOfBytes ipk.fields.proofC)
  let proofS ← new .zr (S.zrOfBytes ipk.fields.proofS)
  let b1 ← load barG1
  .lift (Res.guardErr (decide ((b1 : S.G1) = 0) || decide (ipk.fields.hAttrs.length < numAttrs))
    "some part of the public key is undefined")
  .lift (Res.guardErr ((ipk.fields.hAttrs.take numAttrs).any Option.isNone)
    "some part of the public key is undefined")
  let t1 ← checkT1 c proofC proofS w
  let t2 ← checkT2 proofC proofS barG1 barG2
  let t1v ← load t1
  let t2v ← load t2
  let g2v ← load c.genG2
  let b1 ← load barG1
  let wv ← load w
  let b2 ← load barG2
  let buf ← .lift ((Buf.make (3 * S.g1Len + 3 * S.g2Len)).appAll
    [S.g2Bytes t1v, S.g1Bytes t2v, S.g2Bytes g2v, S.g1Bytes b1, S.g2Bytes wv, S.g1Bytes b2])
  let cv ← load proofC
  .lift (Res.guardErr (!decide ((cv : S.F) = S.hashToZr buf.data)) "zero knowledge proof in public key invalid")

/-- `SetHash` (`issuerkey.go:224-233`): the field is cleared, the key serialised with what is then in the field, and the field
set to the hash. -/
def setHash (m : IpkMarshal) (ipk : Ipk) : Prog S Unit :=
  .write (k := .bytes) ipk.hash ([] : Bytes) <|
    .read (k := .bytes) ipk.hash fun (b : Bytes) => do
      let ser ← .lift (m { ipk.fields with hash := b })
      .write (k := .bytes) ipk.hash (S.zrBytes (S.hashToZr ser)) (.done ())

/-- `IssuerPublicKey.Check` (`issuerkey.go:140-221`). -/
def check (m : IpkMarshal) (ipk : Ipk) : Prog S Unit := do
  checkKey T c ipk
  setHash m ipk

/-! ## Pseudonyms and credential requests (`util.go`, `credrequest.go`) -/

/-- `makeNym` (`util.go:42-57`). -/
def makeNym (sk : Ptr .zr) (ipk : Ipk) (randNym : S.F) : Prog S (Ptr .g1 × Ptr .zr) := do
  let randNym ← new .zr randNym
  let hSk ← g1FromProto T ipk.fields.hSk
  let hRand ← g1FromProto T ipk.fields.hRand
  let nym ← g1Mul2 hSk sk hRand randNym
  pure (nym, randNym)

/-- `newCredRequest` (`credrequest.go:40-82`). -/
def newCredRequest (sk : Ptr .zr) (nonce : Option Bytes) (ipk : Ipk) (rSk : S.F) : Prog S CredRequest := do
  let hSk ← g1FromProto T ipk.fields.hSk
  let nym ← g1Mul hSk sk
  let rSk ← new .zr rSk
  let t ← g1Mul hSk rSk
  let tv ← load t
  let hSkv ← load hSk
  let nymv ← load nym
  let hash ← load ipk.hash
  let proofData ← .lift (Idemix.Dlog.credReqProofData tv hSkv nymv (nonce.getD []) hash)
  let proofC ← new .zr (S.hashToZr proofData)
  let m ← zrMul proofC sk
  let proofS ← zrPlus m rSk
  let nymp ← g1ToProto T nym
  let pcb ← zrBytes proofC
  let psb ← zrBytes proofS
  pure { nym := some nymp, issuerNonce := nonce, proofC := pcb, proofS := psb }

/-- `P^x / Q^c`: the recomputed t-value of a credential request (`credrequest.go:107-108`). -/
def mulSub (P : Ptr .g1) (x : Ptr .zr) (Q : Ptr .g1) (pc : Ptr .zr) : Prog S (Ptr .g1) := do
  let t ← g1Mul P x
  let m ← g1Mul Q pc
  g1Sub t m
  pure t

/-- `P^x · Q^y / R^c`: the recomputed t-values of pseudonyms (`nymsignature.go:105-106`, `signature.go:967-968`). -/
def mul2Sub (P : Ptr .g1) (x : Ptr .zr) (Q : Ptr .g1) (y : Ptr .zr) (R : Ptr .g1) (pc : Ptr .zr) : Prog S (Ptr .g1) := do
  let t ← g1Mul2 P x Q y
  let m ← g1Mul R pc
  g1Sub t m
  pure t

/-- `CredRequest.Check` (`credrequest.go:85-125`). -/
def checkRequest (req : CredRequest) (ipk : Ipk) : Prog S Unit := do
  let nym ← g1FromProto T req.nym
  let proofC ← new .zr (S.zrOfBytes req.proofC)
  let proofS ← new .zr (S.zrOfBytes req.proofS)
  let hSk ← g1FromProto T ipk.fields.hSk
  let nonce ← .lift (Res.ofOption "one of the proof values is undefined" req.issuerNonce)
  let t ← mulSub hSk proofS nym proofC
  let tv ← load t
  let hSkv ← load hSk
  let nymv ← load nym
  let hash ← load ipk.hash
  let proofData ← .lift (Idemix.Dlog.credReqProofData tv hSkv nymv nonce hash)
  let cv ← load proofC
  .lift (Res.guardErr (!decide ((cv : S.F) = S.hashToZr proofData)) "zero knowledge proof is invalid")

/-! ## Credentials (`credential.go`) -/

/-- `B` of a new credential (`credential.go:79-116`). The parsing of the points comes before it here; in the code it is between
the additions. -/
def credentialB (nym hRand : Ptr .g1) (s : Ptr .zr) (attrs : List (Ptr .zr)) (hAttrs : List (Ptr .g1)) :
    Prog S (Ptr .g1) := do
  let b ← copy c.genG1
  g1Add b nym
  let m ← g1Mul hRand s
  g1Add b m
  addPairs b attrs hAttrs
  pure b

/-- The exponent (`credential.go:119-120`). -/
def credentialExp (isk : Bytes) (e : Ptr .zr) : Prog S (Ptr .zr) := do
  let x ← new .zr (S.zrOfBytes isk)
  let exp ← zrPlus x e
  zrInv exp
  pure exp

/-- `newCredential` (`credential.go:52-138`). -/
def newCredential (isk : Bytes) (ipk : Ipk) (req : CredRequest) (attrs : List (Ptr .zr)) (e s : S.F) :
    Prog S Credential := do
  checkRequest T req ipk
  .lift (Res.guardErr (decide (attrs.length ≠ ipk.fields.attributeNames.length))
    "incorrect number of attribute values passed")
  let e ← new .zr e
  let s ← new .zr s
  let nym ← g1FromProto T req.nym
  let hRand ← g1FromProto T ipk.fields.hRand
  let hAttrs ← parseAttrs T ipk.fields.hAttrs
  let b ← credentialB c nym hRand s attrs hAttrs
  let exp ← credentialExp isk e
  let a ← g1Mul b exp
  let ab ← zrsBytes attrs
  let ap ← g1ToProto T a
  let bp ← g1ToProto T b
  let eb ← zrBytes e
  let sb ← zrBytes s
  pure { a := some ap, b := some bp, e := eb, s := sb, attrs := ab }

/-- `BPrime` (`credential.go:184-198`). The scalars of the attributes are made before it here. -/
def verB (hSk : Ptr .g1) (sk : Ptr .zr) (hRand : Ptr .g1) (s : Ptr .zr) (attrs : List (Ptr .zr)) (hAttrs : List (Ptr .g1)) :
    Prog S (Ptr .g1) := do
  let b ← copy c.genG1
  let m ← g1Mul2 hSk sk hRand s
  g1Add b m
  addPairs b attrs hAttrs
  pure b

/-- `g2^e · w` (`credential.go:209-211`). -/
def verQ (e : Ptr .zr) (w : Ptr .g2) : Prog S (Ptr .g2) := do
  let a ← g2Mul c.genG2 e
  g2Add a w
  renew a
  pure a

/-- `Credential.Ver` (`credential.go:142-221`). -/
def verCredential (cred : Credential) (sk : Ptr .zr) (ipk : Ipk) : Prog S Unit := do
  let a ← g1FromProto T cred.a
  let b ← g1FromProto T cred.b
  let e ← new .zr (S.zrOfBytes cred.e)
  let s ← new .zr (S.zrOfBytes cred.s)
  let hSk ← g1FromProto T ipk.fields.hSk
  let hRand ← g1FromProto T ipk.fields.hRand
  let hAttrs ← parseAttrs T ipk.fields.hAttrs
  let attrs ← newZrs (cred.attrs.map S.zrOfBytes)
  let bPrime ← verB c hSk sk hRand s attrs hAttrs
  let bv ← load b
  let bpv ← load bPrime
  .lift (Res.guardErr (!decide ((bv : S.G1) = bpv)) "b-value from credential does not match the attribute values")
  let w ← g2FromProto T ipk.fields.w
  let q ← verQ c e w
  let qv ← load q
  let av ← load a
  let g2v ← load c.genG2
  let bv ← load b
  .lift (Res.guardErr (!decide (S.pair qv av = S.pair g2v bv)) "credential is not cryptographically valid")

/-! ## Pseudonym signatures (`nymsignature.go`) -/

/-- `newNymSignature` (`nymsignature.go:21-83`). -/
def newNymSignature (sk : Ptr .zr) (nym : Ptr .g1) (rNym : Ptr .zr) (ipk : Ipk) (msg : Bytes) (ρ : NymRand S) :
    Prog S NymSignature := do
  let nonce ← new .zr ρ.nonce
  let hRand ← g1FromProto T ipk.fields.hRand
  let hSk ← g1FromProto T ipk.fields.hSk
  let rSk ← new .zr ρ.rSk
  let rRNym ← new .zr ρ.rRNym
  let t ← g1Mul2 hSk rSk hRand rRNym
  let tv ← load t
  let nymv ← load nym
  let hash ← load ipk.hash
  let proofData ← .lift (Idemix.Dlog.nymSigProofData tv nymv hash msg)
  let c ← new .zr (S.hashToZr proofData)
  let cv ← load c
  let nv ← load nonce
  let proofData2 ← .lift (Idemix.Dlog.secondHash proofData cv nv)
  let proofC ← new .zr (S.hashToZr proofData2)
  let sSk ← respond rSk proofC sk
  let sRNym ← respond rRNym proofC rNym
  let b1 ← zrBytes proofC
  let b2 ← zrBytes sSk
  let b3 ← zrBytes sRNym
  let b4 ← zrBytes nonce
  pure { proofC := b1, proofSSk := b2, proofSRNym := b3, nonce := b4 }

/-- `NymSignature.Ver` (`nymsignature.go:86-128`). -/
def verNymSignature (sig : NymSignature) (nym : Ptr .g1) (ipk : Ipk) (msg : Bytes) : Prog S Unit := do
  let proofC ← new .zr (S.zrOfBytes sig.proofC)
  let proofSSk ← new .zr (S.zrOfBytes sig.proofSSk)
  let proofSRNym ← new .zr (S.zrOfBytes sig.proofSRNym)
  let nonce ← new .zr (S.zrOfBytes sig.nonce)
  let hRand ← g1FromProto T ipk.fields.hRand
  let hSk ← g1FromProto T ipk.fields.hSk
  let t ← mul2Sub hSk proofSSk hRand proofSRNym nym proofC
  let tv ← load t
  let nymv ← load nym
  let hash ← load ipk.hash
  let proofData ← .lift (Idemix.Dlog.nymSigProofData tv nymv hash msg)
  let c ← new .zr (S.hashToZr proofData)
  let cv ← load c
  let nv ← load nonce
  let proofData2 ← .lift (Idemix.Dlog.secondHash proofData cv nv)
  let pcv ← load proofC
  .lift (Res.guardErr (!decide ((pcv : S.F) = S.hashToZr proofData2))
    "pseudonym signature invalid: zero-knowledge proof is invalid")

/-! ## Signatures (`signature.go`) -/

/-- Result of `prepare` (`signature.go:397-405`). -/
structure PreparedPtr where
  t1 : Ptr .g1
  t2 : Ptr .g1
  t3 : Ptr .g1
  aPrime : Ptr .g1
  aBar : Ptr .g1
  bPrime : Ptr .g1
  nonRev : Bytes
  e : Ptr .zr
  nonce : Ptr .zr
  rSk : Ptr .zr
  rSPrime : Ptr .zr
  rR2 : Ptr .zr
  rR3 : Ptr .zr
  r2 : Ptr .zr
  r3 : Ptr .zr
  re : Ptr .zr
  sPrime : Ptr .zr
  rRNym : Ptr .zr
  rAttrs : List (Ptr .zr)
  hidden : List Nat

/-- `r3` (`signature.go:276-277`). -/
def invCopy (r1 : Ptr .zr) : Prog S (Ptr .zr) := do
  let r3 ← copy r1
  zrInv r3
  pure r3

/-- `ABar` (`signature.go:303-304`). -/
def prepareABar (b : Ptr .g1) (r1 : Ptr .zr) (aPrime : Ptr .g1) (e : Bytes) : Prog S (Ptr .g1) := do
  let aBar ← g1Mul b r1
  let x ← new .zr (S.zrOfBytes e)
  let m ← g1Mul aPrime x
  g1Sub aBar m
  pure aBar

/-- `t2` (`signature.go:378-392`, and the first part of `949-956`). -/
def t2Block (hRand : Ptr .g1) (rSPrime : Ptr .zr) (bPrime : Ptr .g1) (rR3 : Ptr .zr) (hSk : Ptr .g1) (rSk : Ptr .zr)
    (rAttrs : List (Ptr .zr)) (hHidden : List (Ptr .g1)) : Prog S (Ptr .g1) := do
  let t2 ← g1Mul hRand rSPrime
  let m ← g1Mul2 bPrime rR3 hSk rSk
  g1Add t2 m
  addPairs t2 rAttrs hHidden
  pure t2

/-- `prepare` (`signature.go:234-406`). `B.Mul(r1)` of `BPrime` is taken just before the subtraction here; in the code
`HRand` and `HSk` are parsed in between. The indices of the hidden attributes are looked up before `t2` here; in the code in
the loop. -/
def prepare (cred : Credential) (ipk : Ipk) (disclosure : Bytes) (rhIndex : Int) (cri : CRI) (ρ : SigRand S) :
    Prog S PreparedPtr := do
  .lift (Res.guardErr (decide (rhIndex < 0) || decide (ipk.fields.attributeNames.length ≤ rhIndex)
      || decide (disclosure.length ≠ ipk.fields.attributeNames.length))
    "cannot create idemix signature: received invalid input")
  let dRh ← .lift (Res.index disclosure rhIndex)
  .lift (Res.guardErr (decide (cri.revocationAlg ≠ 0) && decide (dRh = 1))
    "attribute is disclosed but also used as revocation handle attribute")
  let hidden := Idemix.Dlog.hiddenIndices disclosure
  .lift (Res.guardPanic (ρ.rAttrs.length != hidden.length)) -- the tape holds one sample per hidden attribute
  let r1 ← new .zr ρ.r1
  let r2 ← new .zr ρ.r2
  let r3 ← invCopy r1
  let nonce ← new .zr ρ.nonce
  let a ← g1FromProto T cred.a
  let b ← g1FromProto T cred.b
  let aPrime ← g1Mul a r1
  let aBar ← prepareABar b r1 aPrime cred.e
  let hRand ← g1FromProto T ipk.fields.hRand
  let hSk ← g1FromProto T ipk.fields.hSk
  let bPrime ← mulSub b r1 hRand r2
  let s ← new .zr (S.zrOfBytes cred.s)
  let e ← new .zr (S.zrOfBytes cred.e)
  let m ← zrMul r2 r3
  let sPrime ← zrMinus s m
  let rSk ← new .zr ρ.rSk
  let re ← new .zr ρ.re
  let rR2 ← new .zr ρ.rR2
  let rR3 ← new .zr ρ.rR3
  let rSPrime ← new .zr ρ.rSPrime
  let rRNym ← new .zr ρ.rRNym
  let rAttrs ← newZrs ρ.rAttrs
  .lift (Res.guardErr (decide (cri.revocationAlg ≠ 0)) "unknown revocation algorithm")
  let rh ← .lift (Res.index cred.attrs rhIndex)
  let _rh ← new .zr (S.zrOfBytes rh)
  let _rRh ← .lift (Res.nth rAttrs (Idemix.Dlog.searchInts hidden rhIndex))
  let nonRev ← .lift (Idemix.Dlog.nonRevContribution cri.revocationAlg)
  let hAttrs ← parseAttrs T ipk.fields.hAttrs
  let t1 ← g1Mul2 aPrime re hRand rR2
  let hHidden ← .lift (Res.mapM' (Res.nth hAttrs) hidden)
  let t2 ← t2Block hRand rSPrime bPrime rR3 hSk rSk rAttrs hHidden
  let t3 ← g1Mul2 hSk rSk hRand rRNym
  pure { t1, t2, t3, aPrime, aBar, bPrime, nonRev, e, nonce, rSk, rSPrime, rR2, rR3, r2, r3, re, sPrime, rRNym, rAttrs,
         hidden }

/-- An attribute pseudonym under construction (the local variables of `signature.go:433-436`). -/
structure AttrNymPtr where
  nym : Ptr .g1
  t4 : Ptr .g1
  r : Ptr .zr
  rr : Ptr .zr
  attr : Ptr .zr

/-- The opening randomness: the object in the metadata itself, or a new one (`signature.go:441-452`, `484-495`). -/
def nymRand (hasMeta : Bool) (audit : Option AuditPtr) (attr : Ptr .zr) (rNew : S.F) : Prog S (Ptr .zr) :=
  if hasMeta then do
    let ad ← .lift (Res.ofOption "invalid argument, expected metadata" audit)
    let x ← load ad.attr
    let y ← load attr
    .lift (Res.guardErr (!decide ((x : S.F) = y)) "audit metadata does not match (1)")
    pure ad.rand
  else new .zr rNew

/-- The metadata's pseudonym must be the computed one (`signature.go:472-476`, `515-519`). -/
def nymCheck (hasMeta : Bool) (audit : Option AuditPtr) (nym : Ptr .g1) : Prog S Unit :=
  if hasMeta then do
    let ad ← .lift (Res.ofOption "invalid argument, expected metadata" audit)
    let mn ← .lift (Res.deref ad.nym)
    let x ← load mn
    let y ← load nym
    .lift (Res.guardErr (!decide ((x : S.G1) = y)) "audit metadata does not match (2)")
  else pure ()

/-- The attribute pseudonym part of `finalise` (`signature.go:439-480`, `482-523`). -/
def attrNymPart (cred : Credential) (ipk : Ipk) (hidden : List Nat) (rAttrs : List (Ptr .zr)) (idx : Int) (hasMeta : Bool)
    (audit : Option AuditPtr) (rNew rr : S.F) : Prog S AttrNymPtr := do
  let ab ← .lift (Res.index cred.attrs idx)
  let attr ← new .zr (S.zrOfBytes ab)
  let r ← nymRand hasMeta audit attr rNew
  let rA ← .lift (Res.nth rAttrs (Idemix.Dlog.searchInts hidden idx))
  let hE ← .lift (Res.index ipk.fields.hAttrs idx)
  let h ← g1FromProto T hE
  let hRand ← g1FromProto T ipk.fields.hRand
  let rr ← new .zr rr
  let nym ← g1Mul2 h attr hRand r
  nymCheck hasMeta audit nym
  let t4 ← g1Mul2 h rA hRand rr
  pure { nym, t4, r, rr, attr }

/-- `if cond { v, err = f() }`. -/
def optional {α : Type} (b : Bool) (x : Prog S α) : Prog S (Option α) :=
  if b then do
    let a ← x
    pure (some a)
  else pure none

/-- The points of an attribute pseudonym in the transcript, if present. -/
def loadNym : Option (Ptr .g1 × Ptr .g1) → Prog S (Option (S.G1 × S.G1))
  | none => pure none
  | some (nym, t4) => do
    let x ← load nym
    let y ← load t4
    pure (some (x, y))

/-- `rAttrs[i] + C·cred.Attrs[j]` for the hidden attributes (`signature.go:595-600`), whose values have been read. -/
def responses (proofC : Ptr .zr) : List (Ptr .zr) → List Bytes → Prog S (List Bytes)
  | r :: rs, v :: vs => do
    let x ← new .zr (S.zrOfBytes v)
    let s ← respond r proofC x
    let b ← zrBytes s
    let bs ← responses proofC rs vs
    pure (b :: bs)
  | _, _ => pure []

/-- The responses for the hidden attributes (`signature.go:595-600`). The values are looked up first here; in the code in the
loop. -/
def attrResponses (cred : Credential) (proofC : Ptr .zr) (rAttrs : List (Ptr .zr)) (hidden : List Nat) :
    Prog S (List Bytes) := do
  let vals ← .lift (Res.mapM' (Res.nth cred.attrs) hidden)
  responses proofC rAttrs vals

/-- The wire form of an attribute pseudonym (`signature.go:666-680`). -/
def toWire (proofC : Ptr .zr) : Option AttrNymPtr → Prog S (Option AttrNym)
  | none => pure none
  | some p => do
    let s ← respond p.rr proofC p.r
    let n ← g1ToProto T p.nym
    let b ← zrBytes s
    pure (some { nym := some n, proofS := some b })

/-- The audit data returned (`signature.go:682-706`): the objects themselves. -/
def AttrNymPtr.audit (p : AttrNymPtr) : AuditPtr := { nym := some p.nym, rand := p.r, attr := p.attr }

/-- The hash of the transcript, twice (`signature.go:525-586`). -/
def challenge (sigType : SigType) (ipk : Ipk) (disclosure msg : Bytes) (cri : CRI) (p : PreparedPtr) (nym : Ptr .g1)
    (eid rh : Option (Ptr .g1 × Ptr .g1)) : Prog S (Ptr .zr) := do
  let label ← .lift (Idemix.Dlog.sigLabel sigType)
  let nPts ← .lift (Idemix.Dlog.sigPts sigType)
  let t1 ← load p.t1
  let t2 ← load p.t2
  let t3 ← load p.t3
  let aPrime ← load p.aPrime
  let aBar ← load p.aBar
  let bPrime ← load p.bPrime
  let nymv ← load nym
  let e ← loadNym eid
  let rv ← loadNym rh
  let hash ← load ipk.hash
  let proofData ← .lift (Idemix.Dlog.sigProofData label nPts cri.revocationAlg t1 t2 t3 aPrime aBar bPrime nymv e rv p.nonRev
    hash disclosure msg)
  let c ← new .zr (S.hashToZr proofData)
  let cv ← load c
  let nv ← load p.nonce
  let proofData2 ← .lift (Idemix.Dlog.secondHash proofData cv nv)
  new .zr (S.hashToZr proofData2)

/-- `finalise` (`signature.go:408-709`). -/
def finalise (cred : Credential) (sk : Ptr .zr) (nym : Ptr .g1) (rNym : Ptr .zr) (ipk : Ipk) (disclosure msg : Bytes)
    (rhIndex eidIndex : Int) (cri : CRI) (ρ : SigRand S) (p : PreparedPtr) (sigType : SigType) (md : Option MetaPtr) :
    Prog S (Signature × Option MetaPtr) := do
  let eid ← optional sigType.hasEid (attrNymPart T cred ipk p.hidden p.rAttrs eidIndex md.isSome
    (md.bind (·.eidNymAuditData)) ρ.rEid ρ.rREid)
  let rh ← optional sigType.hasRh (attrNymPart T cred ipk p.hidden p.rAttrs rhIndex md.isSome
    (md.bind (·.rhNymAuditData)) ρ.rRh ρ.rRRh)
  let proofC ← challenge sigType ipk disclosure msg cri p nym (eid.map fun e => (e.nym, e.t4)) (rh.map fun e => (e.nym, e.t4))
  let sSk ← respond p.rSk proofC sk
  let sE ← respondSub p.re proofC p.e
  let sR2 ← respond p.rR2 proofC p.r2
  let sR3 ← respondSub p.rR3 proofC p.r3
  let sSPrime ← respond p.rSPrime proofC p.sPrime
  let sRNym ← respond p.rRNym proofC rNym
  let sAttrs ← attrResponses cred proofC p.rAttrs p.hidden
  let aPrime ← g1ToProto T p.aPrime
  let aBar ← g1ToProto T p.aBar
  let bPrime ← g1ToProto T p.bPrime
  let b1 ← zrBytes proofC
  let b2 ← zrBytes sSk
  let b3 ← zrBytes sE
  let b4 ← zrBytes sR2
  let b5 ← zrBytes sR3
  let b6 ← zrBytes sSPrime
  let b7 ← zrBytes p.nonce
  let nymp ← g1ToProto T nym
  let b8 ← zrBytes sRNym
  let eidw ← toWire T proofC eid
  let rhw ← toWire T proofC rh
  pure ({ aPrime := some aPrime, aBar := some aBar, bPrime := some bPrime, proofC := b1, proofSSk := b2, proofSE := b3,
          proofSR2 := b4, proofSR3 := b5, proofSSPrime := b6, proofSAttrs := sAttrs, nonce := b7, nym := some nymp,
          proofSRNym := b8, revocationEpochPk := cri.epochPk, revocationPkSig := cri.epochPkSig, epoch := cri.epoch,
          nonRevocationProof := some { revocationAlg := 0, proof := [] }, eidNym := eidw, rhNym := rhw },
    eid.map fun e => { eidNymAuditData := some e.audit, rhNymAuditData := rh.map (·.audit), eidNym := [], rhNym := [] })

/-- `Idemix.NewSignature` (`signature.go:55-79`) with `newSignature`, `newSignatureWithEIDNym` and
`newSignatureWithEIDNymAndRHNym` (`81-232`). -/
def newSignature (cred : Credential) (sk : Ptr .zr) (nym : Ptr .g1) (rNym : Ptr .zr) (ipk : Ipk) (disclosure msg : Bytes)
    (rhIndex eidIndex : Int) (cri : CRI) (ρ : SigRand S) (sigType : SigType) (md : Option MetaPtr) :
    Prog S (Signature × Option MetaPtr) :=
  match sigType with
  | .standard => do
    let p ← prepare T cred ipk disclosure rhIndex cri ρ
    finalise T cred sk nym rNym ipk disclosure msg rhIndex (-1) cri ρ p .standard md
  | .eidNym => do
    let d ← .lift (Res.index disclosure eidIndex)
    .lift (Res.guardErr (decide (d ≠ 0)) "disclosure of enrollment ID requested")
    let p ← prepare T cred ipk disclosure rhIndex cri ρ
    finalise T cred sk nym rNym ipk disclosure msg rhIndex eidIndex cri ρ p .eidNym md
  | .eidNymRhNym => do
    let d ← .lift (Res.index disclosure eidIndex)
    .lift (Res.guardErr (decide (d ≠ 0)) "disclosure of enrollment ID requested")
    let d' ← .lift (Res.index disclosure rhIndex)
    .lift (Res.guardErr (decide (d' ≠ 0)) "disclosure of revocation handle requested")
    let p ← prepare T cred ipk disclosure rhIndex cri ρ
    finalise T cred sk nym rNym ipk disclosure msg rhIndex eidIndex cri ρ p .eidNymRhNym md
  | _ => .panic

/-! ## Audits (`signature.go:711-799`, `nymeid.go`, `nymrh.go`) -/

/-- `Signature.AuditNymEid` and `AuditNymRh` (`signature.go:711-754`, `756-799`). -/
def auditSigNym (an : Option AttrNym) (ipk : Ipk) (attr : Ptr .zr) (idx : Int) (r : Ptr .zr) : Prog S Unit := do
  let an ← .lift (Res.ofOption "no nym provided" an)
  let en ← .lift (Res.ofOption "no nym provided" an.nym)
  .lift (Res.guardErr (decide ((ipk.fields.hAttrs.length : Int) ≤ idx)) "could not access H_a in array")
  let hE ← .lift (Res.index ipk.fields.hAttrs idx)
  let h ← g1FromProto T hE
  let hRand ← g1FromProto T ipk.fields.hRand
  let nym ← g1FromProto T (some en)
  let m ← g1Mul2 h attr hRand r
  let mv ← load m
  let nv ← load nym
  .lift (Res.guardErr (!decide ((mv : S.G1) = nv)) "nym does not match")

/-- `NymEID.AuditNymEid` (`nymeid.go:18-61`) and `NymRH.AuditNymRh` (`nymrh.go:18-61`). -/
def auditRawNym (nymBytes : Bytes) (ipk : Ipk) (attr : Ptr .zr) (idx : Int) (r : Ptr .zr) : Prog S Unit := do
  .lift (Res.guardErr (decide (nymBytes.length = 0)) "no nym provided")
  .lift (Res.guardErr (decide ((ipk.fields.hAttrs.length : Int) ≤ idx)) "could not access H_a in array")
  let hE ← .lift (Res.index ipk.fields.hAttrs idx)
  let h ← g1FromProto T hE
  let hRand ← g1FromProto T ipk.fields.hRand
  let n ← .lift (Res.ofOption "could not deserialize nym" (S.g1OfBytes nymBytes))
  let nym ← new .g1 n
  let m ← g1Mul2 h attr hRand r
  let mv ← load m
  let nv ← load nym
  .lift (Res.guardErr (!decide ((mv : S.G1) = nv)) "nym does not match")

/-! ## Verification (`signature.go:801-1193`) -/

/-- The product of the disclosed attributes, in place (`signature.go:959-963`). -/
def addDisclosed (hAttrs : List (Ptr .g1)) (values : List (Option (Ptr .zr))) (acc : Ptr .g1) (i : Nat) :
    Bytes → Prog S Unit
  | [] => pure ()
  | d :: ds =>
    if d = 0 then addDisclosed hAttrs values acc (i + 1) ds
    else do
      let h ← .lift (Res.nth hAttrs i)
      let v ← .lift (Res.nth values i)
      let v ← .lift (Res.deref v)
      let m ← g1Mul h v
      g1Add acc m
      addDisclosed hAttrs values acc (i + 1) ds

/-- The inverse of `e(g2, ABar)` (`signature.go:922-923`). -/
def pairInv (aBar : Ptr .g1) : Prog S (Ptr .gt) := do
  let gv ← load c.genG2
  let bv ← load aBar
  let temp2 ← new .gt (S.pair gv bv)
  gtInv temp2
  pure temp2

/-- The check of the pairings (`signature.go:921-927`). -/
def pairings (w : Ptr .g2) (aPrime aBar : Ptr .g1) : Prog S Bool := do
  let wv ← load w
  let av ← load aPrime
  let temp1 ← new .gt (S.pair wv av)
  let temp2 ← pairInv c aBar
  gtMul temp1 temp2
  let v ← load temp1
  pure (decide ((v : S.GT) = 0))

/-- `(ABar / BPrime)^C` (`signature.go:943-946`). -/
def verTemp (aBar bPrime : Ptr .g1) (proofC : Ptr .zr) : Prog S (Ptr .g1) := do
  let temp ← copy aBar
  g1Sub temp bPrime
  g1Mul temp proofC

/-- `t1` (`signature.go:942-946`). -/
def verT1 (aPrime : Ptr .g1) (sE : Ptr .zr) (hRand : Ptr .g1) (sR2 : Ptr .zr) (aBar bPrime : Ptr .g1) (proofC : Ptr .zr) :
    Prog S (Ptr .g1) := do
  let t1 ← g1Mul2 aPrime sE hRand sR2
  let m ← verTemp aBar bPrime proofC
  g1Sub t1 m
  pure t1

/-- `(g1 · ∏ …)^C` over the disclosed attributes (`signature.go:957-964`). -/
def verDisclosed (hAttrs : List (Ptr .g1)) (values : List (Option (Ptr .zr))) (disclosure : Bytes) (proofC : Ptr .zr) :
    Prog S (Ptr .g1) := do
  let temp ← copy c.genG1
  addDisclosed hAttrs values temp 0 disclosure
  g1Mul temp proofC

/-- `t2` (`signature.go:949-964`). -/
def verT2 (hRand : Ptr .g1) (sSPrime : Ptr .zr) (bPrime : Ptr .g1) (sR3 : Ptr .zr) (hSk : Ptr .g1) (sSk : Ptr .zr)
    (sAttrs : List (Ptr .zr)) (hHidden hAttrs : List (Ptr .g1)) (values : List (Option (Ptr .zr))) (disclosure : Bytes)
    (proofC : Ptr .zr) : Prog S (Ptr .g1) := do
  let t2 ← t2Block hRand sSPrime bPrime sR3 hSk sSk sAttrs hHidden
  let m ← verDisclosed c hAttrs values disclosure proofC
  g1Add t2 m
  pure t2

/-- `v.Mod` (`signature.go:978-979`; `994` without it). -/
def verV (b : Bytes) : Prog S (Ptr .zr) := do
  let v ← new .zr (S.zrOfBytes b)
  renew v
  pure v

/-- A pseudonym's t-value (`signature.go:972-986`, `988-1000`). The pseudonym is parsed before the multiplication here; in the
code after it. -/
def recomputeT4 (ipk : Ipk) (hRand : Ptr .g1) (proofC : Ptr .zr) (sAttrs : List (Ptr .zr)) (hidden : List Nat) (idx : Int)
    (an : Option AttrNym) : Prog S (Ptr .g1 × Ptr .g1) := do
  let hE ← .lift (Res.index ipk.fields.hAttrs idx)
  let h ← g1FromProto T hE
  let an ← .lift (Res.deref an)
  let sA ← .lift (Res.nth sAttrs (Idemix.Dlog.searchInts hidden idx))
  let v ← verV (an.proofS.getD [])
  let nym ← g1FromProto T an.nym
  let t4 ← mul2Sub h sA hRand v nym proofC
  pure (nym, t4)

/-- Metadata audit of one pseudonym (`signature.go:1080-1111`, `1113-1144`). The pseudonym is the object that was parsed before;
in the code it is parsed again. -/
def metaAudit (ipk : Ipk) (hRand nym : Ptr .g1) (idx : Int) (ad : Option AuditPtr) (raw : Bytes) : Prog S Unit := do
  match ad with
  | none => pure ()
  | some ad => do
    let hE ← .lift (Res.index ipk.fields.hAttrs idx)
    let h ← g1FromProto T hE
    let m ← g1Mul2 h ad.attr hRand ad.rand
    let mv ← load m
    let nv ← load nym
    .lift (Res.guardErr (!decide ((mv : S.G1) = nv)) "does not match regenerated nym")
    match ad.nym with
    | none => pure ()
    | some mn => do
      let nv ← load nym
      let mv ← load mn
      .lift (Res.guardErr (!decide ((nv : S.G1) = mv)) "does not match metadata")
  if raw.length = 0 then pure ()
  else do
    let n ← .lift (Res.ofOption "failed to unmarshal meta nym" (S.g1OfBytes raw))
    let n ← new .g1 n
    let x ← load n
    let nv ← load nym
    .lift (Res.guardErr (!decide ((x : S.G1) = nv)) "signature nym does not match metadata")

/-- The audit is made only if metadata is given and the pseudonym is verified (`signature.go:1080`, `1113`). -/
def metaAuditOpt (ipk : Ipk) (hRand : Ptr .g1) (idx : Int) (md : Option (Option AuditPtr × Bytes)) (nym : Option (Ptr .g1)) :
    Prog S Unit :=
  match md, nym with
  | some (ad, raw), some nym => metaAudit T ipk hRand nym idx ad raw
  | _, _ => .done ()

/-- The last part of `Signature.Ver` (`signature.go:1001-1193`). -/
def verTail (sig : Signature) (ipk : Ipk) (hRand : Ptr .g1) (proofC nonce : Ptr .zr) (sAttrs : List (Ptr .zr))
    (hidden : List Nat) (t1 t2 t3 aPrime aBar bPrime nym : Ptr .g1) (eid rh : Option (Ptr .g1 × Ptr .g1)) (vEid vRh : Bool)
    (nrp : NonRevocationProof) (disclosure msg : Bytes) (rhIndex eidIndex : Int) (md : Option MetaPtr) : Prog S Unit := do
  .lift (Res.guardErr (decide (nrp.revocationAlg ≠ 0)) "unknown revocation algorithm")
  let _sRh ← .lift (Res.nth sAttrs (Idemix.Dlog.searchInts hidden rhIndex))
  let _epochPk ← g2FromProto T sig.revocationEpochPk
  let nonRev ← .lift (Idemix.Dlog.nonRevContribution nrp.revocationAlg)
  let t1 ← load t1
  let t2 ← load t2
  let t3 ← load t3
  let aPrime ← load aPrime
  let aBar ← load aBar
  let bPrime ← load bPrime
  let nym ← load nym
  let e ← loadNym eid
  let rv ← loadNym rh
  let hash ← load ipk.hash
  let proofData ← .lift (Idemix.Dlog.sigProofData (Idemix.Dlog.verLabel vEid vRh) (Idemix.Dlog.verPts vEid vRh)
    nrp.revocationAlg t1 t2 t3 aPrime aBar bPrime nym e rv nonRev hash disclosure msg)
  let c ← new .zr (S.hashToZr proofData)
  let cv ← load c
  let nv ← load nonce
  let proofData2 ← .lift (Idemix.Dlog.secondHash proofData cv nv)
  metaAuditOpt T ipk hRand eidIndex (md.map fun m => (m.eidNymAuditData, m.eidNym)) (eid.map Prod.fst)
  metaAuditOpt T ipk hRand rhIndex (md.map fun m => (m.rhNymAuditData, m.rhNym)) (rh.map Prod.fst)
  let pcv ← load proofC
  .lift (Res.guardErr (!decide ((pcv : S.F) = S.hashToZr proofData2)) "signature invalid: zero-knowledge proof is invalid")

/-- `Signature.Ver` (`signature.go:805-1193`). -/
def verSignature (sig : Signature) (disclosure : Bytes) (ipk : Option Ipk) (msg : Bytes) (values : List (Option (Ptr .zr)))
    (rhIndex eidIndex : Int) (verType : VerType) (md : Option MetaPtr) : Prog S Unit := do
  let ipk ← .lift (Res.ofOption "cannot verify idemix signature: received nil input" ipk)
  .lift (Res.guardErr (decide (rhIndex < 0) || decide (ipk.fields.attributeNames.length ≤ rhIndex)
      || decide (disclosure.length ≠ ipk.fields.attributeNames.length))
    "cannot verify idemix signature: received invalid input")
  let nrp ← .lift (Res.deref sig.nonRevocationProof)
  let dRh ← .lift (Res.index disclosure rhIndex)
  .lift (Res.guardErr (decide (nrp.revocationAlg ≠ 0) && decide (dRh = 1))
    "attribute is disclosed but is also used as revocation handle")
  .lift (Idemix.Dlog.verTypeChecks sig verType)
  let vRh := Idemix.Dlog.verifyRh sig verType
  let vEid := Idemix.Dlog.verifyEid sig verType
  let hidden := Idemix.Dlog.hiddenIndices disclosure
  let aPrime ← g1FromProto T sig.aPrime
  let aBar ← g1FromProto T sig.aBar
  let bPrime ← g1FromProto T sig.bPrime
  let nym ← g1FromProto T sig.nym
  let proofC ← new .zr (S.zrOfBytes sig.proofC)
  let sSk ← new .zr (S.zrOfBytes sig.proofSSk)
  let sE ← new .zr (S.zrOfBytes sig.proofSE)
  let sR2 ← new .zr (S.zrOfBytes sig.proofSR2)
  let sR3 ← new .zr (S.zrOfBytes sig.proofSR3)
  let sSPrime ← new .zr (S.zrOfBytes sig.proofSSPrime)
  let sRNym ← new .zr (S.zrOfBytes sig.proofSRNym)
  .lift (Res.guardErr (decide (sig.proofSAttrs.length ≠ hidden.length))
    "signature invalid: incorrect amount of s-values for AttributeProofSpec")
  let sAttrs ← newZrs (sig.proofSAttrs.map S.zrOfBytes)
  let nonce ← new .zr (S.zrOfBytes sig.nonce)
  let w ← g2FromProto T ipk.fields.w
  let hRand ← g1FromProto T ipk.fields.hRand
  let hSk ← g1FromProto T ipk.fields.hSk
  let av ← load aPrime
  .lift (Res.guardErr (decide ((av : S.G1) = 0)) "signature invalid: APrime = 1")
  let good ← pairings c w aPrime aBar
  .lift (Res.guardErr (!good) "signature invalid: APrime and ABar don't have the expected structure")
  let hAttrs ← parseAttrs T ipk.fields.hAttrs
  let t1 ← verT1 aPrime sE hRand sR2 aBar bPrime proofC
  let hHidden ← .lift (Res.mapM' (Res.nth hAttrs) hidden)
  let t2 ← verT2 c hRand sSPrime bPrime sR3 hSk sSk sAttrs hHidden hAttrs values disclosure proofC
  let t3 ← mul2Sub hSk sSk hRand sRNym nym proofC
  let eid ← optional vEid (recomputeT4 T ipk hRand proofC sAttrs hidden eidIndex sig.eidNym)
  let rh ← optional vRh (recomputeT4 T ipk hRand proofC sAttrs hidden rhIndex sig.rhNym)
  verTail T sig ipk hRand proofC nonce sAttrs hidden t1 t2 t3 aPrime aBar bPrime nym eid rh vEid vRh nrp
    disclosure msg rhIndex eidIndex md

/-! ## Weak Boneh-Boyen signatures (`weak-bb.go`) -/

/-- `WbbSign` (`weak-bb.go:27-34`). -/
def wbbSign (sk m : Ptr .zr) : Prog S (Ptr .g1) := do
  let exp ← credentialExpOf sk m
  g1Mul c.genG1 exp
where
  /-- `exp` (`weak-bb.go:29-30`) -/
  credentialExpOf (sk m : Ptr .zr) : Prog S (Ptr .zr) := do
    let exp ← zrPlus sk m
    zrInv exp
    pure exp

/-- `P` (`weak-bb.go:42-45`). -/
def wbbP (pk : Ptr .g2) (m : Ptr .zr) : Prog S (Ptr .g2) := do
  let p ← copy pk
  let x ← g2Mul c.genG2 m
  g2Add p x
  renew p
  pure p

/-- `WbbVerify` (`weak-bb.go:37-52`). `GenGt` is the pairing of the generators. -/
def wbbVerify (pk : Option (Ptr .g2)) (sig : Option (Ptr .g1)) (m : Option (Ptr .zr)) : Prog S Unit :=
  match pk, sig, m with
  | some pk, some sig, some m => do
    let p ← wbbP c pk m
    let pv ← load p
    let sv ← load sig
    .lift (Res.guardErr (!decide (S.pair pv sv = S.pair S.genG2 S.genG1)) "weak-BB signature is invalid")
  | _, _, _ => .fail "weak-BB signature invalid: received nil input"

end Idemix.Mem.Dlog
