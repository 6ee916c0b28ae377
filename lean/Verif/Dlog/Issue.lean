import Verif.Base.Bin
import Verif.Dlog.Types

/-!
# dlog scheme: issuer keys, credential requests, credentials, pseudonym signatures

Model of `issuerkey.go`, `util.go`, `credrequest.go`, `credential.go`, `nymsignature.go` in
`bccsp/schemes/dlog/crypto`.  `rng` is modelled by passing the sampled scalars.  Failure of the random
source (a panic inside mathlib) is not modelled.
-/

namespace Idemix.Dlog

variable {S : Suite} (T : Translator S)

/-- Serialisation of the public key with `proto.Marshal`; it fails for names that are not UTF-8. A
parameter of the model (instantiated in `Verif/Dlog/Wire.lean`). -/
abbrev IpkMarshal := IssuerPublicKey → Res Bytes

/-- Scalars sampled by `newIssuerKey`, in sampling order. -/
structure IssuerRand (S : Suite) where
  isk : S.F
  attrs : List S.F
  hSk : S.F
  hRand : S.F
  barG1 : S.F
  r : S.F

/-- Fiat–Shamir input of the issuer key proof (`issuerkey.go:86-94` and `186-208`). -/
def ipkProofData (t1 : S.G2) (t2 barG1 : S.G1) (w : S.G2) (barG2 : S.G1) : Res Bytes := do
  let buf ← (Buf.make (3 * S.g1Len + 3 * S.g2Len)).appAll
    [S.g2Bytes t1, S.g1Bytes t2, S.g2Bytes S.genG2, S.g1Bytes barG1, S.g2Bytes w, S.g1Bytes barG2]
  pure buf.data

/-- `SetHash` (`issuerkey.go:224-233`): the key with its hash recomputed. -/
def setHash (m : IpkMarshal) (ipk : IssuerPublicKey) : Res IssuerPublicKey := do
  let ser ← m { ipk with hash := [] }
  pure { ipk with hash := S.zrBytes (S.hashToZr ser) }

/-- The public key assembled by `newIssuerKey` before its hash is set (`issuerkey.go:54-80`, `97-101`),
for the challenge `proofC`. -/
def unhashedIpk (names : List Bytes) (ρ : IssuerRand S) (proofC : S.F) : IssuerPublicKey :=
  { attributeNames := names
    hSk := some (T.g1ToProto (ρ.hSk • S.genG1))
    hRand := some (T.g1ToProto (ρ.hRand • S.genG1))
    hAttrs := ρ.attrs.map (fun a => some (T.g1ToProto (a • S.genG1)))
    w := some (T.g2ToProto (ρ.isk • S.genG2))
    barG1 := some (T.g1ToProto (ρ.barG1 • S.genG1))
    barG2 := some (T.g1ToProto (ρ.isk • (ρ.barG1 • S.genG1)))
    proofC := S.zrBytes proofC
    proofS := S.zrBytes (proofC * ρ.isk + ρ.r)
    hash := [] }

/-- `newIssuerKey` (`issuerkey.go:36-117`). -/
def newIssuerKey (m : IpkMarshal) (names : List Bytes) (ρ : IssuerRand S) : Res IssuerKey := do
  Res.guardErr (!decide names.Nodup) "attribute appears multiple times in AttributeNames"
  Res.guardPanic (ρ.attrs.length != names.length) -- the tape holds one sample per attribute
  let w := ρ.isk • S.genG2
  let barG1 := ρ.barG1 • S.genG1
  let barG2 := ρ.isk • barG1
  let t1 := ρ.r • S.genG2
  let t2 := ρ.r • barG1
  let proofData ← ipkProofData t1 t2 barG1 w barG2
  let proofC := S.hashToZr proofData
  let ipk := unhashedIpk T names ρ proofC
  let ser ← m ipk
  pure { isk := S.zrBytes ρ.isk, ipk := { ipk with hash := S.zrBytes (S.hashToZr ser) } }

/-- Parsing `ipk.HAttrs` (`issuerkey.go:154-160`, `credential.go:94-101`, `signature.go:924-931`). -/
def parseAttrs (l : List (Option ECP)) : Res (List S.G1) := Res.mapM' T.g1FromProto l

/-- `IssuerPublicKey.Check` (`issuerkey.go:140-221`); returns the key with its hash set. The nil tests
on the parsed points are subsumed by the parse errors of the translators. -/
def IssuerPublicKey.check (m : IpkMarshal) (ipk : IssuerPublicKey) : Res IssuerPublicKey := do
  let numAttrs := ipk.attributeNames.length
  let _hSk ← T.g1FromProto ipk.hSk
  let _hRand ← T.g1FromProto ipk.hRand
  let _hAttrs ← parseAttrs T ipk.hAttrs
  let barG1 ← T.g1FromProto ipk.barG1
  let barG2 ← T.g1FromProto ipk.barG2
  let w ← T.g2FromProto ipk.w
  let proofC := S.zrOfBytes ipk.proofC
  let proofS := S.zrOfBytes ipk.proofS
  Res.guardErr (decide (barG1 = 0) || decide (ipk.hAttrs.length < numAttrs))
    "some part of the public key is undefined"
  Res.guardErr ((ipk.hAttrs.take numAttrs).any Option.isNone)
    "some part of the public key is undefined"
  let t1 := proofS • S.genG2 + (-proofC) • w
  let t2 := proofS • barG1 + (-proofC) • barG2
  let proofData ← ipkProofData t1 t2 barG1 w barG2
  Res.guardErr (!decide (proofC = S.hashToZr proofData)) "zero knowledge proof in public key invalid"
  setHash (S := S) m ipk

/-- `makeNym` (`util.go:42-57`): `Nym = HSk^sk · HRand^r`. -/
def makeNym (sk : S.F) (ipk : IssuerPublicKey) (randNym : S.F) : Res (S.G1 × S.F) := do
  let hSk ← T.g1FromProto ipk.hSk
  let hRand ← T.g1FromProto ipk.hRand
  pure (sk • hSk + randNym • hRand, randNym)

/-- `makeNymFromBytes` (`util.go:63-74`): scalar, X coordinate, rest as Y coordinate. `coordLen` is
`curve.CoordByteSize`. -/
def makeNymFromBytes (coordLen : Nat) (raw : Bytes) : Res (S.G1 × S.F) := do
  let rb ← goSlice raw 0 S.scalarLen
  let x ← goSlice raw S.scalarLen (S.scalarLen + coordLen)
  let y ← goSlice raw (S.scalarLen + coordLen) raw.length
  let pk ← T.g1FromProto (some ⟨x, y⟩)
  pure (pk, S.zrOfBytes rb)

/-- Fiat–Shamir input of a credential request (`credrequest.go:61-69` and `112-119`). -/
def credReqProofData (t hSk nym : S.G1) (nonce hash : Bytes) : Res Bytes := do
  let buf := Buf.make (credRequestLabel.length + 3 * S.g1Len + 2 * S.scalarLen)
  let buf ← buf.appAll [credRequestLabel, S.g1Bytes t, S.g1Bytes hSk, S.g1Bytes nym, nonce]
  let buf ← buf.app hash
  pure buf.data

/-- `newCredRequest` (`credrequest.go:40-82`). -/
def newCredRequest (sk : S.F) (nonce : Option Bytes) (ipk : IssuerPublicKey) (rSk : S.F) :
    Res CredRequest := do
  let hSk ← T.g1FromProto ipk.hSk
  let nym := sk • hSk
  let t := rSk • hSk
  let proofData ← credReqProofData t hSk nym (nonce.getD []) ipk.hash
  let proofC := S.hashToZr proofData
  let proofS := proofC * sk + rSk
  pure { nym := some (T.g1ToProto nym), issuerNonce := nonce, proofC := S.zrBytes proofC,
         proofS := S.zrBytes proofS }

/-- `CredRequest.Check` (`credrequest.go:85-125`). -/
def CredRequest.check (req : CredRequest) (ipk : IssuerPublicKey) : Res Unit := do
  let nym ← T.g1FromProto req.nym
  let proofC := S.zrOfBytes req.proofC
  let proofS := S.zrOfBytes req.proofS
  let hSk ← T.g1FromProto ipk.hSk
  let nonce ← Res.ofOption "one of the proof values is undefined" req.issuerNonce
  let t := proofS • hSk - proofC • nym
  let proofData ← credReqProofData t hSk nym nonce ipk.hash
  Res.guardErr (!decide (proofC = S.hashToZr proofData)) "zero knowledge proof is invalid"

/-- The multi-exponentiation loop "two at a time, then the residue": accumulates `Σ exps[i]·bases[i]`,
panicking when a base is missing (`credential.go:105-118`, `183-194`; `signature.go:371-385`,
`942-947`). -/
def addPairs (acc : S.G1) : List S.F → List S.G1 → Res S.G1
  | [], _ => .ok acc
  | [a], P :: _ => .ok (acc + a • P)
  | a :: b :: as, P :: Q :: Ps => addPairs (acc + (a • P + b • Q)) as Ps
  | _, _ => .panic

/-- `newCredential` (`credential.go:52-138`). `e`, `s` are the sampled scalars; `InvModP` of zero is
modelled as zero. -/
def newCredential (key : IssuerKey) (req : CredRequest) (attrs : List S.F) (e s : S.F) :
    Res Credential := do
  req.check T key.ipk
  Res.guardErr (decide (attrs.length ≠ key.ipk.attributeNames.length))
    "incorrect number of attribute values passed"
  let nym ← T.g1FromProto req.nym
  let hRand ← T.g1FromProto key.ipk.hRand
  let hAttrs ← parseAttrs T key.ipk.hAttrs
  let b ← addPairs (S.genG1 + nym + s • hRand) attrs hAttrs
  let exp := (S.zrOfBytes key.isk + e)⁻¹
  let a := exp • b
  pure { a := some (T.g1ToProto a), b := some (T.g1ToProto b), e := S.zrBytes e, s := S.zrBytes s,
         attrs := attrs.map S.zrBytes }

/-- `Credential.Ver` (`credential.go:142-221`). -/
def Credential.ver (cred : Credential) (sk : S.F) (ipk : IssuerPublicKey) : Res Unit := do
  let a ← T.g1FromProto cred.a
  let b ← T.g1FromProto cred.b
  let e := S.zrOfBytes cred.e
  let s := S.zrOfBytes cred.s
  let hSk ← T.g1FromProto ipk.hSk
  let hRand ← T.g1FromProto ipk.hRand
  let hAttrs ← parseAttrs T ipk.hAttrs
  let bPrime ← addPairs (S.genG1 + (sk • hSk + s • hRand)) (cred.attrs.map S.zrOfBytes) hAttrs
  Res.guardErr (!decide (b = bPrime)) "b-value from credential does not match the attribute values"
  let w ← T.g2FromProto ipk.w
  let q := e • S.genG2 + w
  Res.guardErr (!decide (S.pair q a = S.pair S.genG2 b)) "credential is not cryptographically valid"

/-- First hash input of a pseudonym signature (`nymsignature.go:56-63` and `106-113`). -/
def nymSigProofData (t nym : S.G1) (hash msg : Bytes) : Res Bytes := do
  let buf := Buf.make (signLabel.length + 2 * S.g1Len + S.scalarLen + msg.length)
  let buf ← buf.appAll [signLabel, S.g1Bytes t, S.g1Bytes nym]
  let buf ← buf.slot S.scalarLen hash
  let buf ← buf.appAll [msg]
  pure buf.data

/-- Second hash: the front of the same buffer is overwritten with `c ‖ Nonce`
(`nymsignature.go:65-70`, `114-118`; `signature.go:573-578`, `1072-1077`). -/
def secondHash (proofData : Bytes) (c nonce : S.F) : Res Bytes := do
  let buf ← (Buf.mk proofData 0).reslice (2 * S.scalarLen)
  let buf ← buf.appAll [S.zrBytes c, S.zrBytes nonce]
  pure buf.data

/-- Scalars sampled by `newNymSignature`. -/
structure NymRand (S : Suite) where
  nonce : S.F
  rSk : S.F
  rRNym : S.F

/-- `newNymSignature` (`nymsignature.go:21-83`). -/
def newNymSignature (sk : S.F) (nym : S.G1) (rNym : S.F) (ipk : IssuerPublicKey) (msg : Bytes)
    (ρ : NymRand S) : Res NymSignature := do
  let hRand ← T.g1FromProto ipk.hRand
  let hSk ← T.g1FromProto ipk.hSk
  let t := ρ.rSk • hSk + ρ.rRNym • hRand
  let proofData ← nymSigProofData t nym ipk.hash msg
  let c := S.hashToZr proofData
  let proofData2 ← secondHash proofData c ρ.nonce
  let proofC := S.hashToZr proofData2
  pure { proofC := S.zrBytes proofC, proofSSk := S.zrBytes (ρ.rSk + proofC * sk),
         proofSRNym := S.zrBytes (ρ.rRNym + proofC * rNym), nonce := S.zrBytes ρ.nonce }

/-- `NymSignature.Ver` (`nymsignature.go:86-128`). -/
def NymSignature.ver (sig : NymSignature) (nym : S.G1) (ipk : IssuerPublicKey) (msg : Bytes) :
    Res Unit := do
  let proofC := S.zrOfBytes sig.proofC
  let proofSSk := S.zrOfBytes sig.proofSSk
  let proofSRNym := S.zrOfBytes sig.proofSRNym
  let nonce := S.zrOfBytes sig.nonce
  let hRand ← T.g1FromProto ipk.hRand
  let hSk ← T.g1FromProto ipk.hSk
  let t := (proofSSk • hSk + proofSRNym • hRand) - proofC • nym
  let proofData ← nymSigProofData t nym ipk.hash msg
  let c := S.hashToZr proofData
  let proofData2 ← secondHash proofData c nonce
  Res.guardErr (!decide (proofC = S.hashToZr proofData2))
    "pseudonym signature invalid: zero-knowledge proof is invalid"

end Idemix.Dlog
