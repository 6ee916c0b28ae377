import Verif.Aries.Wire
import Verif.Bbs.Model
import Verif.Dlog.Types

/-!
# The aries scheme: issuance, keys, pseudonyms, revocation

Model of `bccsp/schemes/aries/{util,cred,credrequest,blind_sign,issuer,user,nymsigner,revocation}.go`.
Random scalars are arguments. Scalars and points passed in are never nil. Interface-typed keys are `Dyn`.
Slices are assumed to have no spare capacity. `UserSecretKeyIndex` is the argument `skIdx`.
-/

namespace Idemix.Aries

open Bbs

variable {S : Suite} (L : Lib S)

/-! ## issuer.go -/

/-- `IssuerPublicKey` (`issuer.go:22-27`). -/
structure IPK (S : Suite) where
  w : S.G2
  pkg : PKG S
  n : Int

/-- `IssuerSecretKey` (`issuer.go:41-44`). -/
structure ISK (S : Suite) where
  pk : IPK S
  sk : S.F

/-- `IssuerPublicKey.Bytes` (`issuer.go:30-32`). -/
def IPK.bytes (k : IPK S) : Bytes := S.g2Comp k.w
/-- `IssuerPublicKey.Hash` (`issuer.go:36-38`). -/
def IPK.hash (k : IPK S) : Bytes := S.g2Comp k.w
/-- `IssuerSecretKey.Bytes` (`issuer.go:47-49`). -/
def ISK.bytes (k : ISK S) : Bytes := S.zrBytes k.sk

/-- `Issuer.NewKey` (`issuer.go:91-117`) with the sampled 32-byte seed. -/
def newKey (names : List Bytes) (seed : Bytes) : Res (ISK S) := do
  let (w, sk) ← generateKeyPair L (some seed) []
  let pkg ← toPKG w (names.length + 1)
  pure ⟨⟨w, pkg, names.length⟩, sk⟩

/-- `Issuer.NewKeyFromBytes` (`issuer.go:121-142`). -/
def newKeyFromBytes (S : Suite) (raw : Bytes) (names : List Bytes) : Res (ISK S) := do
  let sk ← unmarshalPrivateKey S raw
  let pkg ← toPKG (publicKey sk) (names.length + 1)
  pure ⟨⟨publicKey sk, pkg, names.length⟩, sk⟩

/-- `Issuer.NewPublicKeyFromBytes` (`issuer.go:146-162`). -/
def newPublicKeyFromBytes (S : Suite) (raw : Bytes) (names : List Bytes) : Res (IPK S) := do
  let w ← unmarshalPublicKey S raw
  let pkg ← toPKG w (names.length + 1)
  pure ⟨w, pkg, names.length⟩

/-- `Issuer.Bases` (`issuer.go:64-88`): the base pairs for the pseudonym, the enrolment id and the revocation
handle. `isDlog` says whether the requested type is `types.Dlog`. -/
def issuerBases (key : Dyn (IPK S)) (isDlog : Bool) (rhIndex eidIndex skIndex : Int) :
    Res (List S.G1 × List S.G1 × List S.G1) := do
  Res.guardErr (!isDlog) "invalid ipk type"
  let ipk ← key.get "invalid issuer public key"
  Res.guardErr (decide (rhIndex = eidIndex) || decide (eidIndex = skIndex) || decide (rhIndex = skIndex) ||
    decide (ipk.n ≤ rhIndex) || decide (ipk.n ≤ eidIndex) || decide (ipk.n ≤ skIndex)) "invalid indices"
  let hSk ← Res.index ipk.pkg.h skIndex
  let hEid ← Res.index ipk.pkg.h (eidIndex + 1)
  let hRh ← Res.index ipk.pkg.h (rhIndex + 1)
  pure ([ipk.pkg.h0, hSk], [ipk.pkg.h0, hEid], [ipk.pkg.h0, hRh])

/-! ## user.go -/

/-- `User.NewKeyFromBytes` (`user.go:32-38`). -/
def userKeyFromBytes (S : Suite) (raw : Bytes) : Res S.F := do
  Res.guardErr (decide (raw.length ≠ S.scalarLen)) "invalid length"
  pure (S.zrOfBytes raw)

/-- `User.MakeNym` (`user.go:41-58`). -/
def makeNym (sk : S.F) (key : Dyn (IPK S)) (skIdx : Int) (rNym : S.F) : Res (S.G1 × S.F) := do
  let ipk ← key.get "invalid issuer public key"
  let h ← Res.index ipk.pkg.h skIdx
  let nym ← build [ipk.pkg.h0, h] [rNym, sk]
  pure (nym, rNym)

/-- `User.NewNymFromBytes` (`user.go:60-72`). -/
def nymFromBytes (S : Suite) (raw : Bytes) : Res (S.G1 × S.F) := do
  Res.guardErr (decide (raw.length ≠ S.scalarLen + S.g1Len)) "invalid length"
  let r ← goSlice raw 0 S.scalarLen
  let p ← goSlice raw S.scalarLen raw.length
  let nym ← Res.ofOption "invalid point" (S.g1OfBytes p)
  pure (nym, S.zrOfBytes r)

/-- `User.NewPublicNymFromBytes` (`user.go:75-86`). -/
def publicNymFromBytes (S : Suite) (raw : Bytes) : Res S.G1 := do
  Res.guardErr (decide (raw.length ≠ S.g1Len)) "invalid length"
  Res.ofOption "invalid point" (S.g1OfBytes raw)

/-! ## util.go -/

/-- The scalar of a supplied attribute (`util.go:20-33`): nil for hidden attributes and for unknown types,
which are passed over in the same way; a value of the wrong dynamic type panics. -/
def attrFr (a : IdemixAttribute) : Res (Option S.F) :=
  if a.type = 1 then
    match a.value with
    | .bytes b => .ok (some (frFromOKM L b))
    | _ => .panic
  else if a.type = 2 then
    match a.value with
    | .int i => .ok (some (S.zrOfInt i))
    | _ => .panic
  else .ok none

/-- The loop of `attributesToSignatureMessage`, from position `i` on. -/
def attrMsgs : Nat → List IdemixAttribute → Res (List (SigMsg S))
  | _, [] => .ok []
  | i, a :: as => do
    let v ← attrFr L a
    let rest ← attrMsgs (i + 1) as
    match v with
    | some fr => pure (⟨fr, i⟩ :: rest)
    | none => pure rest

/-- The hidden attribute that `attributesToSignatureMessage` puts at the position of the secret key. -/
def hiddenAttr : IdemixAttribute := ⟨0, .other⟩

/-- `attributesToSignatureMessage` (`util.go:15-37`). -/
def attributesToSignatureMessage (attributes : List IdemixAttribute) (skPos : Int) : Res (List (SigMsg S)) := do
  Res.guardPanic (decide (skPos < 0) || decide ((attributes.length : Int) < skPos))
  attrMsgs L 0 (attributes.take skPos.toNat ++ [hiddenAttr] ++ attributes.drop skPos.toNat)

/-- Positions of the attributes that are not hidden, counted from `i` on. -/
def notHidden : Nat → List IdemixAttribute → List Nat
  | _, [] => []
  | i, a :: as => if a.type ≠ 0 then i :: notHidden (i + 1) as else notHidden (i + 1) as

/-- `revealedAttributesIndexNoSk` (`util.go:39-49`). -/
def revealedAttributesIndexNoSk (attributes : List IdemixAttribute) : List Nat := notHidden 0 attributes
/-- `revealedAttributesIndex` (`util.go:51-61`): one more than the position, whatever the position of the
secret key. -/
def revealedAttributesIndex (attributes : List IdemixAttribute) : List Nat := notHidden 1 attributes

/-- The loop of `toSignatureMessage` (`util.go:67-79`): `todo` iterations are left, at position `i`. -/
def credMsgs (S : Suite) (sk : S.F) (skPos : Int) : Nat → Nat → List Bytes → Res (List (SigMsg S))
  | 0, _, _ => .ok []
  | todo + 1, i, attrs =>
    if (i : Int) = skPos then do
      let rest ← credMsgs S sk skPos todo (i + 1) attrs
      pure (⟨sk, i⟩ :: rest)
    else
      match attrs with
      | [] => .panic
      | a :: attrs => do
        let rest ← credMsgs S sk skPos todo (i + 1) attrs
        pure (⟨S.zrOfBytes a, i⟩ :: rest)

/-- `Credential.toSignatureMessage` (`util.go:63-82`). -/
def Credential.toSignatureMessage (c : Credential) (sk : S.F) : Res (List (SigMsg S)) :=
  credMsgs S sk c.skPos (c.attrs.length + 1) 0 c.attrs

/-! ## blind_sign.go -/

/-- `BlindedMessages` (`blind_sign.go:20-25`, `75-78`) as exchanged: the commitment, the commitment of the proof
that is hashed, and the proof. -/
structure Blinded (S : Suite) where
  c : S.G1
  pokC : S.G1
  proof : ProofG1 S

/-- `BlindedMessages.Bytes` (`blind_sign.go:27-35`). -/
def Blinded.bytes (b : Blinded S) : Res Bytes := do
  let p ← b.proof.toBytes
  pure (S.g1Comp b.c ++ S.g1Comp b.pokC ++ p)

/-- `ParseBlindedMessages` (`blind_sign.go:37-70`). -/
def parseBlindedMessages (S : Suite) (raw : Bytes) : Res (Blinded S) := do
  let n := S.g1CompLen
  Res.guardErr (raw.length < 2 * n) "invalid blinded messages: input too short"
  let b1 ← goSlice raw 0 n
  let c ← Res.ofOption "parse G1 point (C)" (S.g1OfComp b1)
  let b2 ← goSlice raw n (n + n)
  let pokC ← Res.ofOption "parse G1 point (PoKC)" (S.g1OfComp b2)
  let b3 ← goSlice raw (n + n) raw.length
  let proof ← parseProofG1 S b3
  pure ⟨c, pokC, proof⟩

/-- Generators at the positions selected (`blind_sign.go:90-96`, `152-160`). -/
def selectGens (pk : PKG S) (positions : List Nat) : Res (List S.G1) :=
  Res.mapM' (fun i : Nat => Res.index pk.h i) positions

/-- Positions of `true`, from `i` on. -/
def trueAt : Nat → List Bool → List Nat
  | _, [] => []
  | i, b :: bs => if b then i :: trueAt (i + 1) bs else trueAt (i + 1) bs

/-- `VerifyProof` (`blind_sign.go:82-104`). -/
def Blinded.verifyProof (b : Blinded S) (messages : List Bool) (commitment : S.G1) (challenge : S.F) (w : S.G2) :
    Res Unit := do
  let pk ← toPKG w messages.length
  let hs ← selectGens pk (trueAt 0 messages)
  match b.proof.verify (pk.h0 :: hs) commitment challenge with
  | .err _ => .err "invalid proof"
  | y => y

/-- The challenge of blinded messages (`blind_sign.go:109-113`, `165-175`). -/
def blindChallenge (c t : S.G1) (nonce : Bytes) : S.F := frFromOKM L (S.g1Bytes c ++ S.g1Bytes t ++ nonce)

/-- `VerifyBlinding` (`blind_sign.go:108-114`): the challenge covers `PoK.C`, not the commitment of the proof
that is checked. -/
def verifyBlinding (bitmap : List Bool) (b : Blinded S) (w : S.G2) (nonce : Bytes) : Res Unit :=
  b.verifyProof bitmap b.c (blindChallenge L b.c b.pokC nonce) w

/-- Positions and values of the messages to blind, from `i` on (`blind_sign.go:152-160`). -/
def present : Nat → List (Option S.F) → List (Nat × S.F)
  | _, [] => []
  | i, none :: zs => present (i + 1) zs
  | i, some z :: zs => (i, z) :: present (i + 1) zs

/-- `BlindMessagesZr` (`blind_sign.go:136-178`) with the sampled `s` and blinding factors. -/
def blindMessagesZr (zrs : List (Option S.F)) (w : S.G2) (nonce : Bytes) (s : S.F) (ρ : Nat → S.F) :
    Res (Blinded S) := do
  let pk ← toPKG w zrs.length
  let hs ← selectGens pk ((present 0 zrs).map (·.1))
  let bases := pk.h0 :: hs
  let secrets := s :: (present 0 zrs).map (·.2)
  let c ← build bases secrets
  let u ← finish bases (blindings bases.length ρ)
  let proof ← u.generateProof (blindChallenge L c u.commitment nonce) secrets
  pure ⟨c, u.commitment, proof⟩

/-- `BlindMessages` (`blind_sign.go:119-131`): empty messages are not blinded. -/
def blindMessages (messages : List Bytes) (w : S.G2) (nonce : Bytes) (s : S.F) (ρ : Nat → S.F) : Res (Blinded S) :=
  blindMessagesZr L (messages.map fun m => if m = [] then none else some (frFromOKM L m)) w nonce s ρ

/-- `BlindSign` (`blind_sign.go:181-208`) with the sampled `e`, `s`. -/
def blindSign (messages : List (SigMsg S)) (msgCount : Int) (commitment : S.G1) (rawSk : Bytes) (e s : S.F) :
    Res Bytes := do
  let sk ← unmarshalPrivateKey S rawSk
  let pk ← toPKG (publicKey sk) msgCount
  Res.guardErr (messages.length = 0) "messages are not defined"
  let hs ← msgBases pk messages
  let comm ← build (hs ++ [commitment, S.genG1]) (messages.map (·.fr) ++ [S.zrOfInt 1, S.zrOfInt 1])
  signWithKeyB comm msgCount sk e s

/-- `UnblindSign` (`blind_sign.go:211-220`). -/
def unblindSign (S : Suite) (raw : Bytes) (s : S.F) : Res Bytes := do
  let σ ← parseSignature S raw
  Sig.toBytes { σ with s := σ.s + s }

/-! ## credrequest.go -/

/-- `CredRequest.Blind` (`credrequest.go:23-38`): the request and the blinding factor. -/
def blind (sk : S.F) (key : Dyn (IPK S)) (nonce : Bytes) (skIdx : Int) (s : S.F) (ρ : Nat → S.F) :
    Res (Bytes × Bytes) := do
  let ipk ← key.get "invalid issuer public key"
  Res.guardPanic (decide (ipk.n + 1 < 0) || decide (skIdx < 0) || decide (ipk.n + 1 ≤ skIdx))
  let zrs : List (Option S.F) := (List.replicate (ipk.n + 1).toNat none).set skIdx.toNat (some sk)
  let b ← blindMessagesZr L zrs ipk.w nonce s ρ
  let raw ← b.bytes
  pure (raw, S.zrBytes s)

/-- `CredRequest.BlindVerify` (`credrequest.go:41-56`). -/
def blindVerify (request : Bytes) (key : Dyn (IPK S)) (nonce : Bytes) (skIdx : Int) : Res Unit := do
  let ipk ← key.get "invalid issuer public key"
  Res.guardPanic (decide (ipk.n + 1 < 0) || decide (skIdx < 0) || decide (ipk.n + 1 ≤ skIdx))
  let bitmap := (List.replicate (ipk.n + 1).toNat false).set skIdx.toNat true
  let b ← parseBlindedMessages S request
  verifyBlinding L bitmap b ipk.w nonce

/-- `CredRequest.Unblind` (`credrequest.go:59-76`). Undeclared fields are passed on. -/
def unblind (S : Suite) (signature blinding : Bytes) : Res Bytes := do
  let credential ← Wire.credCodec.unmarshal signature
  let sig ← unblindSign S credential.cred (S.zrOfBytes blinding)
  let raw ← Wire.credCodec.marshal { credential with cred := sig }
  pure (raw ++ Proto.unknown Wire.credKnown signature)

/-! ## cred.go -/

/-- `Cred.Sign` (`cred.go:26-60`). The proof in the request is not verified here, attribute values are stored in
the order of the messages (not of the attributes), and the position of the secret key is not recorded. -/
def credSign (key : Dyn (ISK S)) (request : Bytes) (attributes : List IdemixAttribute) (skIdx : Int) (e s : S.F) :
    Res Bytes := do
  let isk ← key.get "invalid issuer secret key"
  let b ← parseBlindedMessages S request
  let msgs ← attributesToSignatureMessage L attributes skIdx
  let sig ← blindSign msgs (attributes.length + 1) b.c (S.zrBytes isk.sk) e s
  let attrs := msgs.map (fun m => S.zrBytes m.fr) ++ List.replicate (attributes.length - msgs.length) []
  Wire.credCodec.marshal ⟨sig, attrs, 0⟩

/-- The comparison of one supplied attribute with the credential's (`cred.go:98-111`); other types than the three
defined ones are passed over. -/
def checkAttr (a : IdemixAttribute) (fr : S.F) : Res Unit := do
  let v ← attrFr L a
  match v with
  | some v => Res.guardErr (decide (v ≠ fr)) "credential does not contain the correct attribute value"
  | none => .ok ()

/-- The loop of `Cred.Verify` (`cred.go:83-114`): `todo` generators are left, the next one is `j`. -/
def verifyLoop (sk : S.F) (skPos : Int) : Nat → Nat → List Bytes → List IdemixAttribute → Res (List (SigMsg S))
  | 0, _, _, _ => .ok []
  | todo + 1, j, attrs, attributes =>
    if (j : Int) = skPos then do
      let rest ← verifyLoop sk skPos todo (j + 1) attrs attributes
      pure (⟨sk, j⟩ :: rest)
    else
      match attrs, attributes with
      | a :: attrs, b :: attributes => do
        checkAttr L b (S.zrOfBytes a)
        let rest ← verifyLoop sk skPos todo (j + 1) attrs attributes
        pure (⟨S.zrOfBytes a, j⟩ :: rest)
      | _, _ => .panic

/-- `Cred.Verify` (`cred.go:64-117`). -/
def credVerify (sk : S.F) (key : Dyn (IPK S)) (credBytes : Bytes) (attributes : List IdemixAttribute) :
    Res Unit := do
  let ipk ← key.get "invalid issuer public key"
  let credential ← Wire.credCodec.unmarshal credBytes
  let σ ← parseSignature S credential.cred
  let sm ← verifyLoop L sk credential.skPos ipk.pkg.h.length 0 credential.attrs attributes
  σ.verify sm ipk.pkg

/-! ## nymsigner.go -/

/-- `"nym-sig"` (`nymsigner.go:18`). -/
def nymSigLabel : Bytes := [110, 121, 109, 45, 115, 105, 103]

/-- The second hash of every challenge (`nymsigner.go:53-55`, `signer.go:250-253`, `773-775`). -/
def withNonce (c : S.F) (nonce : Bytes) : S.F := frFromOKM L (S.zrBytes c ++ nonce)

/-- Challenge of a pseudonym signature (`nymsigner.go:46-55`, `94-105`). -/
def nymChallenge (nym h0 h t : S.G1) (digest nonce : Bytes) : S.F :=
  withNonce L (frFromOKM L (nymSigLabel ++ S.g1Bytes nym ++ S.g1Bytes h0 ++ S.g1Bytes h ++ S.g1Bytes t ++ digest))
    nonce

/-- `NymSigner.Sign` (`nymsigner.go:27-65`) with the sampled nonce and blinding factors. -/
def nymSign (sk : S.F) (nym : S.G1) (rNym : S.F) (key : Dyn (IPK S)) (digest : Bytes) (skIdx : Int) (nonce : S.F)
    (ρ : Nat → S.F) : Res Bytes := do
  let ipk ← key.get "invalid issuer public key"
  let h ← Res.index ipk.pkg.h skIdx
  let commit ← finish [ipk.pkg.h0, h] (blindings 2 ρ)
  let c := nymChallenge L nym ipk.pkg.h0 h commit.commitment digest (S.zrBytes nonce)
  let proof ← commit.generateProof c [rNym, sk]
  let raw ← proof.toBytes
  Wire.nymSigCodec.marshal ⟨raw, S.zrBytes nonce⟩

/-- `NymSigner.Verify` (`nymsigner.go:68-108`). -/
def nymVerify (key : Dyn (IPK S)) (nym : S.G1) (sigBytes digest : Bytes) (skIndex : Int) : Res Unit := do
  let ipk ← key.get "invalid issuer public key"
  let sig ← Wire.nymSigCodec.unmarshal sigBytes
  let proof ← parseProofG1 S sig.main
  Res.guardErr (decide (proof.responses.length < 2)) "invalid nym proof"
  let h ← Res.index ipk.pkg.h skIndex
  proof.verify [ipk.pkg.h0, h] nym (nymChallenge L nym ipk.pkg.h0 h proof.commitment digest sig.nonce)

/-! ## revocation.go -/

/-- `RevocationAuthority.Sign` (`revocation.go:48-84`); `wbb` is the public key that `WbbKeyGen` samples. Epoch
and algorithm are in the ranges of their fields. -/
def revSign (S : Suite) (dsa : Ecdsa) (key : Option dsa.Sk) (epoch alg : Int) (wbb : S.G2) (ρ : dsa.Rnd) :
    Res Bytes := do
  let key ← Res.ofOption "createCRI received nil input" key
  let epochPk := if alg = 0 then S.g2Bytes S.genG2 else S.g2Bytes wbb
  let cri : CRI := ⟨epoch, epochPk, [], alg, []⟩
  let bytes ← Wire.criCodec.marshal cri
  let sig ← dsa.sign key ρ (dsa.sha256 bytes)
  if alg = 0 then Wire.criCodec.marshal { cri with epochPkSig := sig }
  else .err "the specified revocation algorithm is not supported"

/-- `RevocationAuthority.Verify` (`revocation.go:91-124`): the epoch and algorithm carried are overwritten with
those asked for. Parsing the ASN.1 signature is part of `dsa.verify`; undeclared fields are part of what is hashed. -/
def revVerify (dsa : Ecdsa) (pk : Option dsa.Pk) (criRaw : Bytes) (epoch alg : Int) : Res Unit := do
  let pk ← Res.ofOption "createCRI received nil input" pk
  let cri ← Wire.criCodec.unmarshal criRaw
  let bytes ← Wire.criCodec.marshal { cri with epochPkSig := [], epoch := epoch, alg := alg }
  let bytes := bytes ++ Proto.unknown Wire.criKnown criRaw
  Res.guardErr (!dsa.verify pk (dsa.sha256 bytes) cri.epochPkSig) "epochPKSig invalid"

end Idemix.Aries
