import Verif.Mem.Calls
import Verif.Mem.DlogCalls
import Verif.Aries.Signer
import Verif.Aries.Smartcard

/-!
# The aries scheme on the heap (`bccsp/schemes/aries`)

The functions of `Verif/Aries/Model.lean`, `Verif/Aries/Signer.lean` and `Verif/Aries/Smartcard.lean` once more, with the
pointers of the code: what is copied, what is changed in place and what is shared is as in the Go code. Points, scalars and
the counter of the card are cells. `Equals`, `Bytes` and `Compressed` read; `Mul2`, `ModAdd` and `Plus` return a new object;
`NewZrFromBytes`, `NewG1FromBytes`, `FrFromOKM` and `NewRandomZr` make one. What is exchanged as bytes is parsed as in
`Verif/Aries`, and every part becomes a new object. `lib` is the cache of generators of a `BBSLib`: `none` is a library
without one; every call may have a library of its own.
-/

namespace Idemix.Mem.Aries

open Idemix.Bbs (Lib PKG Sig SigMsg PoK PoKRand Committed ProofG1 SigProof Payload)
open Idemix.Aries (IPK ISK Credential Blinded AttrComm SignRand Parsed Signature CRI Card)
open Idemix.Dlog (SigType VerType AuditType)
open Idemix.Mem.Bbs (Consts MsgPtr PKGPtr SigPtr CommittedPtr ProofG1Ptr PoKPtr SigProofPtr)
open Idemix.Mem.Dlog (AuditPtr MetaPtr)

/-- `IssuerPublicKey` (`issuer.go:22-27`): `PK`, with the cache of its library, and `PKwG`. -/
structure IpkPtr where
  w : Ptr .g2
  lib : Option Nat
  pkg : PKGPtr
  n : Int

/-- `IssuerSecretKey` (`issuer.go:41-44`). -/
structure IskPtr where
  pk : IpkPtr
  sk : Ptr .zr

/-- `BlindedMessages` (`blind_sign.go:20-25`, `75-78`). -/
structure BlindedPtr where
  c : Ptr .g1
  pokC : Ptr .g1
  proof : ProofG1Ptr

/-- `attributeCommitment` (`signer.go:334-339`). -/
structure AttrCommPtr where
  index : Nat
  proof : CommittedPtr
  comm : Ptr .g1
  r : Ptr .zr

/-- The parts of a signature that verification works with (`signer.go:665-718`). -/
structure ParsedPtr where
  rev : List Nat
  sp : SigProofPtr
  nym : Ptr .g1
  nymProof : Option ProofG1Ptr
  eid : Option (ProofG1Ptr × Ptr .g1)
  rh : Option (ProofG1Ptr × Ptr .g1)

/-- `Smartcard` (`smartcard.go:29-37`). The counter is the only field that is assigned. -/
structure CardPtr where
  h0 : Ptr .g1
  h1 : Ptr .g1
  h2 : Ptr .g1
  uid : Ptr .zr
  eid : Ptr .zr
  k0 : Bytes → Bytes
  k1 : Bytes → Bytes
  ctr : Ptr .int

variable {S : Suite} (L : Lib S) (c : Consts)

/-! ## Issuer keys (`issuer.go`) -/

/-- `Issuer.NewKey` (`issuer.go:91-117`). -/
def newKey (lib : Option Nat) (names : List Bytes) (seed : Bytes) : Prog S IskPtr := do
  let ws ← .lift (Idemix.Bbs.generateKeyPair L (some seed) [])
  let w ← new .g2 ws.1
  let sk ← new .zr ws.2
  let pkg ← Bbs.toPKG lib w (names.length + 1)
  pure ⟨⟨w, lib, pkg, names.length⟩, sk⟩

/-- `Issuer.NewKeyFromBytes` (`issuer.go:121-142`). -/
def newKeyFromBytes (lib : Option Nat) (raw : Bytes) (names : List Bytes) : Prog S IskPtr := do
  let sk ← .lift (Idemix.Bbs.unmarshalPrivateKey S raw)
  let sk ← new .zr sk
  let w ← Bbs.publicKey c sk
  let pkg ← Bbs.toPKG lib w (names.length + 1)
  pure ⟨⟨w, lib, pkg, names.length⟩, sk⟩

/-- `Issuer.NewPublicKeyFromBytes` (`issuer.go:146-162`). -/
def newPublicKeyFromBytes (lib : Option Nat) (raw : Bytes) (names : List Bytes) : Prog S IpkPtr := do
  let w ← .lift (Idemix.Bbs.unmarshalPublicKey S raw)
  let w ← new .g2 w
  let pkg ← Bbs.toPKG lib w (names.length + 1)
  pure ⟨w, lib, pkg, names.length⟩

/-- `Issuer.Bases` (`issuer.go:64-88`): what is returned are the generators of the key, not copies. -/
def issuerBases (key : Dyn IpkPtr) (isDlog : Bool) (rhIndex eidIndex skIndex : Int) :
    Prog S (List (Ptr .g1) × List (Ptr .g1) × List (Ptr .g1)) := do
  let _ ← .lift (Res.guardErr (!isDlog) "invalid ipk type")
  let ipk ← .lift (key.get "invalid issuer public key")
  let _ ← .lift (Res.guardErr (decide (rhIndex = eidIndex) || decide (eidIndex = skIndex) || decide (rhIndex = skIndex) ||
    decide (ipk.n ≤ rhIndex) || decide (ipk.n ≤ eidIndex) || decide (ipk.n ≤ skIndex)) "invalid indices")
  let hSk ← .lift (Res.index ipk.pkg.h skIndex)
  let hEid ← .lift (Res.index ipk.pkg.h (eidIndex + 1))
  let hRh ← .lift (Res.index ipk.pkg.h (rhIndex + 1))
  pure ([ipk.pkg.h0, hSk], [ipk.pkg.h0, hEid], [ipk.pkg.h0, hRh])

/-! ## Pseudonyms (`user.go`) -/

/-- `User.MakeNym` (`user.go:41-58`). -/
def makeNym (sk : Ptr .zr) (key : Dyn IpkPtr) (skIdx : Int) (rNym : S.F) : Prog S (Ptr .g1 × Ptr .zr) := do
  let ipk ← .lift (key.get "invalid issuer public key")
  let rNym ← new .zr rNym
  let h ← .lift (Res.index ipk.pkg.h skIdx)
  let nym ← Bbs.build [ipk.pkg.h0, h] [rNym, sk]
  pure (nym, rNym)

/-! ## Attributes (`util.go`) -/

/-- The scalar of a supplied attribute (`util.go:20-33`). -/
def attrFr (a : IdemixAttribute) : Prog S (Option (Ptr .zr)) :=
  if a.type = 1 then
    match a.value with
    | .bytes b => do
      let p ← Bbs.frFromOKM L c b
      pure (some p)
    | _ => .panic
  else if a.type = 2 then
    match a.value with
    | .int i => do
      let p ← new .zr (S.zrOfInt i)
      pure (some p)
    | _ => .panic
  else pure none

/-- The loop of `attributesToSignatureMessage`, from position `i` on. -/
def attrMsgs : Nat → List IdemixAttribute → Prog S (List MsgPtr)
  | _, [] => pure []
  | i, a :: as => do
    let v ← attrFr L c a
    let rest ← attrMsgs (i + 1) as
    match v with
    | some fr => pure (⟨fr, i⟩ :: rest)
    | none => pure rest

/-- `attributesToSignatureMessage` (`util.go:15-37`). -/
def attributesToSignatureMessage (attributes : List IdemixAttribute) (skPos : Int) : Prog S (List MsgPtr) := do
  let _ ← .lift (Res.guardPanic (decide (skPos < 0) || decide ((attributes.length : Int) < skPos)))
  attrMsgs L c 0 (attributes.take skPos.toNat ++ [Idemix.Aries.hiddenAttr] ++ attributes.drop skPos.toNat)

/-- The loop of `toSignatureMessage` (`util.go:67-79`). -/
def credMsgs (sk : Ptr .zr) (skPos : Int) : Nat → Nat → List Bytes → Prog S (List MsgPtr)
  | 0, _, _ => pure []
  | todo + 1, i, attrs =>
    if (i : Int) = skPos then do
      let rest ← credMsgs sk skPos todo (i + 1) attrs
      pure (⟨sk, i⟩ :: rest)
    else
      match attrs with
      | [] => .panic
      | a :: attrs => do
        let fr ← new .zr (S.zrOfBytes a)
        let rest ← credMsgs sk skPos todo (i + 1) attrs
        pure (⟨fr, i⟩ :: rest)

/-- `Credential.toSignatureMessage` (`util.go:63-82`): the message at the position of the secret key is the object passed. -/
def toSignatureMessage (cred : Credential) (sk : Ptr .zr) : Prog S (List MsgPtr) :=
  credMsgs sk cred.skPos (cred.attrs.length + 1) 0 cred.attrs

/-! ## Blind signatures (`blind_sign.go`) -/

/-- `ParseProofG1` (`bbs/signature_proof.go:262-304`). -/
def parseProofG1 (raw : Bytes) : Prog S ProofG1Ptr := do
  let p ← .lift (Idemix.Bbs.parseProofG1 S raw)
  let com ← new .g1 p.commitment
  let rs ← Bbs.newZrs p.responses
  pure ⟨com, rs⟩

/-- `ProofG1.ToBytes` (`bbs/signature_proof.go:208-227`). -/
def proofG1Bytes (p : ProofG1Ptr) : Prog S Bytes := do
  let com ← load p.commitment
  let rs ← loadAll p.responses
  .lift (ProofG1.toBytes (S := S) ⟨com, rs⟩)

/-- `BlindedMessages.Bytes` (`blind_sign.go:27-35`). -/
def blindedBytes (b : BlindedPtr) : Prog S Bytes := do
  let com ← load b.c
  let t ← load b.pokC
  let p ← proofG1Bytes b.proof
  pure (S.g1Comp com ++ S.g1Comp t ++ p)

/-- `ParseBlindedMessages` (`blind_sign.go:37-70`). -/
def parseBlindedMessages (raw : Bytes) : Prog S BlindedPtr := do
  let b ← .lift (Idemix.Aries.parseBlindedMessages S raw)
  let com ← new .g1 b.c
  let t ← new .g1 b.pokC
  let pc ← new .g1 b.proof.commitment
  let rs ← Bbs.newZrs b.proof.responses
  pure ⟨com, t, ⟨pc, rs⟩⟩

/-- Generators at the positions selected (`blind_sign.go:90-96`, `152-160`). -/
def selectGens (pk : PKGPtr) (positions : List Nat) : Res (List (Ptr .g1)) :=
  Res.mapM' (fun i : Nat => Res.index pk.h i) positions

/-- The challenge of blinded messages (`blind_sign.go:109-113`, `165-175`). -/
def blindChallenge (com t : Ptr .g1) (nonce : Bytes) : Prog S (Ptr .zr) := do
  let x ← load com
  let y ← load t
  Bbs.frFromOKM L c (S.g1Bytes x ++ S.g1Bytes y ++ nonce)

/-- `VerifyProof` (`blind_sign.go:82-104`). -/
def verifyBlindedProof (lib : Option Nat) (b : BlindedPtr) (messages : List Bool) (commitment : Ptr .g1) (challenge : Ptr .zr)
    (w : Ptr .g2) : Prog S Unit := do
  let pk ← Bbs.toPKG lib w messages.length
  let hs ← .lift (selectGens pk (Idemix.Aries.trueAt 0 messages))
  (Bbs.verifyProofG1 b.proof (pk.h0 :: hs) commitment challenge).mapErr fun _ => "invalid proof"

/-- `VerifyBlinding` (`blind_sign.go:108-114`). -/
def verifyBlinding (lib : Option Nat) (bitmap : List Bool) (b : BlindedPtr) (w : Ptr .g2) (nonce : Bytes) : Prog S Unit := do
  let ch ← blindChallenge L c b.c b.pokC nonce
  verifyBlindedProof lib b bitmap b.c ch w

/-- Positions and pointers of the messages to blind (`blind_sign.go:152-160`). -/
def present : Nat → List (Option (Ptr .zr)) → List (Nat × Ptr .zr)
  | _, [] => []
  | i, none :: zs => present (i + 1) zs
  | i, some z :: zs => (i, z) :: present (i + 1) zs

/-- `BlindMessagesZr` (`blind_sign.go:136-178`). -/
def blindMessagesZr (lib : Option Nat) (zrs : List (Option (Ptr .zr))) (w : Ptr .g2) (nonce : Bytes) (s : S.F) (ρ : Nat → S.F) :
    Prog S (BlindedPtr × Ptr .zr) := do
  let pk ← Bbs.toPKG lib w zrs.length
  let s ← new .zr s
  let hs ← .lift (selectGens pk ((present 0 zrs).map (·.1)))
  let com ← Bbs.build (pk.h0 :: hs) (s :: (present 0 zrs).map (·.2))
  let bl ← Bbs.blindings (pk.h0 :: hs).length ρ
  let u ← Bbs.finish (pk.h0 :: hs) bl
  let ch ← blindChallenge L c com u.commitment nonce
  let proof ← Bbs.generateProofG1 u ch (s :: (present 0 zrs).map (·.2))
  pure (⟨com, u.commitment, proof⟩, s)

/-- `BlindSign` (`blind_sign.go:181-208`). -/
def blindSign (lib : Option Nat) (messages : List MsgPtr) (msgCount : Int) (commitment : Ptr .g1) (rawSk : Bytes) (e s : S.F) :
    Prog S Bytes := do
  let sk ← .lift (Idemix.Bbs.unmarshalPrivateKey S rawSk)
  let sk ← new .zr sk
  let w ← Bbs.publicKey c sk
  let pk ← Bbs.toPKG lib w msgCount
  let _ ← .lift (Res.guardErr (messages.length = 0) "messages are not defined")
  let hs ← .lift (Bbs.msgBases pk messages)
  let one ← new .zr (S.zrOfInt 1)
  let one' ← new .zr (S.zrOfInt 1)
  let comm ← Bbs.build (hs ++ [commitment, c.genG1]) (messages.map (·.fr) ++ [one, one'])
  Bbs.signWithKeyB c lib comm msgCount sk e s

/-- `UnblindSign` (`blind_sign.go:211-220`); the object parsed is the only one that is assigned to. -/
def unblindSign (raw : Bytes) (s : Ptr .zr) : Prog S Bytes := do
  let σ ← Bbs.parseSignature raw
  let s' ← zrPlus σ.s s
  Bbs.sigBytes { σ with s := s' }

/-! ## Requests (`credrequest.go`) -/

/-- `CredRequest.Blind` (`credrequest.go:23-38`). -/
def blind (sk : Ptr .zr) (key : Dyn IpkPtr) (nonce : Bytes) (skIdx : Int) (s : S.F) (ρ : Nat → S.F) :
    Prog S (Bytes × Bytes) := do
  let ipk ← .lift (key.get "invalid issuer public key")
  let _ ← .lift (Res.guardPanic (decide (ipk.n + 1 < 0) || decide (skIdx < 0) || decide (ipk.n + 1 ≤ skIdx)))
  let b ← blindMessagesZr L c ipk.lib ((List.replicate (ipk.n + 1).toNat none).set skIdx.toNat (some sk)) ipk.w nonce s ρ
  let raw ← blindedBytes b.1
  let x ← load b.2
  pure (raw, S.zrBytes x)

/-- `CredRequest.BlindVerify` (`credrequest.go:41-56`). -/
def blindVerify (request : Bytes) (key : Dyn IpkPtr) (nonce : Bytes) (skIdx : Int) : Prog S Unit := do
  let ipk ← .lift (key.get "invalid issuer public key")
  let _ ← .lift (Res.guardPanic (decide (ipk.n + 1 < 0) || decide (skIdx < 0) || decide (ipk.n + 1 ≤ skIdx)))
  let b ← parseBlindedMessages request
  verifyBlinding L c ipk.lib ((List.replicate (ipk.n + 1).toNat false).set skIdx.toNat true) b ipk.w nonce

/-- `CredRequest.Unblind` (`credrequest.go:59-76`). -/
def unblind (signature blinding : Bytes) : Prog S Bytes := do
  let credential ← .lift (Idemix.Aries.Wire.credCodec.unmarshal signature)
  let s ← new .zr (S.zrOfBytes blinding)
  let sig ← unblindSign credential.cred s
  .lift do
    let raw ← Idemix.Aries.Wire.credCodec.marshal { credential with cred := sig }
    pure (raw ++ Proto.unknown Idemix.Aries.Wire.credKnown signature)

/-! ## Credentials (`cred.go`) -/

/-- `Cred.Sign` (`cred.go:26-60`). -/
def credSign (lib : Option Nat) (key : Dyn IskPtr) (request : Bytes) (attributes : List IdemixAttribute) (skIdx : Int)
    (e s : S.F) : Prog S Bytes := do
  let isk ← .lift (key.get "invalid issuer secret key")
  let b ← parseBlindedMessages request
  let msgs ← attributesToSignatureMessage L c attributes skIdx
  let sk ← load isk.sk
  let sig ← blindSign c lib msgs (attributes.length + 1) b.c (S.zrBytes sk) e s
  let frs ← loadAll (msgs.map (·.fr))
  .lift (Idemix.Aries.Wire.credCodec.marshal
    ⟨sig, frs.map S.zrBytes ++ List.replicate (attributes.length - msgs.length) [], 0⟩)

/-- The comparison of one supplied attribute with the credential's (`cred.go:98-111`). -/
def checkAttr (a : IdemixAttribute) (fr : Ptr .zr) : Prog S Unit := do
  let v ← attrFr L c a
  match v with
  | some v => do
    let x ← load v
    let y ← load fr
    .lift (Res.guardErr (decide ((x : S.F) ≠ (y : S.F))) "credential does not contain the correct attribute value")
  | none => pure ()

/-- The loop of `Cred.Verify` (`cred.go:83-114`). -/
def verifyLoop (sk : Ptr .zr) (skPos : Int) : Nat → Nat → List Bytes → List IdemixAttribute → Prog S (List MsgPtr)
  | 0, _, _, _ => pure []
  | todo + 1, j, attrs, attributes =>
    if (j : Int) = skPos then do
      let rest ← verifyLoop sk skPos todo (j + 1) attrs attributes
      pure (⟨sk, j⟩ :: rest)
    else
      match attrs, attributes with
      | a :: attrs, b :: attributes => do
        let fr ← new .zr (S.zrOfBytes a)
        checkAttr L c b fr
        let rest ← verifyLoop sk skPos todo (j + 1) attrs attributes
        pure (⟨fr, j⟩ :: rest)
      | _, _ => .panic

/-- `Cred.Verify` (`cred.go:64-117`). -/
def credVerify (sk : Ptr .zr) (key : Dyn IpkPtr) (credBytes : Bytes) (attributes : List IdemixAttribute) : Prog S Unit := do
  let ipk ← .lift (key.get "invalid issuer public key")
  let credential ← .lift (Idemix.Aries.Wire.credCodec.unmarshal credBytes)
  let σ ← Bbs.parseSignature credential.cred
  let sm ← verifyLoop L c sk credential.skPos ipk.pkg.h.length 0 credential.attrs attributes
  Bbs.verifySig c σ sm ipk.pkg

/-! ## Pseudonym signatures (`nymsigner.go`) -/

/-- The second hash of every challenge (`nymsigner.go:53-55`, `signer.go:250-253`, `773-775`). -/
def withNonce (ch : Ptr .zr) (nonce : Bytes) : Prog S (Ptr .zr) := do
  let x ← load ch
  Bbs.frFromOKM L c (S.zrBytes x ++ nonce)

/-- Challenge of a pseudonym signature (`nymsigner.go:46-55`, `94-105`). -/
def nymChallenge (nym h0 h t : Ptr .g1) (digest nonce : Bytes) : Prog S (Ptr .zr) := do
  let n ← load nym
  let x ← load h0
  let y ← load h
  let z ← load t
  let ch ← Bbs.frFromOKM L c (Idemix.Aries.nymSigLabel ++ S.g1Bytes n ++ S.g1Bytes x ++ S.g1Bytes y ++ S.g1Bytes z ++ digest)
  withNonce L c ch nonce

/-- `NymSigner.Sign` (`nymsigner.go:27-65`). -/
def nymSign (sk : Ptr .zr) (nym : Ptr .g1) (rNym : Ptr .zr) (key : Dyn IpkPtr) (digest : Bytes) (skIdx : Int) (nonce : S.F)
    (ρ : Nat → S.F) : Prog S Bytes := do
  let ipk ← .lift (key.get "invalid issuer public key")
  let nonce ← new .zr nonce
  let h ← .lift (Res.index ipk.pkg.h skIdx)
  let bl ← Bbs.blindings 2 ρ
  let commit ← Bbs.finish [ipk.pkg.h0, h] bl
  let nv ← load nonce
  let ch ← nymChallenge L c nym ipk.pkg.h0 h commit.commitment digest (S.zrBytes nv)
  let proof ← Bbs.generateProofG1 commit ch [rNym, sk]
  let raw ← proofG1Bytes proof
  let nv ← load nonce
  .lift (Idemix.Aries.Wire.nymSigCodec.marshal ⟨raw, S.zrBytes nv⟩)

/-- `NymSigner.Verify` (`nymsigner.go:68-108`). -/
def nymVerify (key : Dyn IpkPtr) (nym : Ptr .g1) (sigBytes digest : Bytes) (skIndex : Int) : Prog S Unit := do
  let ipk ← .lift (key.get "invalid issuer public key")
  let sig ← .lift (Idemix.Aries.Wire.nymSigCodec.unmarshal sigBytes)
  let proof ← parseProofG1 sig.main
  let _ ← .lift (Res.guardErr (decide (proof.responses.length < 2)) "invalid nym proof")
  let h ← .lift (Res.index ipk.pkg.h skIndex)
  let ch ← nymChallenge L c nym ipk.pkg.h0 h proof.commitment digest sig.nonce
  Bbs.verifyProofG1 proof [ipk.pkg.h0, h] nym ch

/-! ## Signatures (`signer.go`) -/

/-- Run a step only under a condition. -/
def onlyIf {α : Type} (b : Bool) (x : Prog S α) : Prog S (Option α) :=
  match b with
  | true => x.bind fun y => .done (some y)
  | false => .done none

/-- `vc2SmartcardSignatureProvider.New` (`signer.go:42-78`). -/
def smartcardVC2 (rNym : Ptr .zr) : Bbs.VC2Provider S := fun d r3 pk sPrime messages revealed => do
  let r3D ← copy r3
  zrNeg r3D
  let sPrime ← zrMinus sPrime rNym
  let hs ← .lift (Bbs.msgBases pk (Bbs.hiddenMsgs messages revealed))
  let fs ← Bbs.copies ((Bbs.hiddenMsgs messages revealed).map (·.fr))
  pure (d :: pk.h0 :: hs, r3D :: sPrime :: fs)

/-- `vc2SmartcardProofVerifier.Verify` (`signer.go:85-137`). -/
def smartcardVC2Verify (nym : Ptr .g1) : Bbs.VC2Verifier S := fun challenge pk revealed messages proof d => do
  let _ ← .lift (Res.guardPanic (2 + pk.count - revealed.length < 0))
  let one ← new .zr (S.zrOfInt 1)
  let split ← .lift (Bbs.splitGens revealed 1 pk.h.tail messages)
  let one' ← new .zr (S.zrOfInt 1)
  let pr ← copy c.genG1
  g1Sub pr c.genG1
  Bbs.sumDisclosed pr ((c.genG1, one) :: split.1 ++ [(nym, one')])
  g1Neg pr
  (Bbs.verifyProofG1 proof (d :: pk.h0 :: split.2) pr challenge).mapErr fun _ => "bad signature"

/-- The card branch of `getPoKOfSignature` (`signer.go:167-183`). -/
def cardPoK (σ : SigPtr) (msgs : List MsgPtr) (skPos : Int) (attributes : List IdemixAttribute) (pk : PKGPtr)
    (nym : Ptr .g1) (rNym : Ptr .zr) (ρ : PoKRand S) : Prog S PoKPtr := do
  let C ← copy nym
  let g ← g1Mul pk.h0 rNym
  g1Sub C g
  let _ ← .lift (Res.guardPanic (decide (skPos < 0) || decide ((msgs.length : Int) ≤ skPos)))
  let b ← Bbs.computeB c σ.s (msgs.take skPos.toNat ++ msgs.drop (skPos.toNat + 1)) pk
  g1Add b C
  let is ← Bbs.Call.newInts ((Idemix.Aries.revealedAttributesIndexNoSk attributes).map fun i : Nat => (i : Int))
  Bbs.pokOfSignatureB c (smartcardVC2 rNym) false σ (msgs.take skPos.toNat ++ msgs.drop (skPos.toNat + 1)) is pk b ρ

/-- `getPoKOfSignature` (`signer.go:139-192`). -/
def getPoK (cred : Credential) (attributes : List IdemixAttribute) (sk : Ptr .zr) (pk : PKGPtr) (t : SigType)
    (nym : Ptr .g1) (rNym : Ptr .zr) (ρ : PoKRand S) : Prog S (PoKPtr × List MsgPtr) := do
  let σ ← Bbs.parseSignature cred.cred
  let msgs ← toSignatureMessage cred sk
  let pok ← match Idemix.Aries.cardType t with
    | true => cardPoK c σ msgs cred.skPos attributes pk nym rNym ρ
    | false => do
      let is ← Bbs.Call.newInts ((Idemix.Aries.revealedAttributesIndex attributes).map fun i : Nat => (i : Int))
      Bbs.newPoKOfSignature c σ msgs is pk ρ
  pure (pok, msgs)

/-- `getCommitNym` (`signer.go:308-332`). The second blinding factor is drawn and replaced at once by the one of the main
proof, the same object; the draw is left out. -/
def commitNym (pk : PKGPtr) (pok : PoKPtr) (skPos : Int) (t0 : S.F) : Prog S CommittedPtr := do
  let t0 ← new .zr t0
  let h ← .lift (Res.index pk.h skPos)
  let t1 ← .lift (Res.index pok.vc2.blind (2 + skPos))
  Bbs.finish [pk.h0, h] [t0, t1]

/-- The commitment to the attribute (`signer.go:382-402`): with audit data, the randomness is the object passed. -/
def attrNym (pk : PKGPtr) (attr : Ptr .zr) (idx : Int) (audit : Option AuditPtr) (fresh : S.F) : Prog S (Ptr .g1 × Ptr .zr) :=
  match audit with
  | some a => do
    let x ← load attr
    let y ← load a.attr
    let _ ← .lift (Res.guardErr (decide ((x : S.F) ≠ (y : S.F))) "attribute supplied in metadata differs from signed")
    let h ← .lift (Res.index pk.h idx)
    let nym ← Bbs.build [pk.h0, h] [a.rand, a.attr]
    let given ← .lift (Res.deref a.nym)
    let g ← load given
    let n ← load nym
    let _ ← .lift (Res.guardErr (decide ((g : S.G1) ≠ (n : S.G1))) "nym supplied in metadata cannot be recomputed")
    pure (nym, a.rand)
  | none => do
    let fresh ← new .zr fresh
    let h ← .lift (Res.index pk.h idx)
    let nym ← Bbs.build [pk.h0, h] [fresh, attr]
    pure (nym, fresh)

/-- `indexOfAttributeInCommitment` (`signer.go:424-439`). All bases are read, where the code stops at the first that is
equal. -/
def indexInCommitment (p : CommittedPtr) (idx : Int) (pk : PKGPtr) : Prog S Nat := do
  let base ← .lift (Res.index pk.h idx)
  let b ← load base
  let bs ← loadAll p.bases
  .lift (Res.ofOption "attribute not found" ((bs : List S.G1).findIdx? fun x => decide ((b : S.G1) = x)))

/-- `getAttributeCommitment` (`signer.go:365-422`), enabled. As in `commitNym`, the second blinding factor is the object of
the main proof. -/
def attrCommitment (pk : PKGPtr) (pok : PoKPtr) (attr : Ptr .zr) (idx : Int) (audit : Option AuditPtr) (fresh t0 : S.F) :
    Prog S AttrCommPtr := do
  let nr ← attrNym pk attr idx audit fresh
  let i ← indexInCommitment pok.vc2 idx pk
  let t0 ← new .zr t0
  let h ← .lift (Res.index pk.h idx)
  let t1 ← .lift (Res.index pok.vc2.blind i)
  let proof ← Bbs.finish [pk.h0, h] [t0, t1]
  pure ⟨i, proof, nr.1, nr.2⟩

/-- What is hashed of a commitment (`signer.go:229-239`). -/
def hashComm (b : Bool) (a : Option AttrCommPtr) : Prog S Bytes :=
  match b with
  | true => do
    let a ← .lift (Res.deref a)
    let x ← load a.comm
    let y ← load a.proof.commitment
    pure (S.g1Bytes x ++ S.g1Bytes y)
  | false => pure []

/-- What is hashed of the proof of the pseudonym (`signer.go:224-227`). -/
def hashNym (b : Bool) (p : Option CommittedPtr) : Prog S Bytes :=
  match b with
  | true => do
    let p ← .lift (Res.deref p)
    let x ← load p.commitment
    pure (S.g1Bytes x)
  | false => pure []

/-- `getChallengeHash` (`signer.go:194-254`). -/
def challengeHash (pok : PoKPtr) (nym : Ptr .g1) (cn : Option CommittedPtr) (eid rh : Option AttrCommPtr) (msg : Bytes)
    (t : SigType) (nonce : Ptr .zr) : Prog S (Ptr .zr) := do
  let label ← .lift (Idemix.Aries.sigLabel t)
  let pb ← Bbs.pokBytes pok
  let n ← load nym
  let bn ← hashNym (!Idemix.Aries.cardType t) cn
  let be ← hashComm (decide (t = .eidNym) || decide (t = .eidNymRhNym) || decide (t = .smartcard)) eid
  let br ← hashComm (decide (t = .eidNymRhNym)) rh
  let mb ← Bbs.nonceBytes L c msg
  let ch ← Bbs.frFromOKM L c (label ++ pb ++ S.g1Bytes n ++ bn ++ be ++ br ++ mb)
  let nv ← load nonce
  withNonce L c ch (S.zrBytes nv)

/-- The responses of an optional proof (`signer.go:551-565`). -/
def respond (p : Option CommittedPtr) (challenge : Ptr .zr) (secrets : List (Ptr .zr)) : Prog S (Option ProofG1Ptr) :=
  match p with
  | some p => do
    let q ← Bbs.generateProofG1 p challenge secrets
    pure (some q)
  | none => pure none

/-- The responses of the proof of an optional commitment (`signer.go:556-565`). -/
def respondAttr (a : Option AttrCommPtr) (challenge attr : Ptr .zr) : Prog S (Option ProofG1Ptr) :=
  match a with
  | some a => respond (some a.proof) challenge [a.r, attr]
  | none => pure none

/-- An optional proof as bytes (`signer.go:289-303`). -/
def proofBytes (p : Option ProofG1Ptr) : Prog S Bytes :=
  match p with
  | some p => proofG1Bytes p
  | none => pure []

/-- The bytes of an optional commitment (`signer.go:276-287`). -/
def commBytes (a : Option AttrCommPtr) : Prog S Bytes :=
  match a with
  | some a => do
    let x ← load a.comm
    pure (S.g1Bytes x)
  | none => pure []

/-- `packageProof` (`signer.go:256-306`). -/
def packageProof (attributes : List IdemixAttribute) (nym : Ptr .g1) (proof : SigProofPtr) (pn : Option ProofG1Ptr)
    (eid : Option AttrCommPtr) (pe : Option ProofG1Ptr) (rh : Option AttrCommPtr) (pr : Option ProofG1Ptr)
    (cri : CRI) (nonce : Ptr .zr) : Prog S Bytes := do
  let payload ← .lift (Payload.toBytes ⟨attributes.length + 1,
    (Idemix.Aries.revealedAttributesIndex attributes).map fun i : Nat => (i : Int)⟩)
  let main ← Bbs.sigProofBytes proof
  let bn ← proofBytes pn
  let be ← proofBytes pe
  let br ← proofBytes pr
  let nv ← load nonce
  let n ← load nym
  let ce ← commBytes eid
  let cr ← commBytes rh
  .lift (Idemix.Aries.Wire.sigCodec.marshal ⟨payload ++ main, S.zrBytes nv, S.g1Bytes n, bn, ce, be,
    ((eid.map (·.index)).getD 0 : Nat), cr, br, ((rh.map (·.index)).getD 0 : Nat), cri.epochPk, cri.epochPkSig, cri.epoch,
    some ⟨cri.alg, []⟩⟩)

/-- The metadata returned for a commitment (`signer.go:576-600`): the objects themselves. -/
def auditOf (a : Option AttrCommPtr) (attr : Ptr .zr) : Option AuditPtr := a.map fun a => ⟨some a.comm, a.r, attr⟩

/-- The metadata that `Sign` returns. -/
def signMeta (t : SigType) (eid rh : Option AttrCommPtr) (mEid mRh : Ptr .zr) : Option MetaPtr :=
  if t = .eidNymRhNym then some ⟨auditOf eid mEid, auditOf rh mRh, [], []⟩
  else if t = .eidNym ∨ t = .smartcard then some ⟨auditOf eid mEid, none, [], []⟩
  else none

/-- `Signer.Sign` (`signer.go:442-603`). -/
def sign (credBytes : Bytes) (sk : Ptr .zr) (nym : Ptr .g1) (rNym : Ptr .zr) (key : Dyn IpkPtr)
    (attributes : List IdemixAttribute) (msg : Bytes) (rhIndex eidIndex : Int) (criRaw : Bytes) (t : SigType)
    (md : Option MetaPtr) (ρ : SignRand S) : Prog S (Bytes × Option MetaPtr) := do
  let _ ← .lift (Idemix.Aries.signArgs attributes rhIndex eidIndex t)
  let ipk ← .lift (key.get "invalid issuer public key")
  let cri ← .lift (Idemix.Aries.Wire.criCodec.unmarshal criRaw)
  let _ ← .lift (Res.guardErr (decide (cri.alg ≠ 0)) "unsupported revocation algorithm")
  let cred ← .lift (Idemix.Aries.Wire.credCodec.unmarshal credBytes)
  let pm ← getPoK c cred attributes sk ipk.pkg t nym rNym ρ.pok
  let cn ← onlyIf (!Idemix.Aries.cardType t) (commitNym ipk.pkg pm.1 cred.skPos ρ.nym0)
  let mEid ← .lift (Res.index pm.2 (Idemix.Aries.shiftIndex eidIndex cred.skPos))
  let eid ← onlyIf (Idemix.Aries.eidEnabled t) (attrCommitment ipk.pkg pm.1 mEid.fr
    (Idemix.Aries.shiftIndex eidIndex cred.skPos) (md.bind (·.eidNymAuditData)) ρ.rEid ρ.eid0)
  let mRh ← .lift (Res.index pm.2 (Idemix.Aries.shiftIndex rhIndex cred.skPos))
  let rh ← onlyIf (Idemix.Aries.rhEnabled t) (attrCommitment ipk.pkg pm.1 mRh.fr
    (Idemix.Aries.shiftIndex rhIndex cred.skPos) (md.bind (·.rhNymAuditData)) ρ.rRh ρ.rh0)
  let nonce ← new .zr ρ.nonce
  let challenge ← challengeHash L c pm.1 nym cn eid rh msg t nonce
  let proof ← Bbs.generateProof pm.1 challenge
  let pn ← respond cn challenge [rNym, sk]
  let pe ← respondAttr eid challenge mEid.fr
  let pr ← respondAttr rh challenge mRh.fr
  let raw ← packageProof attributes nym proof pn eid pe rh pr cri nonce
  pure (raw, signMeta t eid rh mEid.fr mRh.fr)

/-! ## Verification -/

/-- A parsed proof. -/
def newProof (p : ProofG1 S) : Prog S ProofG1Ptr := do
  let com ← new .g1 p.commitment
  let rs ← Bbs.newZrs p.responses
  pure ⟨com, rs⟩

/-- A parsed proof that may be absent. -/
def newProofOpt (p : Option (ProofG1 S)) : Prog S (Option ProofG1Ptr) :=
  match p with
  | some p => do
    let q ← newProof p
    pure (some q)
  | none => pure none

/-- A parsed commitment and its proof, that may be absent. -/
def newCommOpt (p : Option (ProofG1 S × S.G1)) : Prog S (Option (ProofG1Ptr × Ptr .g1)) :=
  match p with
  | some p => do
    let q ← newProof p.1
    let n ← new .g1 p.2
    pure (some (q, n))
  | none => pure none

/-- Parsing in `Verify` (`signer.go:665-718`). -/
def parseParts (sig : Signature) (v : VerType) (nMessages : Nat) : Prog S ParsedPtr := do
  let p ← .lift (Idemix.Aries.parseParts S sig v nMessages)
  let aPrime ← new .g1 p.sp.aPrime
  let aBar ← new .g1 p.sp.aBar
  let d ← new .g1 p.sp.d
  let vc1 ← newProof p.sp.vc1
  let vc2 ← newProof p.sp.vc2
  let nym ← new .g1 p.nym
  let pn ← newProofOpt p.nymProof
  let eid ← newCommOpt p.eid
  let rh ← newCommOpt p.rh
  pure ⟨p.rev, ⟨aPrime, aBar, d, vc1, vc2⟩, nym, pn, eid, rh⟩

/-- What is hashed of a parsed commitment (`signer.go:758-766`). -/
def commHash (raw : Bytes) (p : Option (ProofG1Ptr × Ptr .g1)) : Prog S Bytes :=
  match p with
  | some p => do
    let x ← load p.1.commitment
    pure (raw ++ S.g1Bytes x)
  | none => pure []

/-- What is hashed of the parsed proof of the pseudonym (`signer.go:753-756`). -/
def nymProofHash (p : Option ProofG1Ptr) : Prog S Bytes :=
  match p with
  | some p => do
    let x ← load p.commitment
    pure (S.g1Bytes x)
  | none => pure []

/-- The challenge in `Verify` (`signer.go:724-775`). -/
def verChallenge (pk : PKGPtr) (sig : Signature) (v : VerType) (msg : Bytes) (p : ParsedPtr) : Prog S (Ptr .zr) := do
  let cb ← Bbs.bytesForChallenge p.sp (Idemix.Aries.revealedForChallenge v p.rev) pk
  let bn ← nymProofHash p.nymProof
  let be ← commHash sig.nymEid p.eid
  let br ← commHash sig.nymRh p.rh
  let mb ← Bbs.nonceBytes L c msg
  let ch ← Bbs.frFromOKM L c (Idemix.Aries.verLabel sig v ++ cb ++ sig.nym ++ bn ++ be ++ br ++ mb)
  withNonce L c ch sig.nonce

/-- Audit data passed (`signer.go:793-805`, `820-833`). -/
def auditData (pk : PKGPtr) (idx : Int) (comm : Ptr .g1) (a : Option AuditPtr) : Prog S Unit :=
  match a with
  | some a => do
    let h ← .lift (Res.index pk.h idx)
    let ne ← g1Mul2 h a.attr pk.h0 a.rand
    let x ← load ne
    let y ← load comm
    let _ ← .lift (Res.guardErr (decide ((x : S.G1) ≠ (y : S.G1))) "does not match regenerated nym")
    match a.nym with
    | some n => do
      let y ← load comm
      let z ← load n
      .lift (Res.guardErr (decide ((y : S.G1) ≠ (z : S.G1))) "does not match metadata")
    | none => pure ()
  | none => pure ()

/-- The commitment in the metadata (`signer.go:807-815`, `835-843`). -/
def auditBytes (comm : Ptr .g1) (raw : Bytes) : Prog S Unit :=
  match raw with
  | [] => pure ()
  | raw => do
    let n ← .lift (Res.ofOption "failed to unmarshal meta nym" (S.g1OfBytes raw))
    let n ← new .g1 n
    let x ← load n
    let y ← load comm
    .lift (Res.guardErr (decide ((x : S.G1) ≠ (y : S.G1))) "signature nym does not match metadata")

/-- Audit of one commitment (`signer.go:791-844`). -/
def audit (pk : PKGPtr) (idx : Int) (p : Option (ProofG1Ptr × Ptr .g1)) (md : Option MetaPtr)
    (data : MetaPtr → Option AuditPtr) (raw : MetaPtr → Bytes) : Prog S Unit :=
  match p, md with
  | some p, some m => do
    auditData pk idx p.2 (data m)
    auditBytes p.2 (raw m)
  | _, _ => pure ()

/-- Equality with a response of the main proof, and verification of the commitment's own proof (`signer.go:846-883`). -/
def checkComm (pk : PKGPtr) (sp : SigProofPtr) (p : ProofG1Ptr) (comm : Ptr .g1) (idx resp : Int) (ch : Ptr .zr) :
    Prog S Unit := do
  let r1 ← .lift (Res.index p.responses 1)
  let r2 ← .lift (Res.index sp.vc2.responses resp)
  let x ← load r1
  let y ← load r2
  let _ ← .lift (Res.guardErr (decide ((x : S.F) ≠ (y : S.F))) "failed equality proof")
  let h ← .lift (Res.index pk.h idx)
  Bbs.verifyProofG1 p [pk.h0, h] comm ch

/-- See `checkComm`. -/
def checkAttrComm (pk : PKGPtr) (sp : SigProofPtr) (p : Option (ProofG1Ptr × Ptr .g1)) (idx resp : Int) (ch : Ptr .zr) :
    Prog S Unit :=
  match p with
  | some p => checkComm pk sp p.1 p.2 idx resp ch
  | none => pure ()

/-- See `checkComm`. -/
def checkNymProof (pk : PKGPtr) (sp : SigProofPtr) (p : Option ProofG1Ptr) (nym : Ptr .g1) (skIndex : Int) (ch : Ptr .zr) :
    Prog S Unit :=
  match p with
  | some p => checkComm pk sp p nym skIndex (2 + skIndex) ch
  | none => pure ()

/-- The verifier of the second commitment (`signer.go:885-891`). -/
def vc2For (v : VerType) (nym : Ptr .g1) : Bbs.VC2Verifier S :=
  match Idemix.Aries.cardVer v with
  | true => smartcardVC2Verify c nym
  | false => Bbs.defaultVC2Verify c

/-- `Signer.Verify` (`signer.go:606-894`). -/
def verify (key : Dyn IpkPtr) (signature msg : Bytes) (attributes : List IdemixAttribute) (rhIndex eidIndex skIndex : Int)
    (v : VerType) (md : Option MetaPtr) : Prog S Unit := do
  let ipk ← .lift (key.get "invalid issuer public key")
  let sig ← .lift (Idemix.Aries.Wire.sigCodec.unmarshal signature)
  let _ ← .lift (Idemix.Aries.checkNonRev sig)
  let _ ← .lift (Idemix.Aries.checkPresence sig v)
  let messages ← attributesToSignatureMessage L c attributes skIndex
  let p ← parseParts sig v messages.length
  let ch ← verChallenge L c ipk.pkg sig v msg p
  audit ipk.pkg (Idemix.Aries.shiftIndex eidIndex skIndex) p.eid md (·.eidNymAuditData) (·.eidNym)
  audit ipk.pkg (Idemix.Aries.shiftIndex rhIndex skIndex) p.rh md (·.rhNymAuditData) (·.rhNym)
  checkNymProof ipk.pkg p.sp p.nymProof p.nym skIndex ch
  checkAttrComm ipk.pkg p.sp p.eid (Idemix.Aries.shiftIndex eidIndex skIndex) sig.nymEidIdx ch
  checkAttrComm ipk.pkg p.sp p.rh (Idemix.Aries.shiftIndex rhIndex skIndex) sig.nymRhIdx ch
  Bbs.verifySigProof c (vc2For c v p.nym) p.sp ch ipk.pkg (Idemix.Aries.revealedForVerify v p.rev) messages

/-! ## Auditing -/

/-- The comparison (`signer.go:935-945`, `987-997`). -/
def auditOpen (pk : PKGPtr) (index skIndex : Int) (value : Bytes) (rand : Ptr .zr) (target : Ptr .g1) : Prog S Unit := do
  let a ← Bbs.frFromOKM L c value
  let h ← .lift (Res.index pk.h (Idemix.Aries.shiftIndex index skIndex))
  let ne ← g1Mul2 h a pk.h0 rand
  let x ← load ne
  let y ← load target
  .lift (Res.guardErr (decide ((x : S.G1) ≠ (y : S.G1))) "nym does not match")

/-- `AuditNymEid` (`signer.go:897-948`). -/
def auditNymEid (key : Dyn IpkPtr) (eidIndex skIndex : Int) (signature enrollmentID : Bytes) (rand : Ptr .zr)
    (t : AuditType) : Prog S Unit := do
  let ipk ← .lift (key.get "invalid issuer public key")
  let target ← .lift (Idemix.Aries.auditTarget S (·.nymEid)
    (fun t => decide (t = .expectEidNym) || decide (t = .expectEidNymRhNym)) signature t)
  let target ← new .g1 target
  auditOpen L c ipk.pkg eidIndex skIndex enrollmentID rand target

/-- `AuditNymRh` (`signer.go:951-1000`). -/
def auditNymRh (key : Dyn IpkPtr) (rhIndex skIndex : Int) (signature handle : Bytes) (rand : Ptr .zr) (t : AuditType) :
    Prog S Unit := do
  let ipk ← .lift (key.get "invalid issuer public key")
  let target ← .lift (Idemix.Aries.auditTarget S (·.nymRh) (fun t => decide (t = .expectEidNymRhNym)) signature t)
  let target ← new .g1 target
  auditOpen L c ipk.pkg rhIndex skIndex handle rand target

/-! ## The smartcard (`smartcard.go`) -/

/-- `getNymEid` (`smartcard.go:49-62`). -/
def getNymEid (sc : CardPtr) : Prog S (Ptr .zr × Ptr .g1) := do
  let ctr ← load sc.ctr
  let s ← new .zr (Idemix.Aries.prf S sc.k0 (Idemix.Aries.ctrBlock (Int16.ofInt ctr)))
  let tau ← g1Mul2 sc.h0 s sc.h2 sc.eid
  pure (s, tau)

/-- `NymEid` (`smartcard.go:64-69`): the counter is read, written, and read again. -/
def nymEid (sc : CardPtr) : Prog S (Ptr .zr × Ptr .g1) := do
  let ctr ← load sc.ctr
  .write (k := .int) sc.ctr (Int16.ofInt ctr + 1).toInt (.done ())
  getNymEid sc

/-- What is hashed (`smartcard.go:90-97`, `144-151`). -/
def cardHash (sha : Bytes → Bytes) (h0 h1 h2 b b' tau : Ptr .g1) (msg : Bytes) : Prog S (Ptr .zr) := do
  let v0 ← load h0
  let v1 ← load h1
  let v2 ← load h2
  let vb ← load b
  let vb' ← load b'
  let vt ← load tau
  new .zr (S.zrOfBytes (sha (Idemix.Aries.cardHashInput (S := S) v0 v1 v2 vb vb' vt msg)))

/-- `NymSign` (`smartcard.go:71-122`). -/
def cardNymSign (sha : Bytes → Bytes) (sc : CardPtr) (msg seed : Bytes) (xt rt : S.F) : Prog S Bytes := do
  let r1 ← new .zr (Idemix.Aries.prf S sc.k1 seed)
  let b ← g1Mul2 sc.h0 r1 sc.h1 sc.uid
  let xt ← new .zr xt
  let rt ← new .zr rt
  let b' ← g1Mul2 sc.h0 rt sc.h1 xt
  let st ← getNymEid sc
  let ch ← cardHash sha sc.h0 sc.h1 sc.h2 b b' st.2 msg
  let vb ← load b
  let vb' ← load b'
  let cu ← zrMul ch sc.uid
  let x ← zrPlus xt cu
  let cr ← zrMul ch r1
  let y ← zrPlus rt cr
  let vx ← load x
  let vy ← load y
  pure (seed ++ S.g1Bytes vb ++ S.g1Bytes vb' ++ S.zrBytes vx ++ S.zrBytes vy)

/-- `NymVerify` (`smartcard.go:124-165`). -/
def nymVerifyCard (sha : Bytes → Bytes) (h0 h1 h2 : Ptr .g1) (proof : Bytes) (nymEid : Ptr .g1) (msg : Bytes) :
    Prog S Unit := do
  let bb ← .lift (goSlice proof 16 (16 + S.g1Len))
  let b ← .lift (Res.ofOption "could not parse B" (S.g1OfBytes bb))
  let b ← new .g1 b
  let bb' ← .lift (goSlice proof (16 + S.g1Len) (16 + S.g1Len + S.g1Len))
  let b' ← .lift (Res.ofOption "could not parse B_" (S.g1OfBytes bb'))
  let b' ← new .g1 b'
  let xb ← .lift (goSlice proof (16 + S.g1Len + S.g1Len) (16 + S.g1Len + S.g1Len + S.scalarLen))
  let x ← new .zr (S.zrOfBytes xb)
  let rb ← .lift (goSlice proof (16 + S.g1Len + S.g1Len + S.scalarLen)
    (16 + S.g1Len + S.g1Len + S.scalarLen + S.scalarLen))
  let ρ ← new .zr (S.zrOfBytes rb)
  let ch ← cardHash sha h0 h1 h2 b b' nymEid msg
  let lhs ← g1Mul2 h0 ρ h1 x
  let one ← new .zr (S.zrOfInt 1)
  let rhs ← g1Mul2 b' one b ch
  let l ← load lhs
  let y ← load rhs
  .lift (Res.guardErr (decide ((l : S.G1) ≠ (y : S.G1))) "invalid proof")

/-- `SmartcardIdemixBackend.Sign` (`smartcard.go:172-192`). -/
def cardSign (sha : Bytes → Bytes) (key : Dyn CardPtr) (digest seed : Bytes) (xt rt : S.F) :
    Prog S (Bytes × Ptr .g1 × Ptr .zr) := do
  let sc ← .lift (key.get "invalid interface conversion")
  let sig ← cardNymSign sha sc digest seed xt rt
  let seed' ← .lift (goSlice sig 0 16)
  let nb ← .lift (goSlice sig 16 (16 + S.g1Len))
  let nym ← .lift (Res.ofOption "parse nym" (S.g1OfBytes nb))
  let nym ← new .g1 nym
  let ρ ← new .zr (Idemix.Aries.prf S sc.k1 seed')
  pure (sig, nym, ρ)

/-- `SmartcardIdemixBackend.Verify` (`smartcard.go:195-204`). -/
def cardVerify (sha : Bytes → Bytes) (key : Dyn IpkPtr) (nym : Ptr .g1) (signature digest : Bytes) : Prog S Unit :=
  match key with
  | .val ipk => do
    let h1 ← .lift (Res.index ipk.pkg.h 0)
    let h2 ← .lift (Res.index ipk.pkg.h 3)
    nymVerifyCard sha ipk.pkg.h0 h1 h2 signature nym digest
  | _ => .panic

end Idemix.Mem.Aries
