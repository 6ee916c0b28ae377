import Verif.Mem.Ops

/-!
# BBS+ on the heap (`bbs/`)

The functions of `Verif/Bbs/Model.lean` once more, with the pointers of the code: what is copied, what is changed in place
and what is shared is as in the Go code. Parsing and serialisation are those of `Verif/Bbs/Model.lean`, applied to what is
read from the heap. `FrToRepr` returns its argument (`bbs/fr.go:75-77`).
-/

namespace Idemix.Mem.Bbs

open Idemix.Bbs (Lib PKG Sig SigMsg PoK PoKRand Committed ProofG1 SigProof Payload)

/-- The constants of the curve that the package uses: `GenG1`, `GenG2`, and the scalar of `f2192` (`bbs/fr.go:30-45`). -/
structure Consts where
  genG1 : Ptr .g1
  genG2 : Ptr .g2
  f2192 : Ptr .zr

/-- `SignatureMessage` (`bbs/signature_message.go:14-17`). -/
structure MsgPtr where
  fr : Ptr .zr
  idx : Int

/-- `PublicKeyWithGenerators` (`bbs/keys.go:67-74`). -/
structure PKGPtr where
  h0 : Ptr .g1
  h : List (Ptr .g1)
  w : Ptr .g2
  count : Int

/-- `Signature` (`bbs/signature.go:17-22`). -/
structure SigPtr where
  a : Ptr .g1
  e : Ptr .zr
  s : Ptr .zr

/-- `ProverCommittedG1` (`bbs/proof_of_knowledge.go:209-213`). -/
structure CommittedPtr where
  bases : List (Ptr .g1)
  blind : List (Ptr .zr)
  commitment : Ptr .g1

/-- `ProofG1` (`bbs/signature_proof.go:169-172`). -/
structure ProofG1Ptr where
  commitment : Ptr .g1
  responses : List (Ptr .zr)

/-- `PoKOfSignature` (`bbs/proof_of_knowledge.go:16-30`). -/
structure PoKPtr where
  aPrime : Ptr .g1
  aBar : Ptr .g1
  d : Ptr .g1
  vc1 : CommittedPtr
  secrets1 : List (Ptr .zr)
  vc2 : CommittedPtr
  secrets2 : List (Ptr .zr)

/-- `PoKOfSignatureProof` (`bbs/signature_proof.go:23-34`). -/
structure SigProofPtr where
  aPrime : Ptr .g1
  aBar : Ptr .g1
  d : Ptr .g1
  vc1 : ProofG1Ptr
  vc2 : ProofG1Ptr

variable {S : Suite} (L : Lib S) (c : Consts)

/-! ## Generators (`bbs/keys.go`) -/

/-- `publicKeyGeneratorCache.get` (`bbs/keys.go:37-51`); `none` is the nil cache. -/
def cacheGet (lib : Option Nat) (data : Bytes) : Prog S (Ptr .g1) :=
  match lib with
  | none => new .g1 (Idemix.Bbs.hashToG1 data : S.G1)
  | some l => .load l data fun cached =>
    match cached with
    | some p => .done p
    | none => .loadOrStore l data (Idemix.Bbs.hashToG1 data) .done

/-- The loop of `toPublicKeyWithGenerators` (`bbs/keys.go:96-108`). -/
def cacheGets (lib : Option Nat) : List Bytes → Prog S (List (Ptr .g1))
  | [] => pure []
  | d :: ds => do
    let p ← cacheGet lib d
    let ps ← cacheGets lib ds
    pure (p :: ps)

/-- `toPublicKeyWithGenerators` (`bbs/keys.go:86-115`). The inputs are computed first; in the code each is computed just
before it is looked up. -/
def toPKG (lib : Option Nat) (w : Ptr .g2) (messagesCount : Int) : Prog S PKGPtr := do
  let wv ← load w
  let ins ← .lift (Idemix.Bbs.genInputs (S := S) wv messagesCount)
  let h0 ← cacheGet lib ins.1
  let h ← cacheGets lib ins.2
  pure ⟨h0, h, w, messagesCount⟩

/-- `PrivateKey.PublicKey` (`bbs/keys.go:160-167`). -/
def publicKey (sk : Ptr .zr) : Prog S (Ptr .g2) := g2Mul c.genG2 sk

/-! ## Scalars (`bbs/fr.go`, `bbs/signature_message.go`) -/

/-- `FrFromOKM` (`bbs/fr.go:47-73`). -/
def frFromOKM (m : Bytes) : Prog S (Ptr .zr) := do
  let okm := L.okm m
  let elm ← new .zr (S.zrOfBytes (List.replicate 8 0 ++ okm.take 24))
  let elm ← zrMul elm c.f2192
  let fr ← new .zr (S.zrOfBytes (List.replicate 8 0 ++ okm.drop 24))
  zrPlus elm fr

/-- `MessagesToFr` (`bbs/fr.go:79-87`) from the index `i` on. -/
def messagesToFr : Nat → List Bytes → Prog S (List MsgPtr)
  | _, [] => pure []
  | i, m :: ms => do
    let fr ← frFromOKM L c m
    let rest ← messagesToFr (i + 1) ms
    pure (⟨fr, i⟩ :: rest)

/-! ## Multi-exponentiation (`bbs/bbs12381g2pub.go:326-369`) -/

/-- `if res == nil { res = g } else { res.Add(g) }` (`bbs12381g2pub.go:341-345`). -/
def addTo (res : Option (Ptr .g1)) (g : Ptr .g1) : Prog S (Ptr .g1) :=
  match res with
  | none => pure g
  | some r => do
    g1Add r g
    pure r

/-- The loop of `sumOfG1Products` (`bbs12381g2pub.go:330-361`). -/
def sumLoop : Option (Ptr .g1) → List (Ptr .g1) → List (Ptr .zr) → Prog S (Option (Ptr .g1))
  | res, b1 :: b2 :: bs, s1 :: s2 :: ss => do
    let g ← g1Mul2 b1 s1 b2 s2
    let res ← addTo res g
    sumLoop (some res) bs ss
  | res, [b], s :: _ => do
    let g ← g1Mul b s
    let res ← addTo res g
    pure (some res)
  | res, [], _ => pure res
  | _, _, _ => .panic

/-- `commitmentBuilder.Build` (`bbs12381g2pub.go:326-328`). -/
def build (bases : List (Ptr .g1)) (scalars : List (Ptr .zr)) : Prog S (Ptr .g1) := do
  let r ← sumLoop none bases scalars
  .lift (Res.deref r)

/-- `compareTwoPairings` (`bbs12381g2pub.go:363-369`). -/
def compareTwoPairings (p1 : Ptr .g1) (q1 : Ptr .g2) (p2 : Ptr .g1) (q2 : Ptr .g2) : Prog S Bool := do
  let a ← load q1
  let b ← load p1
  let c ← load q2
  let d ← load p2
  pure (Idemix.Bbs.compareTwoPairings (S := S) b a d c)

/-! ## Signatures (`bbs/signature.go`, `bbs/bbs12381g2pub.go:220-307`) -/

/-- `ParseSignature` (`signature.go:25-44`). -/
def parseSignature (raw : Bytes) : Prog S SigPtr := do
  let σ ← .lift (Idemix.Bbs.parseSignature S raw)
  let a ← new .g1 σ.a
  let e ← new .zr σ.e
  let s ← new .zr σ.s
  pure ⟨a, e, s⟩

/-- `Signature.ToBytes` (`signature.go:47-55`). -/
def sigBytes (σ : SigPtr) : Prog S Bytes := do
  let a ← load σ.a
  let e ← load σ.e
  let s ← load σ.s
  .lift (Sig.toBytes (S := S) ⟨a, e, s⟩)

/-- `key.H[messages[i].Idx]` for all messages. -/
def msgBases (pk : PKGPtr) (messages : List MsgPtr) : Res (List (Ptr .g1)) :=
  Res.mapM' (fun m => Res.index pk.h m.idx) messages

/-- `ComputeB` (`bbs12381g2pub.go:289-307`). -/
def computeB (s : Ptr .zr) (messages : List MsgPtr) (pk : PKGPtr) : Prog S (Ptr .g1) := do
  let one ← new .zr (S.zrOfInt 1)
  let hs ← .lift (msgBases pk messages)
  build (c.genG1 :: pk.h0 :: hs) (one :: s :: messages.map (·.fr))

/-- `Signature.VerifyWithB` (`signature.go:65-79`). -/
def verifyWithB (σ : SigPtr) (pk : PKGPtr) (b : Ptr .g1) : Prog S Unit := do
  let q1 ← g2Mul c.genG2 σ.e
  g2Add q1 pk.w
  let p2 ← copy b
  g1Neg p2
  let ok ← compareTwoPairings σ.a q1 p2 c.genG2
  .lift (if ok then .ok () else .err "invalid BLS12-381 signature")

/-- `Signature.Verify` (`signature.go:58-62`). -/
def verifySig (σ : SigPtr) (messages : List MsgPtr) (pk : PKGPtr) : Prog S Unit := do
  let b ← computeB c σ.s messages pk
  verifyWithB c σ pk b

/-- `SignWithKeyB` (`bbs12381g2pub.go:259-287`) with the sampled `e`, `s`. -/
def signWithKeyB (lib : Option Nat) (b : Ptr .g1) (messagesCount : Int) (sk : Ptr .zr) (e s : S.F) : Prog S Bytes := do
  let w ← publicKey c sk
  let pk ← toPKG lib w messagesCount
  let e ← new .zr e
  let s ← new .zr s
  let exp ← copy sk
  let exp ← zrPlus exp e
  zrInv exp
  let b ← copy b
  let g ← g1Mul pk.h0 s
  g1Add b g
  let a ← g1Mul b exp
  sigBytes ⟨a, e, s⟩

/-- `SignWithKeyFr` (`bbs12381g2pub.go:231-252`). -/
def signWithKeyFr (lib : Option Nat) (messages : List MsgPtr) (messagesCount : Int) (sk : Ptr .zr) (e s : S.F) :
    Prog S Bytes := do
  let w ← publicKey c sk
  let pk ← toPKG lib w messagesCount
  let one ← new .zr (S.zrOfInt 1)
  let hs ← .lift (msgBases pk messages)
  let b ← build (c.genG1 :: hs) (one :: messages.map (·.fr))
  signWithKeyB c lib b messages.length sk e s

/-- `BBSG2Pub.Sign` (`bbs12381g2pub.go:98-109`, `220-227`). -/
def sign (lib : Option Nat) (messages : List Bytes) (rawSk : Bytes) (e s : S.F) : Prog S Bytes := do
  let sk ← .lift (Idemix.Bbs.unmarshalPrivateKey S rawSk)
  let sk ← new .zr sk
  let _ ← .lift (Res.guardErr (messages.length = 0) "messages are not defined")
  let ms ← messagesToFr L c 0 messages
  signWithKeyFr c lib ms messages.length sk e s

/-- `BBSG2Pub.Verify` (`bbs12381g2pub.go:74-95`). -/
def verify (lib : Option Nat) (messages : List Bytes) (rawSig rawPk : Bytes) : Prog S Unit := do
  let σ ← parseSignature rawSig
  let w ← .lift (Idemix.Bbs.unmarshalPublicKey S rawPk)
  let w ← new .g2 w
  let pk ← toPKG lib w messages.length
  let ms ← messagesToFr L c 0 messages
  verifySig c σ ms pk

/-! ## Proofs of knowledge (`bbs/proof_of_knowledge.go`) -/

/-- A sequence of `Commit` calls draws one blinding factor per base (`proof_of_knowledge.go:260-264`). -/
def blindings : Nat → (Nat → S.F) → Prog S (List (Ptr .zr))
  | 0, _ => pure []
  | n + 1, ρ => do
    let r ← new .zr (ρ 0)
    let rs ← blindings n fun i => ρ (i + 1)
    pure (r :: rs)

/-- `Finish` (`proof_of_knowledge.go:267-275`). -/
def finish (bases : List (Ptr .g1)) (blind : List (Ptr .zr)) : Prog S CommittedPtr := do
  let com ← build bases blind
  pure ⟨bases, blind, com⟩

/-- The loop of `GenerateProof` (`proof_of_knowledge.go:230-235`). -/
def responses (challenge : Ptr .zr) : List (Ptr .zr) → List (Ptr .zr) → Prog S (List (Ptr .zr))
  | [], _ => pure []
  | _, [] => .panic
  | b :: bs, s :: ss => do
    let x ← zrMul challenge s
    let y ← zrMinus b x
    let ys ← responses challenge bs ss
    pure (y :: ys)

/-- `ProverCommittedG1.GenerateProof` (`proof_of_knowledge.go:227-241`). -/
def generateProofG1 (p : CommittedPtr) (challenge : Ptr .zr) (secrets : List (Ptr .zr)) : Prog S ProofG1Ptr := do
  let rs ← responses challenge p.blind secrets
  pure ⟨p.commitment, rs⟩

/-- `PoKOfSignature.GenerateProof` (`proof_of_knowledge.go:197-206`). -/
def generateProof (p : PoKPtr) (challenge : Ptr .zr) : Prog S SigProofPtr := do
  let vc1 ← generateProofG1 p.vc1 challenge p.secrets1
  let vc2 ← generateProofG1 p.vc2 challenge p.secrets2
  pure ⟨p.aPrime, p.aBar, p.d, vc1, vc2⟩

/-- `VC2SignatureProvider.New`: bases and secrets. -/
abbrev VC2Provider (S : Suite) :=
  Ptr .g1 → Ptr .zr → PKGPtr → Ptr .zr → List MsgPtr → List Int → Prog S (List (Ptr .g1) × List (Ptr .zr))

/-- Messages whose index is not revealed (`proof_of_knowledge.go:169-180`). -/
def hiddenMsgs (messages : List MsgPtr) (revealed : List Int) : List MsgPtr :=
  messages.filter fun m => !revealed.contains m.idx

/-- Copies of the hidden messages (`proof_of_knowledge.go:176-179`). -/
def copies : List (Ptr .zr) → Prog S (List (Ptr .zr))
  | [] => pure []
  | p :: ps => do
    let q ← copy p
    let qs ← copies ps
    pure (q :: qs)

/-- `defaultVC2SignatureProvider.New` (`proof_of_knowledge.go:151-185`). -/
def defaultVC2 : VC2Provider S := fun d r3 pk sPrime messages revealed => do
  let r3D ← copy r3
  zrNeg r3D
  let hs ← .lift (msgBases pk (hiddenMsgs messages revealed))
  let fs ← copies ((hiddenMsgs messages revealed).map (·.fr))
  pure (d :: pk.h0 :: hs, r3D :: sPrime :: fs)

/-- `messages[ind].Idx` for the revealed indices (`proof_of_knowledge.go:103-105`). -/
def revealedIdx (messages : List MsgPtr) : List (Ptr .int) → Prog S (List Int)
  | [] => pure []
  | p :: ps => do
    let i ← load p
    let m ← .lift (Res.index messages i)
    let rest ← revealedIdx messages ps
    pure (m.idx :: rest)

/-- `PoKOfSignatureB` (`proof_of_knowledge.go:67-126`). -/
def pokOfSignatureB (provider : VC2Provider S) (vfy : Bool) (σ : SigPtr) (messages : List MsgPtr)
    (revealedIndexes : List (Ptr .int)) (pk : PKGPtr) (b : Ptr .g1) (ρ : PoKRand S) : Prog S PoKPtr := do
  (if vfy then verifyWithB c σ pk b else pure ())
  let r1 ← new .zr ρ.r1
  let r2 ← new .zr ρ.r2
  let aPrime ← g1Mul σ.a r1
  let aBarDenom ← g1Mul aPrime σ.e
  let aBar ← g1Mul b r1
  g1Sub aBar aBarDenom
  let r2D ← copy r2
  zrNeg r2D
  let d ← build [b, pk.h0] [r1, r2D]
  let r3 ← copy r1
  zrInv r3
  let sPrime ← zrMul r2 r3
  zrNeg sPrime
  let sPrime ← zrPlus sPrime σ.s
  let bl1 ← blindings 2 ρ.vc1
  let sigE ← copy σ.e
  zrNeg sigE
  let vc1 ← finish [aPrime, pk.h0] bl1
  let _ ← .lift (Res.guardErr (messages.length < revealedIndexes.length) "invalid size")
  let revealed ← revealedIdx messages revealedIndexes
  let p2 ← provider d r3 pk sPrime messages revealed
  let bl2 ← blindings p2.1.length ρ.vc2
  let vc2 ← finish p2.1 bl2
  pure ⟨aPrime, aBar, d, vc1, [sigE, r2], vc2, p2.2⟩

/-- `NewPoKOfSignature` (`proof_of_knowledge.go:33-45`, `60-65`). -/
def newPoKOfSignature (σ : SigPtr) (messages : List MsgPtr) (revealedIndexes : List (Ptr .int)) (pk : PKGPtr)
    (ρ : PoKRand S) : Prog S PoKPtr := do
  let b ← computeB c σ.s messages pk
  pokOfSignatureB c defaultVC2 true σ messages revealedIndexes pk b ρ

/-- `ProverCommittedG1.ToBytes` (`proof_of_knowledge.go:216-224`). -/
def committedBytes (p : CommittedPtr) : Prog S Bytes := do
  let bs ← loadAll p.bases
  let com ← load p.commitment
  pure (Committed.toBytes (S := S) ⟨bs, [], com⟩)

/-- `PoKOfSignature.ToBytes` (`proof_of_knowledge.go:188-194`). -/
def pokBytes (p : PoKPtr) : Prog S Bytes := do
  let aBar ← load p.aBar
  let b1 ← committedBytes p.vc1
  let b2 ← committedBytes p.vc2
  pure (S.g1Bytes aBar ++ b1 ++ b2)

/-- `PoKOfSignatureProof.ToBytes` (`signature_proof.go:147-166`, `208-227`). -/
def sigProofBytes (p : SigProofPtr) : Prog S Bytes := do
  let aPrime ← load p.aPrime
  let aBar ← load p.aBar
  let d ← load p.d
  let c1 ← load p.vc1.commitment
  let r1 ← loadAll p.vc1.responses
  let c2 ← load p.vc2.commitment
  let r2 ← loadAll p.vc2.responses
  .lift (SigProof.toBytes (S := S) ⟨aPrime, aBar, d, ⟨c1, r1⟩, ⟨c2, r2⟩⟩)

/-- `sort.Ints`, insertion of the element at the end (`slices.insertionSortOrdered`: swaps from right to left). The list of
cells is given from right to left. -/
def siftDown : List (Ptr .int) → Prog S Unit
  | q :: p :: ps => do
    let y ← load q
    let x ← load p
    if (y : Int) < (x : Int) then
      let y ← load q
      let x ← load p
      .write (k := .int) q x (.write (k := .int) p y (siftDown (p :: ps)))
    else pure ()
  | _ => pure ()

/-- `sort.Ints` (`bbs12381g2pub.go:173`): insertion sort, which is what Go does for up to 12 elements; for more, the order
of the comparisons is different. `done` are the cells already sorted, from right to left. -/
def sortFrom : List (Ptr .int) → List (Ptr .int) → Prog S Unit
  | _, [] => pure ()
  | sorted, p :: ps => do
    siftDown (p :: sorted)
    sortFrom (p :: sorted) ps

/-- `sort.Ints`. -/
def sortInts (ps : List (Ptr .int)) : Prog S Unit := sortFrom [] ps

/-- `ParseProofNonce(nonce).ToBytes()` (`bbs12381g2pub.go:377-386`). -/
def nonceBytes (nonce : Bytes) : Prog S Bytes := do
  let p ← frFromOKM L c nonce
  let x ← load p
  pure (S.zrBytes x)

/-- `DeriveProofZr` after the indices have been sorted (`bbs12381g2pub.go:175-216`). -/
def deriveSorted (lib : Option Nat) (messages : List MsgPtr) (rawSig nonce rawPk : Bytes)
    (revealedIndexes : List (Ptr .int)) (ρ : PoKRand S) : Prog S Bytes := do
  let w ← .lift (Idemix.Bbs.unmarshalPublicKey S rawPk)
  let w ← new .g2 w
  let pk ← toPKG lib w messages.length
  let σ ← parseSignature rawSig
  let pok ← newPoKOfSignature c σ messages revealedIndexes pk ρ
  let cb ← pokBytes pok
  let nb ← nonceBytes L c nonce
  let challenge ← frFromOKM L c (cb ++ nb)
  let proof ← generateProof pok challenge
  let is ← loadAll revealedIndexes
  let payload ← .lift (Payload.toBytes ⟨messages.length, is⟩)
  let pb ← sigProofBytes proof
  pure (payload ++ pb)

/-- `DeriveProofZr` (`bbs12381g2pub.go:167-217`). -/
def deriveProofZr (lib : Option Nat) (messages : List MsgPtr) (rawSig nonce rawPk : Bytes)
    (revealedIndexes : List (Ptr .int)) (ρ : PoKRand S) : Prog S Bytes := do
  let _ ← .lift (Res.guardErr (revealedIndexes.length = 0) "no message to reveal")
  sortInts revealedIndexes
  deriveSorted L c lib messages rawSig nonce rawPk revealedIndexes ρ

/-- `DeriveProof` (`bbs12381g2pub.go:160-163`). -/
def deriveProof (lib : Option Nat) (messages : List Bytes) (rawSig nonce rawPk : Bytes)
    (revealedIndexes : List (Ptr .int)) (ρ : PoKRand S) : Prog S Bytes := do
  let ms ← messagesToFr L c 0 messages
  deriveProofZr L c lib ms rawSig nonce rawPk revealedIndexes ρ

/-! ## Verification of proofs (`bbs/signature_proof.go`) -/

/-- `ProofG1.Verify` (`signature_proof.go:183-205`). -/
def verifyProofG1 (p : ProofG1Ptr) (bases : List (Ptr .g1)) (statement : Ptr .g1) (challenge : Ptr .zr) : Prog S Unit := do
  let contribution ← build (bases ++ [statement]) (p.responses ++ [challenge])
  g1Sub contribution p.commitment
  let x ← load contribution
  .lift (Res.guardErr ((x : S.G1) ≠ 0) "contribution is not zero")

/-- The split of the generators (`signature_proof.go:114-122`). -/
def splitGens (revealed : List Nat) : Nat → List (Ptr .g1) → List MsgPtr →
    Res (List (Ptr .g1 × Ptr .zr) × List (Ptr .g1))
  | _, [], _ => .ok ([], [])
  | i, h :: hs, ms =>
    if revealed.contains i then
      match ms with
      | [] => .panic
      | m :: ms => do
        let (ds, bs) ← splitGens revealed (i + 1) hs ms
        pure ((h, m.fr) :: ds, bs)
    else do
      let (ds, bs) ← splitGens revealed (i + 1) hs ms
      pure (ds, h :: bs)

/-- The loop over the disclosed generators (`signature_proof.go:128-134`). -/
def sumDisclosed (pr : Ptr .g1) : List (Ptr .g1 × Ptr .zr) → Prog S Unit
  | [] => pure ()
  | d :: ds => do
    let g ← g1Mul d.1 d.2
    g1Add pr g
    sumDisclosed pr ds

/-- `VC2ProofVerifier.Verify`. -/
abbrev VC2Verifier (S : Suite) :=
  Ptr .zr → PKGPtr → List Nat → List MsgPtr → ProofG1Ptr → Ptr .g1 → Prog S Unit

/-- `defaultVC2ProofVerifier.Verify` (`signature_proof.go:98-144`). -/
def defaultVC2Verify : VC2Verifier S := fun challenge pk revealed messages proof d => do
  let _ ← .lift (Res.guardPanic (2 + pk.count - revealed.length < 0))
  let one ← new .zr (S.zrOfInt 1)
  let split ← .lift (splitGens revealed 0 pk.h messages)
  let pr ← copy c.genG1
  g1Sub pr c.genG1
  sumDisclosed pr ((c.genG1, one) :: split.1)
  g1Neg pr
  (verifyProofG1 proof (d :: pk.h0 :: split.2) pr challenge).mapErr fun _ => "bad signature"

/-- `PoKOfSignatureProof.Verify` (`signature_proof.go:63-92`). -/
def verifySigProof (vc2 : VC2Verifier S) (sp : SigProofPtr) (challenge : Ptr .zr) (pk : PKGPtr) (revealed : List Nat)
    (messages : List MsgPtr) : Prog S Unit := do
  let aBar ← copy sp.aBar
  g1Neg aBar
  let ok ← compareTwoPairings sp.aPrime pk.w aBar c.genG2
  let _ ← .lift (Res.guardErr (!ok) "bad signature")
  let aBarD ← copy sp.aBar
  g1Sub aBarD sp.d
  (verifyProofG1 sp.vc1 [sp.aPrime, pk.h0] aBarD challenge).mapErr fun _ => "bad signature"
  vc2 challenge pk revealed messages sp.vc2 sp.d

/-- `GetBytesForChallenge` (`signature_proof.go:37-60`). -/
def bytesForChallenge (sp : SigProofPtr) (revealed : List Nat) (pk : PKGPtr) : Prog S Bytes := do
  let aBar ← load sp.aBar
  let aPrime ← load sp.aPrime
  let h0 ← load pk.h0
  let c1 ← load sp.vc1.commitment
  let d ← load sp.d
  let hs ← loadAll pk.h
  let c2 ← load sp.vc2.commitment
  .lift (SigProof.bytesForChallenge (S := S) ⟨aPrime, aBar, d, ⟨c1, []⟩, ⟨c2, []⟩⟩ revealed ⟨h0, hs, 0, pk.count⟩)

/-- New scalars (`signature_proof.go:298-301`). -/
def newZrs : List S.F → Prog S (List (Ptr .zr))
  | [] => pure []
  | x :: xs => do
    let p ← new .zr x
    let ps ← newZrs xs
    pure (p :: ps)

/-- `ParseSignatureProof` (`signature_proof.go:230-304`). -/
def parseSignatureProof (raw : Bytes) : Prog S SigProofPtr := do
  let sp ← .lift (Idemix.Bbs.parseSignatureProof S raw)
  let aPrime ← new .g1 sp.aPrime
  let aBar ← new .g1 sp.aBar
  let d ← new .g1 sp.d
  let c1 ← new .g1 sp.vc1.commitment
  let r1 ← newZrs sp.vc1.responses
  let c2 ← new .g1 sp.vc2.commitment
  let r2 ← newZrs sp.vc2.responses
  pure ⟨aPrime, aBar, d, ⟨c1, r1⟩, ⟨c2, r2⟩⟩

/-- `VerifyProofFr` (`bbs12381g2pub.go:120-157`). -/
def verifyProofFr (lib : Option Nat) (messages : List MsgPtr) (proof nonce rawPk : Bytes) : Prog S Unit := do
  let pl ← .lift (Idemix.Bbs.parsePoKPayload proof)
  let rest ← .lift (goSlice proof (Idemix.Bbs.lenInBytes pl.1).toNat proof.length)
  let sp ← parseSignatureProof rest
  let w ← .lift (Idemix.Bbs.unmarshalPublicKey S rawPk)
  let w ← new .g2 w
  let pk ← toPKG lib w pl.1
  let _ ← .lift (Res.guardErr (messages.length < pl.2.length) "payload revealed bigger from messages")
  let cb ← bytesForChallenge sp pl.2 pk
  let nb ← nonceBytes L c nonce
  let challenge ← frFromOKM L c (cb ++ nb)
  verifySigProof c (defaultVC2Verify c) sp challenge pk pl.2 messages

/-- `VerifyProof` (`bbs12381g2pub.go:112-116`). -/
def verifyProof (lib : Option Nat) (messages : List Bytes) (proof nonce rawPk : Bytes) : Prog S Unit := do
  let ms ← messagesToFr L c 0 messages
  verifyProofFr L c lib ms proof nonce rawPk

end Idemix.Mem.Bbs
