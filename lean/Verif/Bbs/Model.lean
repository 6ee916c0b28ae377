import Verif.Suite
import Verif.Base.Bin
import Mathlib.Data.List.Sort

/-!
# BBS+ (`bbs/`)

Model of the package `bbs`. Random scalars are arguments; a sequence of blinding factors drawn one after
the other is a function from the position. `map[int]*SignatureMessage` is only asked for membership of a
key and for its size, so it is modelled by the list of its distinct keys.
In-place updates (`Add`, `Sub`, `Neg`) are rebinding; they are only applied to freshly made points.
-/

namespace Idemix.Bbs

/-- What the package uses besides the curve: BLAKE2b-384 and HKDF. -/
structure Lib (S : Suite) where
  /-- `blake2b.New384(nil)` applied to a message (`fr.go:53-58`). -/
  okm : Bytes → Bytes
  okm_len : ∀ m, (okm m).length = 48
  /-- `newHKDF(h, ikm, "BBS-SIG-KEYGEN-SALT-", [0,0], length)` (`keys.go:235-245`) for the hash passed. -/
  hkdf : Bytes → Nat → Res Bytes
  /-- `NewZrFromInt(1)` is one. -/
  zrOfInt_one : S.zrOfInt 1 = 1

attribute [simp] Lib.zrOfInt_one

/-- `frCompressedSize` (`bbs12381g2pub.go:71`); also `seedSize` (`keys.go:23`). -/
def frLen : Nat := 32

variable {S : Suite} (L : Lib S)

/-! ## fr.go, signature_message.go -/

/-- `f2192Bytes` (`fr.go:22-27`). -/
def f2192Bytes : Bytes := List.replicate 7 0 ++ [1] ++ List.replicate 24 0

/-- `FrFromOKM` (`fr.go:47-73`): the digest is split into two halves of 24 bytes, each extended by 8
leading zeros. -/
def frFromOKM (m : Bytes) : S.F :=
  let okm := L.okm m
  let elm := S.zrOfBytes (List.replicate 8 0 ++ okm.take 24)
  let elm := elm * S.zrOfBytes f2192Bytes
  let fr := S.zrOfBytes (List.replicate 8 0 ++ okm.drop 24)
  elm + fr

/-- `SignatureMessage` (`signature_message.go:14-17`). -/
structure SigMsg (S : Suite) where
  fr : S.F
  idx : Int

/-- `MessagesToFr` (`fr.go:79-87`, `signature_message.go:20-27`). -/
def messagesToFr (messages : List Bytes) : List (SigMsg S) :=
  messages.mapIdx fun i m => ⟨frFromOKM L m, i⟩

/-! ## Multi-exponentiation (`bbs12381g2pub.go:330-361`) -/

/-- `res.Add(g)` or `res = g` when `res` is nil. -/
def addTo {G : Type} [Add G] : Option G → G → G
  | none, g => g
  | some r, g => r + g

/-- The loop of `sumOfG1Products`; running out of scalars is an index panic. -/
def sumLoop : Option S.G1 → List S.G1 → List S.F → Res (Option S.G1)
  | res, b1 :: b2 :: bs, s1 :: s2 :: ss => sumLoop (some (addTo res (s1 • b1 + s2 • b2))) bs ss
  | res, [b], s :: _ => .ok (some (addTo res (s • b)))
  | res, [], _ => .ok res
  | _, _, _ => .panic

/-- `sumOfG1Products`; the result is nil for no bases. -/
def sumOfG1Products (bases : List S.G1) (scalars : List S.F) : Res (Option S.G1) :=
  sumLoop none bases scalars

/-- A commitment that is used afterwards: nil would be dereferenced (`commitmentBuilder.Build`,
`bbs12381g2pub.go:326-328`, and `Finish`, `proof_of_knowledge.go:267-275`). -/
def build (bases : List S.G1) (scalars : List S.F) : Res S.G1 := do
  let r ← sumOfG1Products bases scalars
  Res.deref r

/-- `compareTwoPairings` (`bbs12381g2pub.go:363-369`). -/
def compareTwoPairings (p1 : S.G1) (q1 : S.G2) (p2 : S.G1) (q2 : S.G2) : Bool :=
  decide (S.pair q1 p1 + S.pair q2 p2 = 0)

/-! ## keys.go -/

/-- `dstG1` (`keys.go:133`). -/
def dstG1 : Bytes := [66, 76, 83, 49, 50, 51, 56, 49, 71, 49, 95, 88, 77, 68, 58, 66, 76, 65, 75, 69, 50, 66,
  95, 83, 83, 87, 85, 95, 82, 79, 95, 66, 66, 83, 43, 95, 83, 73, 71, 78, 65, 84, 85, 82, 69, 83, 58, 49, 95,
  48, 95, 48]

/-- `hashToG1` (`keys.go:132-136`). -/
def hashToG1 (data : Bytes) : S.G1 := S.hashToG1 data dstG1

/-- `PublicKeyWithGenerators` (`keys.go:67-74`). -/
structure PKG (S : Suite) where
  h0 : S.G1
  h : List S.G1
  w : S.G2
  count : Int

/-- `calcData` (`keys.go:117-130`). -/
def calcData (w : S.G2) (messagesCount : Int) : Res Bytes :=
  if messagesCount < 0 ∨ 0xFFFFFFFF < messagesCount then .panic
  else .ok (S.g2Bytes w ++ [0, 0, 0, 0, 0, 0] ++ beBytes 4 messagesCount.toNat)

/-- The input of the `i`-th generator (`keys.go:97-104`): the counter overwrites four bytes. -/
def genInput (S : Suite) (data : Bytes) (i : Nat) : Res Bytes :=
  let offset := S.g2Len + 1
  if data.length < offset + 4 then .panic
  else .ok (data.take offset ++ beBytes 4 i ++ data.drop (offset + 4))

/-- All hash inputs used for a key and a message count: `h0`'s, then `h1`'s, ... (`keys.go:90-107`). -/
def genInputs (w : S.G2) (messagesCount : Int) : Res (Bytes × List Bytes) := do
  let data ← calcData w messagesCount
  let ins ← Res.mapM' (fun i : Nat => genInput S data (i + 1)) (List.range messagesCount.toNat)
  pure (data, ins)

/-- `toPublicKeyWithGenerators` (`keys.go:86-115`) without cache; the cache is the subject of
`Verif/Bbs/Cache.lean`. -/
def toPKG (w : S.G2) (messagesCount : Int) : Res (PKG S) := do
  let (d0, ins) ← genInputs w messagesCount
  pure ⟨hashToG1 d0, ins.map hashToG1, w, messagesCount⟩

/-- `PrivateKey.PublicKey` (`keys.go:160-167`). -/
def publicKey (sk : S.F) : S.G2 := sk • S.genG2

/-- `UnmarshalPrivateKey` (`keys.go:139-150`). -/
def unmarshalPrivateKey (S : Suite) (raw : Bytes) : Res S.F := do
  Res.guardErr (raw.length ≠ frLen) "invalid size of private key"
  pure (S.zrOfBytes raw)

/-- `UnmarshalPublicKey` (`keys.go:170-184`). -/
def unmarshalPublicKey (S : Suite) (raw : Bytes) : Res S.G2 := do
  Res.guardErr (raw.length ≠ S.g2CompLen) "invalid size of public key"
  Res.ofOption "deserialize public key" (S.g2OfComp raw)

/-- `generateOKM` (`keys.go:215-233`): a nil seed is replaced by `random`, 32 fresh bytes. -/
def generateOKM (seed : Option Bytes) (random : Bytes) : Res Bytes :=
  match seed with
  | some s => L.hkdf (s ++ [0]) S.scalarLen
  | none => L.hkdf (random ++ [0]) S.scalarLen

/-- `GenerateKeyPair` (`keys.go:194-213`). -/
def generateKeyPair (seed : Option Bytes) (random : Bytes) : Res (S.G2 × S.F) := do
  let len := (seed.getD []).length
  Res.guardErr (len ≠ 0 ∧ len ≠ frLen) "invalid size of seed"
  let okm ← generateOKM L seed random
  let fr := frFromOKM L okm
  pure (publicKey fr, fr)

/-! ## signature.go -/

/-- `Signature` (`signature.go:17-22`). -/
structure Sig (S : Suite) where
  a : S.G1
  e : S.F
  s : S.F

/-- `ParseSignature` (`signature.go:25-44`). -/
def parseSignature (S : Suite) (raw : Bytes) : Res (Sig S) := do
  Res.guardErr (raw.length ≠ S.g1CompLen + 2 * frLen) "invalid size of signature"
  let p ← goSlice raw 0 S.g1CompLen
  let a ← Res.ofOption "deserialize G1 compressed signature" (S.g1OfComp p)
  let e ← goSlice raw S.g1CompLen (S.g1CompLen + frLen)
  let s ← goSlice raw (S.g1CompLen + frLen) raw.length
  pure ⟨a, S.zrOfBytes e, S.zrOfBytes s⟩

/-- `Signature.ToBytes` (`signature.go:47-55`). -/
def Sig.toBytes (σ : Sig S) : Res Bytes := do
  let n := S.g1CompLen + 2 * frLen
  let b ← copyIn (List.replicate n 0) 0 n (S.g1Comp σ.a)
  let b ← copyIn b S.g1CompLen (S.g1CompLen + frLen) (S.zrBytes σ.e)
  copyIn b (S.g1CompLen + frLen) n (S.zrBytes σ.s)

/-- Generators and scalars of the messages: `key.H[messages[i].Idx]`, `messages[i].FR`. -/
def msgBases (pk : PKG S) (messages : List (SigMsg S)) : Res (List S.G1) :=
  Res.mapM' (fun m => Res.index pk.h m.idx) messages

/-- `ComputeB` (`bbs12381g2pub.go:289-307`). -/
def computeB (s : S.F) (messages : List (SigMsg S)) (pk : PKG S) : Res S.G1 := do
  let hs ← msgBases pk messages
  build (S.genG1 :: pk.h0 :: hs) (S.zrOfInt 1 :: s :: messages.map (·.fr))

/-- `Signature.VerifyWithB` (`signature.go:65-79`). -/
def Sig.verifyWithB (σ : Sig S) (pk : PKG S) (b : S.G1) : Res Unit :=
  let q1 := σ.e • S.genG2 + pk.w
  if compareTwoPairings σ.a q1 (-b) S.genG2 then .ok () else .err "invalid BLS12-381 signature"

/-- `Signature.Verify` (`signature.go:58-62`). -/
def Sig.verify (σ : Sig S) (messages : List (SigMsg S)) (pk : PKG S) : Res Unit := do
  let b ← computeB σ.s messages pk
  σ.verifyWithB pk b

/-- `SignWithKeyB` (`bbs12381g2pub.go:259-287`) with the sampled `e`, `s`. -/
def signWithKeyB (b : S.G1) (messagesCount : Int) (sk e s : S.F) : Res Bytes := do
  let pk ← toPKG (publicKey sk) messagesCount
  let exp := (sk + e)⁻¹
  let b := b + s • pk.h0
  Sig.toBytes ⟨exp • b, e, s⟩

/-- `SignWithKeyFr` (`bbs12381g2pub.go:231-252`). Note that the blinding generator is taken for
`len(messagesFr)`, not for `messagesCount`. -/
def signWithKeyFr (messages : List (SigMsg S)) (messagesCount : Int) (sk e s : S.F) : Res Bytes := do
  let pk ← toPKG (publicKey sk) messagesCount
  let hs ← msgBases pk messages
  let b ← build (S.genG1 :: hs) (S.zrOfInt 1 :: messages.map (·.fr))
  signWithKeyB b messages.length sk e s

/-- `BBSG2Pub.Sign` (`bbs12381g2pub.go:98-109`, `220-227`). -/
def sign (messages : List Bytes) (rawSk : Bytes) (e s : S.F) : Res Bytes := do
  let sk ← unmarshalPrivateKey S rawSk
  Res.guardErr (messages.length = 0) "messages are not defined"
  signWithKeyFr (messagesToFr L messages) messages.length sk e s

/-- `BBSG2Pub.Verify` (`bbs12381g2pub.go:74-95`). -/
def verify (messages : List Bytes) (rawSig rawPk : Bytes) : Res Unit := do
  let σ ← parseSignature S rawSig
  let w ← unmarshalPublicKey S rawPk
  let pk ← toPKG w messages.length
  σ.verify (messagesToFr L messages) pk

/-! ## utils.go: the payload -/

/-- `pokPayload` (`utils.go:55-58`). -/
structure Payload where
  count : Int
  revealed : List Int
  deriving DecidableEq, Repr

/-- `lenInBytes` (`utils.go:115-117`); Go's division truncates towards zero. -/
def lenInBytes (messagesCount : Int) : Int := 2 + messagesCount.tdiv 8 + 1

/-- `bitvectorToIndexes` (`utils.go:31-53`), starting at `scalar`. -/
def bitvectorToIndexes : Bytes → Nat → List Nat
  | [], _ => []
  | v :: vs, scalar => byteIndexes 8 v scalar ++ bitvectorToIndexes vs (scalar + 8)

/-- `ParsePoKPayload` (`utils.go:61-82`). -/
def parsePoKPayload (raw : Bytes) : Res (Nat × List Nat) := do
  Res.guardErr (raw.length < 2) "invalid size of PoK payload"
  let c ← goSlice raw 0 2
  let messagesCount := beNat c
  let offset := (lenInBytes messagesCount).toNat
  Res.guardErr (raw.length < offset) "invalid size of PoK payload"
  let bv ← goSlice raw 2 offset
  pure (messagesCount, bitvectorToIndexes bv.reverse 0)

/-- One step of the loop of `pokPayload.ToBytes` (`utils.go:95-104`): negative indices panic (negative
shift or index). -/
def setBit (bv : Bytes) (r : Int) : Res Bytes :=
  let idx := r.tdiv 8
  let b := r.tmod 8
  if (bv.length : Int) ≤ idx then .err "invalid size of PoK payload"
  else if idx < 0 ∨ b < 0 then .panic
  else .ok (bv.modify idx.toNat (fun v => v ||| (1 <<< (UInt8.ofNat b.toNat))))

/-- The loop of `pokPayload.ToBytes`. -/
def setBits : Bytes → List Int → Res Bytes
  | bv, [] => .ok bv
  | bv, r :: rs => do
    let bv ← setBit bv r
    setBits bv rs

/-- `pokPayload.ToBytes` (`utils.go:85-109`). -/
def Payload.toBytes (p : Payload) : Res Bytes := do
  let n := lenInBytes p.count
  Res.guardPanic (n < 0)
  Res.guardErr (p.count < 0 ∨ 0xFFFF < p.count) "MessagesCount out of range for uint16"
  let bv ← setBits (List.replicate (n.toNat - 2) 0) p.revealed
  pure (beBytes 2 p.count.toNat ++ bv.reverse)

/-! ## proof_of_knowledge.go -/

/-- `ProofG1` (`signature_proof.go:169-172`). -/
structure ProofG1 (S : Suite) where
  commitment : S.G1
  responses : List S.F

/-- `ProverCommittedG1` (`proof_of_knowledge.go:209-213`). -/
structure Committed (S : Suite) where
  bases : List S.G1
  blind : List S.F
  commitment : S.G1

/-- `Finish` (`proof_of_knowledge.go:267-275`) for given blinding factors. -/
def finish (bases : List S.G1) (blind : List S.F) : Res (Committed S) := do
  let c ← build bases blind
  pure ⟨bases, blind, c⟩

/-- A sequence of `Commit` calls (`proof_of_knowledge.go:260-264`): one fresh blinding factor per base. -/
def blindings (n : Nat) (ρ : Nat → S.F) : List S.F := (List.range n).map ρ

/-- `ProverCommittedG1.ToBytes` (`proof_of_knowledge.go:216-224`). -/
def Committed.toBytes (c : Committed S) : Bytes :=
  (c.bases.map S.g1Bytes).flatten ++ S.g1Bytes c.commitment

/-- `ProverCommittedG1.GenerateProof` (`proof_of_knowledge.go:227-241`). -/
def Committed.generateProof (c : Committed S) (challenge : S.F) (secrets : List S.F) : Res (ProofG1 S) := do
  Res.guardPanic (secrets.length < c.blind.length)
  pure ⟨c.commitment, List.zipWith (fun b s => b - challenge * s) c.blind secrets⟩

/-- `PoKOfSignature` (`proof_of_knowledge.go:16-30`). -/
structure PoK (S : Suite) where
  aPrime : S.G1
  aBar : S.G1
  d : S.G1
  vc1 : Committed S
  secrets1 : List S.F
  vc2 : Committed S
  secrets2 : List S.F

/-- Randomness of a proof of knowledge. -/
structure PoKRand (S : Suite) where
  r1 : S.F
  r2 : S.F
  vc1 : Nat → S.F
  vc2 : Nat → S.F

/-- `VC2SignatureProvider.New`: bases and secrets of the second commitment; the blinding factors are drawn
one per base. Arguments: `d`, `r3`, the key, `sPrime`, the messages, the revealed keys. -/
abbrev VC2Provider (S : Suite) :=
  S.G1 → S.F → PKG S → S.F → List (SigMsg S) → List Int → Res (List S.G1 × List S.F)

/-- Messages whose index is not revealed (`proof_of_knowledge.go:169-180`). -/
def hiddenMsgs (messages : List (SigMsg S)) (revealed : List Int) : List (SigMsg S) :=
  messages.filter fun m => !revealed.contains m.idx

/-- `defaultVC2SignatureProvider.New` (`proof_of_knowledge.go:151-185`). -/
def defaultVC2 : VC2Provider S := fun d r3 pk sPrime messages revealed => do
  let hs ← msgBases pk (hiddenMsgs messages revealed)
  pure (d :: pk.h0 :: hs, -r3 :: sPrime :: (hiddenMsgs messages revealed).map (·.fr))

/-- `VerifySig` is checked first (`proof_of_knowledge.go:69-74`). -/
def checkSig (verifySig : Bool) (σ : Sig S) (pk : PKG S) (b : S.G1) : Res Unit :=
  if verifySig then σ.verifyWithB pk b else .ok ()

/-- `PoKOfSignatureB` (`proof_of_knowledge.go:67-126`). -/
def pokOfSignatureB (provider : VC2Provider S) (verifySig : Bool) (σ : Sig S) (messages : List (SigMsg S))
    (revealedIndexes : List Int) (pk : PKG S) (b : S.G1) (ρ : PoKRand S) : Res (PoK S) := do
  checkSig verifySig σ pk b
  let aPrime := ρ.r1 • σ.a
  let aBar := ρ.r1 • b - σ.e • aPrime
  let d ← build [b, pk.h0] [ρ.r1, -ρ.r2]
  let r3 := ρ.r1⁻¹
  let sPrime := -(ρ.r2 * r3) + σ.s
  let vc1 ← finish [aPrime, pk.h0] (blindings 2 ρ.vc1)
  Res.guardErr (messages.length < revealedIndexes.length) "invalid size"
  let revealed ← Res.mapM' (fun i => do let m ← Res.index messages i; pure m.idx) revealedIndexes
  let (bases2, secrets2) ← provider d r3 pk sPrime messages revealed
  let vc2 ← finish bases2 (blindings bases2.length ρ.vc2)
  pure ⟨aPrime, aBar, d, vc1, [-σ.e, ρ.r2], vc2, secrets2⟩

/-- `NewPoKOfSignature` (`proof_of_knowledge.go:33-45`, `60-65`). -/
def newPoKOfSignature (σ : Sig S) (messages : List (SigMsg S)) (revealedIndexes : List Int) (pk : PKG S)
    (ρ : PoKRand S) : Res (PoK S) := do
  let b ← computeB σ.s messages pk
  pokOfSignatureB defaultVC2 true σ messages revealedIndexes pk b ρ

/-- `PoKOfSignature.ToBytes` (`proof_of_knowledge.go:188-194`). -/
def PoK.toBytes (p : PoK S) : Bytes := S.g1Bytes p.aBar ++ p.vc1.toBytes ++ p.vc2.toBytes

/-! ## signature_proof.go -/

/-- `PoKOfSignatureProof` (`signature_proof.go:23-34`). -/
structure SigProof (S : Suite) where
  aPrime : S.G1
  aBar : S.G1
  d : S.G1
  vc1 : ProofG1 S
  vc2 : ProofG1 S

/-- `PoKOfSignature.GenerateProof` (`proof_of_knowledge.go:197-206`). -/
def PoK.generateProof (p : PoK S) (challenge : S.F) : Res (SigProof S) := do
  let vc1 ← p.vc1.generateProof challenge p.secrets1
  let vc2 ← p.vc2.generateProof challenge p.secrets2
  pure ⟨p.aPrime, p.aBar, p.d, vc1, vc2⟩

/-- Generators whose index is not revealed, from index `i` on (`signature_proof.go:51-55`). -/
def hiddenGens (revealed : List Nat) : Nat → List S.G1 → List S.G1
  | _, [] => []
  | i, h :: hs =>
    if revealed.contains i then hiddenGens revealed (i + 1) hs else h :: hiddenGens revealed (i + 1) hs

/-- `GetBytesForChallenge` (`signature_proof.go:37-60`); a negative capacity panics. -/
def SigProof.bytesForChallenge (sp : SigProof S) (revealed : List Nat) (pk : PKG S) : Res Bytes := do
  let hiddenCount := pk.count - revealed.length
  Res.guardPanic ((7 + hiddenCount) * S.g1CompLen < 0)
  pure (S.g1Bytes sp.aBar ++ S.g1Bytes sp.aPrime ++ S.g1Bytes pk.h0 ++ S.g1Bytes sp.vc1.commitment ++
    S.g1Bytes sp.d ++ S.g1Bytes pk.h0 ++ ((hiddenGens revealed 0 pk.h).map S.g1Bytes).flatten ++
    S.g1Bytes sp.vc2.commitment)

/-- `ProofG1.Verify` (`signature_proof.go:183-205`): the bases are followed by the statement, the responses
by the challenge; the numbers of bases and responses are not compared. -/
def ProofG1.verify (p : ProofG1 S) (bases : List S.G1) (statement : S.G1) (challenge : S.F) : Res Unit := do
  let c ← build (bases ++ [statement]) (p.responses ++ [challenge])
  Res.guardErr (c - p.commitment ≠ 0) "contribution is not zero"

/-- Split of the generators into disclosed ones, paired with the messages in order, and hidden ones
(`signature_proof.go:114-122`); running out of messages is an index panic. -/
def splitGens (revealed : List Nat) : Nat → List S.G1 → List (SigMsg S) → Res (List (S.G1 × S.F) × List S.G1)
  | _, [], _ => .ok ([], [])
  | i, h :: hs, ms =>
    if revealed.contains i then
      match ms with
      | [] => .panic
      | m :: ms => do
        let (ds, bs) ← splitGens revealed (i + 1) hs ms
        pure ((h, m.fr) :: ds, bs)
    else do
      let (ds, bs) ← splitGens revealed (i + 1) hs ms
      pure (ds, h :: bs)

/-- `VC2ProofVerifier.Verify`. -/
abbrev VC2Verifier (S : Suite) :=
  S.F → PKG S → List Nat → List (SigMsg S) → ProofG1 S → S.G1 → Res Unit

/-- An error of an inner proof is reported as "bad signature". -/
def badSignature (x : Res Unit) : Res Unit :=
  match x with
  | .err _ => .err "bad signature"
  | y => y

@[simp] theorem badSignature_ok {x : Res Unit} {u : Unit} : badSignature x = .ok u ↔ x = .ok u := by
  cases x <;> simp [badSignature]

/-- `defaultVC2ProofVerifier.Verify` (`signature_proof.go:98-144`). -/
def defaultVC2Verify : VC2Verifier S := fun challenge pk revealed messages proof d => do
  Res.guardPanic (2 + pk.count - revealed.length < 0)
  let (disclosed, hidden) ← splitGens revealed 0 pk.h messages
  let pr := S.zrOfInt 1 • S.genG1 + (disclosed.map fun p => p.2 • p.1).sum
  badSignature (proof.verify (d :: pk.h0 :: hidden) (-pr) challenge)

/-- `PoKOfSignatureProof.Verify` (`signature_proof.go:63-92`). -/
def SigProof.verify (sp : SigProof S) (vc2 : VC2Verifier S) (challenge : S.F) (pk : PKG S)
    (revealed : List Nat) (messages : List (SigMsg S)) : Res Unit := do
  Res.guardErr (!compareTwoPairings sp.aPrime pk.w (-sp.aBar) S.genG2) "bad signature"
  badSignature (sp.vc1.verify [sp.aPrime, pk.h0] (sp.aBar - sp.d) challenge)
  vc2 challenge pk revealed messages sp.vc2 sp.d

/-- `ProofG1.ToBytes` (`signature_proof.go:208-227`). -/
def ProofG1.toBytes (p : ProofG1 S) : Res Bytes := do
  Res.guardPanic (0xFFFFFFFF < p.responses.length)
  pure (S.g1Comp p.commitment ++ beBytes 4 p.responses.length ++ (p.responses.map S.zrBytes).flatten)

/-- `PoKOfSignatureProof.ToBytes` (`signature_proof.go:147-166`). -/
def SigProof.toBytes (sp : SigProof S) : Res Bytes := do
  let p1 ← sp.vc1.toBytes
  Res.guardPanic (0xFFFFFFFF < p1.length)
  let p2 ← sp.vc2.toBytes
  pure (S.g1Comp sp.aPrime ++ S.g1Comp sp.aBar ++ S.g1Comp sp.d ++ beBytes 4 p1.length ++ p1 ++ p2)

/-- The loop reading the responses (`signature_proof.go:298-301`). -/
def readResponses (S : Suite) (raw : Bytes) : Nat → Nat → Res (List S.F)
  | 0, _ => .ok []
  | n + 1, offset => do
    let b ← goSlice raw offset (offset + frLen)
    let rest ← readResponses S raw n (offset + frLen)
    pure (S.zrOfBytes b :: rest)

/-- `ParseProofG1` (`signature_proof.go:277-304`). -/
def parseProofG1 (S : Suite) (raw : Bytes) : Res (ProofG1 S) := do
  Res.guardErr (raw.length < S.g1CompLen + 4) "invalid size of G1 signature proof"
  let p ← goSlice raw 0 S.g1CompLen
  let c ← Res.ofOption "parse G1 point" (S.g1OfComp p)
  let lb ← goSlice raw S.g1CompLen (S.g1CompLen + 4)
  let length := beNat lb
  Res.guardErr (raw.length < S.g1CompLen + 4 + length * frLen) "invalid size of G1 signature proof"
  let rs ← readResponses S raw length (S.g1CompLen + 4)
  pure ⟨c, rs⟩

/-- `ParseSignatureProof` (`signature_proof.go:230-274`): neither the four length bytes nor the length read
from them are checked against the input. -/
def parseSignatureProof (S : Suite) (raw : Bytes) : Res (SigProof S) := do
  let n := S.g1CompLen
  Res.guardErr (raw.length < n * 3) "invalid size of signature proof"
  let b1 ← goSlice raw 0 n
  let p1 ← Res.ofOption "parse G1 point" (S.g1OfComp b1)
  let b2 ← goSlice raw n (n + n)
  let p2 ← Res.ofOption "parse G1 point" (S.g1OfComp b2)
  let b3 ← goSlice raw (n + n) (n + n + n)
  let p3 ← Res.ofOption "parse G1 point" (S.g1OfComp b3)
  let lb ← goSlice raw (n + n + n) (n + n + n + 4)
  let offset := n + n + n + 4
  let len1 := beNat lb
  let q1 ← goSlice raw offset (offset + len1)
  let vc1 ← parseProofG1 S q1
  let q2 ← goSlice raw (offset + len1) raw.length
  let vc2 ← parseProofG1 S q2
  pure ⟨p1, p2, p3, vc1, vc2⟩

/-! ## Selective disclosure (`bbs12381g2pub.go:112-217`) -/

/-- `ParseProofNonce(nonce).ToBytes()` (`bbs12381g2pub.go:377-386`). -/
def nonceBytes (nonce : Bytes) : Bytes := S.zrBytes (frFromOKM L nonce)

/-- `VerifyProofFr` (`bbs12381g2pub.go:120-157`). -/
def verifyProofFr (messages : List (SigMsg S)) (proof nonce rawPk : Bytes) : Res Unit := do
  let (count, revealed) ← parsePoKPayload proof
  let rest ← goSlice proof (lenInBytes count).toNat proof.length
  let sp ← parseSignatureProof S rest
  let w ← unmarshalPublicKey S rawPk
  let pk ← toPKG w count
  Res.guardErr (messages.length < revealed.length) "payload revealed bigger from messages"
  let cb ← sp.bytesForChallenge revealed pk
  let challenge := frFromOKM L (cb ++ nonceBytes L nonce)
  sp.verify defaultVC2Verify challenge pk revealed messages

/-- `VerifyProof` (`bbs12381g2pub.go:112-116`). -/
def verifyProof (messages : List Bytes) (proof nonce rawPk : Bytes) : Res Unit :=
  verifyProofFr L (messagesToFr L messages) proof nonce rawPk

/-- `DeriveProofZr` (`bbs12381g2pub.go:167-217`). -/
def deriveProofZr (messages : List (SigMsg S)) (rawSig nonce rawPk : Bytes) (revealedIndexes : List Int)
    (ρ : PoKRand S) : Res Bytes := do
  Res.guardErr (revealedIndexes.length = 0) "no message to reveal"
  let revealedIndexes := revealedIndexes.insertionSort (· ≤ ·)
  let w ← unmarshalPublicKey S rawPk
  let pk ← toPKG w messages.length
  let σ ← parseSignature S rawSig
  let pok ← newPoKOfSignature σ messages revealedIndexes pk ρ
  let challenge := frFromOKM L (pok.toBytes ++ nonceBytes L nonce)
  let proof ← pok.generateProof challenge
  let payload ← Payload.toBytes ⟨messages.length, revealedIndexes⟩
  let pb ← proof.toBytes
  pure (payload ++ pb)

/-- `DeriveProof` (`bbs12381g2pub.go:160-163`). -/
def deriveProof (messages : List Bytes) (rawSig nonce rawPk : Bytes) (revealedIndexes : List Int)
    (ρ : PoKRand S) : Res Bytes :=
  deriveProofZr L (messagesToFr L messages) rawSig nonce rawPk revealedIndexes ρ

end Idemix.Bbs
