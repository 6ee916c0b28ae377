import Verif.Aries.Model

/-!
# The software smartcard

Model of `bccsp/schemes/aries/smartcard.go`. The AES block function under a key is an arbitrary function on
blocks; scalars are 32 bytes long, so that the two blocks of `PRF` fill the buffer. SHA-256 is an argument.
-/

namespace Idemix.Aries

open Bbs

variable {S : Suite}

/-- `Smartcard` (`smartcard.go:29-37`). The counter is a 16-bit machine integer. -/
structure Card (S : Suite) where
  h0 : S.G1
  h1 : S.G1
  h2 : S.G1
  uid : S.F
  eid : S.F
  k0 : Bytes → Bytes
  k1 : Bytes → Bytes
  ctr : Int16

/-- Bytewise exclusive or of two blocks. -/
def xorBlock (a b : Bytes) : Bytes := List.zipWith (· ^^^ ·) a b

/-- `PRF` (`smartcard.go:39-47`): CBC with a zero initialisation vector, continued over the same block twice. -/
def prf (S : Suite) (k : Bytes → Bytes) (input : Bytes) : S.F := S.zrOfBytes (k input ++ k (xorBlock input (k input)))

/-- The input of the generator made from the counter (`smartcard.go:51-53`). -/
def ctrBlock (ctr : Int16) : Bytes :=
  [(ctr &&& 0xff).toInt8.toUInt8, ((ctr >>> 8) &&& 0xff).toInt8.toUInt8] ++ List.replicate 14 0

/-- `getNymEid` (`smartcard.go:49-62`). -/
def Card.getNymEid (sc : Card S) : S.F × S.G1 :=
  let s := prf S sc.k0 (ctrBlock sc.ctr)
  (s, s • sc.h0 + sc.eid • sc.h2)

/-- `NymEid` (`smartcard.go:64-69`): the card afterwards, and the result. -/
def Card.nymEid (sc : Card S) : Card S × (S.F × S.G1) :=
  let sc := { sc with ctr := sc.ctr + 1 }
  (sc, sc.getNymEid)

/-- The bytes hashed in a card signature (`smartcard.go:90-97`, `144-151`); `Bytes()[1:]` drops the first byte. -/
def cardHashInput (h0 h1 h2 b b' tau : S.G1) (msg : Bytes) : Bytes :=
  (S.g1Bytes h0).tail ++ (S.g1Bytes h1).tail ++ (S.g1Bytes h2).tail ++ (S.g1Bytes b).tail ++
    (S.g1Bytes b').tail ++ (S.g1Bytes tau).tail ++ msg

/-- `NymSign` (`smartcard.go:71-122`) with the sampled seed and scalars. -/
def Card.nymSign (sha : Bytes → Bytes) (sc : Card S) (msg seed : Bytes) (xt rt : S.F) : Bytes :=
  let r1 := prf S sc.k1 seed
  let b := r1 • sc.h0 + sc.uid • sc.h1
  let b' := rt • sc.h0 + xt • sc.h1
  let tau := sc.getNymEid.2
  let c : S.F := S.zrOfBytes (sha (cardHashInput sc.h0 sc.h1 sc.h2 b b' tau msg))
  seed ++ S.g1Bytes b ++ S.g1Bytes b' ++ S.zrBytes (xt + c * sc.uid) ++ S.zrBytes (rt + c * r1)

/-- `NymVerify` (`smartcard.go:124-165`); only the three bases of the card are used. -/
def nymVerifyCard (S : Suite) (sha : Bytes → Bytes) (h0 h1 h2 : S.G1) (proof : Bytes) (nymEid : S.G1) (msg : Bytes) :
    Res Unit := do
  let bb ← goSlice proof 16 (16 + S.g1Len)
  let b ← Res.ofOption "could not parse B" (S.g1OfBytes bb)
  let bb' ← goSlice proof (16 + S.g1Len) (16 + S.g1Len + S.g1Len)
  let b' ← Res.ofOption "could not parse B_" (S.g1OfBytes bb')
  let xb ← goSlice proof (16 + S.g1Len + S.g1Len) (16 + S.g1Len + S.g1Len + S.scalarLen)
  let rb ← goSlice proof (16 + S.g1Len + S.g1Len + S.scalarLen)
    (16 + S.g1Len + S.g1Len + S.scalarLen + S.scalarLen)
  let c : S.F := S.zrOfBytes (sha (cardHashInput h0 h1 h2 b b' nymEid msg))
  let lhs := S.zrOfBytes rb • h0 + S.zrOfBytes xb • h1
  let rhs := S.zrOfInt 1 • b' + c • b
  Res.guardErr (decide (lhs ≠ rhs)) "invalid proof"

/-- `SmartcardIdemixBackend.Sign` (`smartcard.go:172-192`): the signature, the pseudonym and its randomness. -/
def cardSign (sha : Bytes → Bytes) (key : Dyn (Card S)) (digest seed : Bytes) (xt rt : S.F) :
    Res (Bytes × S.G1 × S.F) := do
  let sc ← key.get "invalid interface conversion"
  let sig := sc.nymSign sha digest seed xt rt
  let seed' ← goSlice sig 0 16
  let nb ← goSlice sig 16 (16 + S.g1Len)
  let nym ← Res.ofOption "parse nym" (S.g1OfBytes nb)
  pure (sig, nym, prf S sc.k1 seed')

/-- `SmartcardIdemixBackend.Verify` (`smartcard.go:195-204`): an unchecked type assertion panics. -/
def cardVerify (sha : Bytes → Bytes) (key : Dyn (IPK S)) (nym : S.G1) (signature digest : Bytes) : Res Unit := do
  match key with
  | .val ipk => do
    let h1 ← Res.index ipk.pkg.h 0
    let h2 ← Res.index ipk.pkg.h 3
    nymVerifyCard S sha ipk.pkg.h0 h1 h2 signature nym digest
  | _ => .panic

end Idemix.Aries
