import Verif.Provider.Types
import Verif.Dlog.Bridge
import Verif.Aries.Signer
import Verif.Aries.Smartcard

/-!
# The two schemes as backends

`dlogBackend` is what `New` (`bccsp.go:26-184`) assembles, `ariesBackend` what `NewAries` (`bccsp.go:186-367`)
assembles. Keys of the other scheme, or of anyone else, that implement the interfaces are `Dyn.other`; their methods
are not modelled.
-/

namespace Idemix.Provider

variable {S : Suite}

/-- The randomness of the dlog algorithms. -/
structure DlogRnd (S : Suite) (dsa : Ecdsa) where
  issuer : Dlog.IssuerRand S
  scalar : S.F
  credE : S.F
  credS : S.F
  wbb : S.G2
  dsa : dsa.Rnd
  sig : Dlog.SigRand S
  nymSig : Dlog.NymRand S

/-- A method of a key that holds the expected pointer. -/
def ofDyn {α β : Type} (d : Dyn α) (f : α → Res β) : Res β := d.get "foreign key" >>= f

/-- The backend of `New`: `bridge.Issuer`, `bridge.User`, `bridge.CredRequest`, `bridge.Credential`,
`bridge.Revocation`, `bridge.SignatureScheme`, `bridge.NymSignatureScheme` (`bccsp.go:40-178`). The methods of issuer
keys are in `dlog/bridge/issuer.go:21-41`. `User.NewKey` is `user.go:24-34`. -/
def dlogBackend (E : Dlog.Env S) (ec : EcKeys E.dsa) : Backend S where
  IPK := Dyn Dlog.IssuerPublicKey
  ISK := Dyn Dlog.IssuerKey
  Card := Unit
  Rnd := DlogRnd S E.dsa
  Bases := Unit
  T := E.T
  dsa := E.dsa
  ec := ec
  ipkBytes k := ofDyn k fun k => Dlog.Wire.ipkCodec.marshal k
  ipkHash k := ofDyn k fun k => .ok k.hash
  iskBytes k := ofDyn k fun k => Dlog.Wire.keyCodec.marshal k
  iskPublic k := ofDyn k fun k => .ok (.val k.ipk)
  newIssuerKey names ρ := do
    let k ← E.newKey names ρ.issuer
    pure (.val k)
  issuerKeyFromBytes raw _ := do
    let k ← E.newKeyFromBytes raw
    pure (.val k)
  issuerPkFromBytes raw names := do
    let k ← E.newPublicKeyFromBytes raw names
    pure (.val k)
  bases _ _ _ _ _ := E.bases
  newUserKey ρ := .ok ρ.scalar
  userKeyFromBytes raw := E.userKeyFromBytes raw
  makeNym sk ipk ρ := E.makeNym (some sk) ipk ρ.scalar
  nymFromBytes raw := E.nymFromBytes raw
  publicNymFromBytes raw := E.publicNymFromBytes raw
  request := some {
    sign := fun sk ipk nonce ρ => E.requestSign (some sk) ipk nonce ρ.scalar
    verify := fun raw ipk nonce => E.requestVerify raw ipk nonce }
  blind := none
  credSign key request attributes ρ := E.credSign key request attributes ρ.credE ρ.credS
  credVerify sk ipk cred attributes := E.credVerify (some sk) ipk cred attributes
  newRevKey ρ := ec.gen ρ.dsa
  revKeyFromBytes raw := .ok (ec.ofD raw)
  revSign key _ epoch alg ρ := E.revSign (some key) epoch alg ρ.wbb ρ.dsa
  revVerify pk raw epoch alg := E.revVerify (some pk) raw epoch alg
  sign cred sk nym rNym ipk attributes msg rh eid cri t md ρ :=
    E.sign cred (some sk) (some nym) (some rNym) ipk attributes msg rh eid cri ρ.sig t md
  verify ipk sig digest attributes rh eid _ revPk epoch t md :=
    E.verify ipk sig digest attributes rh eid revPk epoch t md
  auditEid ipk index _ sig value r t := E.auditNymEid ipk index sig value r t
  auditRh ipk index _ sig value r t := E.auditNymRh ipk index sig value r t
  nymSign sk nym rNym ipk digest ρ := E.nymSign (some sk) (some nym) (some rNym) ipk digest ρ.nymSig
  nymVerify ipk nym sig digest _ := E.nymVerify ipk (some nym) sig digest
  card := none

/-- The randomness of the aries algorithms. -/
structure AriesRnd (S : Suite) (dsa : Ecdsa) where
  seed : Bytes
  scalar : S.F
  blindings : Nat → S.F
  nonce : S.F
  credE : S.F
  credS : S.F
  wbb : S.G2
  dsa : dsa.Rnd
  sig : Aries.SignRand S
  cardSeed : Bytes
  cardXt : S.F
  cardRt : S.F

/-- The backend of `NewAries` (`bccsp.go:200-361`). `UserSecretKeyIndex` is not set there and therefore 0. The
counter of a smartcard is advanced by signing; the model of the provider does not thread it through. A nil `Zr` in
audit options is dereferenced (`aries/signer.go:935`, `987`), after the checks of the other arguments; the model
panics first. -/
def ariesBackend (L : Bbs.Lib S) (T : Translator S) (dsa : Ecdsa) (ec : EcKeys dsa) : Backend S where
  IPK := Dyn (Aries.IPK S)
  ISK := Dyn (Aries.ISK S)
  Card := Dyn (Aries.Card S)
  Rnd := AriesRnd S dsa
  Bases := List S.G1 × List S.G1 × List S.G1
  T := T
  dsa := dsa
  ec := ec
  ipkBytes k := ofDyn k fun k => .ok k.bytes
  ipkHash k := ofDyn k fun k => .ok k.hash
  iskBytes k := ofDyn k fun k => .ok k.bytes
  iskPublic k := ofDyn k fun k => .ok (.val k.pk)
  newIssuerKey names ρ := do
    let k ← Aries.newKey L names ρ.seed
    pure (.val k)
  issuerKeyFromBytes raw names := do
    let k ← Aries.newKeyFromBytes S raw names
    pure (.val k)
  issuerPkFromBytes raw names := do
    let k ← Aries.newPublicKeyFromBytes S raw names
    pure (.val k)
  bases ipk req rh eid sk := Aries.issuerBases ipk (decide (req = 1)) rh eid sk
  newUserKey ρ := .ok ρ.scalar
  userKeyFromBytes raw := Aries.userKeyFromBytes S raw
  makeNym sk ipk ρ := Aries.makeNym sk ipk 0 ρ.scalar
  nymFromBytes raw := Aries.nymFromBytes S raw
  publicNymFromBytes raw := Aries.publicNymFromBytes S raw
  request := none
  blind := some {
    blind := fun sk ipk nonce ρ => Aries.blind L sk ipk nonce 0 ρ.scalar ρ.blindings
    blindVerify := fun raw ipk nonce => Aries.blindVerify L raw ipk nonce 0 }
  credSign key request attributes ρ := Aries.credSign L key request attributes 0 ρ.credE ρ.credS
  credVerify sk ipk cred attributes := Aries.credVerify L sk ipk cred attributes
  newRevKey ρ := ec.gen ρ.dsa
  revKeyFromBytes raw := .ok (ec.ofD raw)
  revSign key _ epoch alg ρ := Aries.revSign S dsa (some key) epoch alg ρ.wbb ρ.dsa
  revVerify pk raw epoch alg := Aries.revVerify dsa (some pk) raw epoch alg
  sign cred sk nym rNym ipk attributes msg rh eid cri t md ρ :=
    Aries.sign L cred sk nym rNym ipk attributes msg rh eid cri t md ρ.sig
  verify ipk sig digest attributes rh eid skIndex _ _ t md :=
    Aries.verify L ipk sig digest attributes rh eid skIndex t md
  auditEid ipk index skIndex sig value r t :=
    Res.deref r >>= fun r => Aries.auditNymEid L ipk index skIndex sig value r t
  auditRh ipk index skIndex sig value r t :=
    Res.deref r >>= fun r => Aries.auditNymRh L ipk index skIndex sig value r t
  nymSign sk nym rNym ipk digest ρ := Aries.nymSign L sk nym rNym ipk digest 0 ρ.nonce ρ.blindings
  nymVerify ipk nym sig digest skIndex := Aries.nymVerify L ipk nym sig digest skIndex
  card := some {
    sign := fun card _ digest ρ => Aries.cardSign dsa.sha256 card digest ρ.cardSeed ρ.cardXt ρ.cardRt
    verify := fun ipk nym sig digest => Aries.cardVerify dsa.sha256 ipk nym sig digest }

end Idemix.Provider
