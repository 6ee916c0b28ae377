import Verif.Msp.Model

/-!
# The generator of keys and signer configurations

Model of `tools/idemixgen/idemixca/idemixca.go`, `tools/idemixgen/idemixca/iedmixca_aries.go` and
`tools/idemixgen/main.go`. Failure of the random source is not modelled. Parsing of the command line, the version
command and the messages are not modelled either.
-/

namespace Idemix.Gen

open Msp (CurveId Platform SignerConfig attributeNames)

/-! ## `idemixca` -/

section

variable {S : Suite}

/-- `GenerateIssuerKey` (`idemixca.go:29-42`): secret key and serialized public key. -/
def generateIssuerKey (E : Dlog.Env S) (ρ : Dlog.IssuerRand S) : Res (Bytes × Bytes) := do
  let key ← Dlog.newIssuerKey E.T Dlog.Wire.ipkCodec.marshal attributeNames ρ
  let raw ← Dlog.Wire.ipkCodec.marshal key.ipk
  pure (key.isk, raw)

/-- The scalars and the signature randomness that `GenerateSignerConfig` draws. -/
structure SignerRnd (S : Suite) (dsa : Ecdsa) where
  sk : S.F
  nonce : S.F
  rSk : S.F
  e : S.F
  s : S.F
  wbb : S.G2
  dsa : dsa.Rnd

/-- The end of both functions (`idemixca.go:109-122`, `iedmixca_aries.go:150-163`). -/
def packSigner (roleMask : Int) (ou eid rh sk cred cri : Bytes) : Res Bytes := do
  Res.guardErr (decide (roleMask < -2147483648) || decide (2147483647 < roleMask)) "roleMask out of range for int32"
  Msp.Wire.signerCodec.marshal ⟨cred, sk, ou, roleMask, eid, cri, rh, [], []⟩

/-- `GenerateSignerConfig` (`idemixca.go:47-123`). The key of the authority is not nil (`main.go:241-258`). -/
def generateSignerConfig (E : Dlog.Env S) (roleMask : Int) (ou eid rh iskBytes ipkBytes : Bytes) (revKey : E.dsa.Sk)
    (ρ : SignerRnd S E.dsa) : Res Bytes := do
  Res.guardErr (decide (ou = [])) "the OU attribute value is empty"
  Res.guardErr (decide (eid = [])) "the enrollment id value is empty"
  let attrs : List S.F := [S.hashToZr ou, S.zrOfInt roleMask, S.hashToZr eid, S.hashToZr rh]
  let ipk ← Dlog.Wire.ipkCodec.unmarshal ipkBytes
  let msg ← Dlog.newCredRequest E.T ρ.sk (some (S.zrBytes ρ.nonce)) ipk ρ.rSk
  let cred ← Dlog.newCredential E.T ⟨iskBytes, ipk⟩ msg attrs ρ.e ρ.s
  let credBytes ← Dlog.Wire.credCodec.marshal cred
  let cri ← E.createCRI (some revKey) 0 0 ρ.wbb ρ.dsa
  let criBytes ← Dlog.Wire.criCodec.marshal cri
  packSigner roleMask ou eid rh (S.zrBytes ρ.sk) credBytes criBytes

variable (L : Bbs.Lib S)

/-- `GenerateIssuerKeyAries` (`iedmixca_aries.go:31-52`). -/
def generateIssuerKeyAries (seed : Bytes) : Res (Bytes × Bytes) := do
  let key ← Aries.newKey L attributeNames seed
  pure (key.bytes, key.pk.bytes)

/-- What `GenerateSignerConfigAries` draws. -/
structure AriesSignerRnd (S : Suite) (dsa : Ecdsa) where
  sk : S.F
  nonce : S.F
  blinding : S.F
  masks : Nat → S.F
  e : S.F
  s : S.F
  wbb : S.G2
  dsa : dsa.Rnd

/-- The attributes of a signer (`iedmixca_aries.go:99-115`). -/
def signerAttrs (roleMask : Int) (ou eid rh : Bytes) : List IdemixAttribute :=
  [⟨1, .bytes ou⟩, ⟨2, .int roleMask⟩, ⟨1, .bytes eid⟩, ⟨1, .bytes rh⟩]

/-- `GenerateSignerConfigAries` (`iedmixca_aries.go:57-164`). `UserSecretKeyIndex` is left at 0. -/
def generateSignerConfigAries (dsa : Ecdsa) (roleMask : Int) (ou eid rh iskBytes _ipkBytes : Bytes) (revKey : dsa.Sk)
    (ρ : AriesSignerRnd S dsa) : Res Bytes := do
  Res.guardErr (decide (ou = [])) "the OU attribute value is empty"
  Res.guardErr (decide (eid = [])) "the enrollment id value is empty"
  let isk ← Aries.newKeyFromBytes S iskBytes attributeNames
  let attrs := signerAttrs roleMask ou eid rh
  let nonce := S.zrBytes ρ.nonce
  let (cr, blinding) ← Aries.blind L ρ.sk (.val isk.pk) nonce 0 ρ.blinding ρ.masks
  Aries.blindVerify L cr (.val isk.pk) nonce 0
  let cred ← Aries.credSign L (.val isk) cr attrs 0 ρ.e ρ.s
  let cred ← Aries.unblind S cred blinding
  Aries.credVerify L ρ.sk (.val isk.pk) cred attrs
  let cri ← Aries.revSign S dsa (some revKey) 0 0 ρ.wbb ρ.dsa
  packSigner roleMask ou eid rh (S.zrBytes ρ.sk) cred cri

end

/-! ## Files -/

/-- A cleaned path, as its components. -/
abbrev Path := List Bytes

/-- The directories and files there are. -/
structure FS where
  dir : Path → Bool
  file : Path → Option Bytes

/-- `os.Stat` succeeds; it is taken to fail only if there is nothing. -/
def FS.stat (fs : FS) (p : Path) : Bool := fs.dir p || (fs.file p).isSome

/-- The contents of a file replaced. -/
def FS.set (fs : FS) (p : Path) (b : Bytes) : FS := { fs with file := fun q => if q = p then some b else fs.file q }

/-- `os.ReadFile`. -/
def FS.read (fs : FS) (p : Path) : Res Bytes := Res.ofOption "failed to open file" (fs.file p)

/-- The calls with which the tool changes files. -/
inductive Op where
  | mkdirAll (p : Path)
  | write (p : Path) (b : Bytes)

/-- The effect of a call that the operating system permits; `none` if the files do not allow it. `os.MkdirAll` makes
the missing directories; `os.WriteFile` makes or replaces a file in a directory. -/
def Op.apply (fs : FS) : Op → Option FS
  | .mkdirAll p =>
    if p.inits.any fun q => (fs.file q).isSome then none
    else some { fs with dir := fun q => fs.dir q || decide (q <+: p) }
  | .write p b => if !fs.dir p.dropLast || fs.dir p then none else some (fs.set p b)

/-- The tool runs to the end, or exits at the first error (`handleError`, `main.go:278-283`). -/
def run : List Op → FS → FS × Bool
  | [], fs => (fs, true)
  | o :: l, fs =>
    match o.apply fs with
    | none => (fs, false)
    | some fs' => run l fs'

/-- The states in which the files can be left if the tool is stopped at any point, by a crash or by an error that the
operating system reports for one of the calls: between two calls, or inside a write with part of the contents
written. -/
inductive Stopped : List Op → FS → FS → Prop where
  | here (l : List Op) (fs : FS) : Stopped l fs fs
  | torn (p : Path) (b : Bytes) (l : List Op) (fs fs' : FS) (k : Nat) (h : Op.apply fs (.write p (b.take k)) = some fs') :
      Stopped (.write p b :: l) fs fs'
  | next (o : Op) (l : List Op) (fs fs₁ fs' : FS) (h : o.apply fs = some fs₁) (hs : Stopped l fs₁ fs') :
      Stopped (o :: l) fs fs'

/-! ## The command line -/

/-- `x509.MarshalECPrivateKey` and `x509.ParseECPrivateKey`. -/
structure EcSecrets (dsa : Ecdsa) where
  marshal : dsa.Sk → Res Bytes
  parse : Bytes → Res dsa.Sk
  rt : ∀ k b, marshal k = .ok b → parse b = .ok k

/-- What the tool is linked with: the curves, the encoding of secret keys, and `filepath.Clean` on the path
arguments. -/
structure Tool where
  P : Platform
  secrets : (c : CurveId) → EcSecrets (P.env c).dsa
  clean : Bytes → Path

/-- The flags (`main.go:52-74`); an absent `ca-input` is empty. -/
structure Flags where
  output : Bytes
  curve : CurveId
  aries : Bool
  caInput : Bytes
  ou : Bytes
  admin : Bool
  eid : Bytes
  rh : Bytes

/-- Directories and files (`main.go:33-36`, `idemixmsp.go:898-902`). -/
def dirCa : Bytes := ascii "ca"
/-- See `dirCa`. -/
def dirMsp : Bytes := ascii "msp"
/-- See `dirCa`. -/
def dirUser : Bytes := ascii "user"
/-- See `dirCa`. -/
def fileIsk : Bytes := ascii "IssuerSecretKey"
/-- See `dirCa`. -/
def fileRev : Bytes := ascii "RevocationKey"
/-- See `dirCa`. -/
def fileIpk : Bytes := ascii "IssuerPublicKey"
/-- See `dirCa`. -/
def fileRevPk : Bytes := ascii "RevocationPublicKey"
/-- See `dirCa`. -/
def fileSigner : Bytes := ascii "SignerConfig"

variable (T : Tool)

/-- What key generation draws. -/
structure KeygenRnd (S : Suite) (dsa : Ecdsa) where
  issuer : Dlog.IssuerRand S
  seed : Bytes
  dsa : dsa.Rnd

/-- The keys that key generation makes. -/
structure Keys where
  isk : Bytes
  ipk : Bytes
  rev : Bytes
  revPk : Bytes
  deriving DecidableEq

/-- The issuer key of `ca-keygen` (`main.go:128-132`). -/
def Tool.issuerKey (f : Flags) (ρ : KeygenRnd (T.P.S f.curve) (T.P.env f.curve).dsa) : Res (Bytes × Bytes) :=
  if f.aries then generateIssuerKeyAries (T.P.lib f.curve) ρ.seed
  else generateIssuerKey (T.P.env f.curve) ρ.issuer

/-- The keys of `ca-keygen` (`main.go:125-143`). -/
def Tool.newKeys (f : Flags) (ρ : KeygenRnd (T.P.S f.curve) (T.P.env f.curve).dsa) : Res Keys := do
  let (isk, ipk) ← T.issuerKey f ρ
  let rev ← (T.P.ec f.curve).gen ρ.dsa
  let sk ← (T.secrets f.curve).marshal rev
  let pk ← (T.P.ec f.curve).pkix ((T.P.env f.curve).dsa.pub rev)
  pure ⟨isk, ipk, (T.P.ec f.curve).pemEncode sk, (T.P.ec f.curve).pemEncode pk⟩

/-- The writes of `ca-keygen` (`main.go:153-159`). -/
def keygenOps (out : Path) (k : Keys) : List Op :=
  [.mkdirAll (out ++ [dirCa]), .mkdirAll (out ++ [dirMsp]),
   .write (out ++ [dirCa, fileIsk]) k.isk, .write (out ++ [dirCa, fileRev]) k.rev, .write (out ++ [dirCa, fileIpk]) k.ipk,
   .write (out ++ [dirMsp, fileRevPk]) k.revPk, .write (out ++ [dirMsp, fileIpk]) k.ipk]

/-- `ca-keygen` (`main.go:124-159`) up to the first write: the writes that follow, or an error. -/
def Tool.keygen (f : Flags) (fs : FS) (ρ : KeygenRnd (T.P.S f.curve) (T.P.env f.curve).dsa) : Res (List Op) := do
  let k ← T.newKeys f ρ
  Res.guardErr (fs.stat (T.clean f.output ++ [dirCa])) "directory already exists"
  Res.guardErr (fs.stat (T.clean f.output ++ [dirMsp])) "directory already exists"
  pure (keygenOps (T.clean f.output) k)

/-- The role of a signer (`main.go:163-168`). -/
def roleMask (admin : Bool) : Int :=
  (if admin then Msp.getRoleMaskFromIdemixRole Msp.ADMIN else Msp.getRoleMaskFromIdemixRole Msp.MEMBER).toInt

/-- `readRevocationKey` (`main.go:241-258`). -/
def Tool.readRevocationKey (c : CurveId) (raw : Bytes) : Res (T.P.env c).dsa.Sk := do
  let block ← Res.ofOption "failed to decode ECDSA private key" ((T.P.ec c).pemDecode raw)
  (T.secrets c).parse block

/-- What the generation of a signer draws. -/
structure UserRnd (S : Suite) (dsa : Ecdsa) where
  dlog : SignerRnd S dsa
  aries : AriesSignerRnd S dsa

/-- The writes of `signerconfig` (`main.go:200-209`). -/
def signerOps (out : Path) (elsewhere : Bool) (config rpk ipk : Bytes) : List Op :=
  [.mkdirAll (out ++ [dirUser]), .write (out ++ [dirUser, fileSigner]) config] ++
  if elsewhere then
    [.mkdirAll (out ++ [dirMsp]), .write (out ++ [dirMsp, fileRevPk]) rpk, .write (out ++ [dirMsp, fileIpk]) ipk]
  else []

/-- The configuration of `signerconfig` (`main.go:177-195`). -/
def Tool.signerConfig (f : Flags) (isk ipk : Bytes) (rev : (T.P.env f.curve).dsa.Sk)
    (ρ : UserRnd (T.P.S f.curve) (T.P.env f.curve).dsa) : Res Bytes :=
  if f.aries then
    generateSignerConfigAries (T.P.lib f.curve) (T.P.env f.curve).dsa (roleMask f.admin) f.ou f.eid f.rh isk ipk rev ρ.aries
  else generateSignerConfig (T.P.env f.curve) (roleMask f.admin) f.ou f.eid f.rh isk ipk rev ρ.dlog

/-- `signerconfig` (`main.go:161-209`) up to the first write. -/
def Tool.signer (f : Flags) (fs : FS) (ρ : UserRnd (T.P.S f.curve) (T.P.env f.curve).dsa) : Res (List Op) := do
  let caInput := if f.caInput = [] then f.output else f.caInput
  let isk ← fs.read (T.clean caInput ++ [dirCa, fileIsk])
  let ipk ← fs.read (T.clean caInput ++ [dirCa, fileIpk])
  let rawRev ← fs.read (T.clean caInput ++ [dirCa, fileRev])
  let rev ← T.readRevocationKey f.curve rawRev
  let rpk ← fs.read (T.clean caInput ++ [dirMsp, fileRevPk])
  let config ← T.signerConfig f isk ipk rev ρ
  Res.guardErr (fs.stat (T.clean f.output ++ [dirUser])) "this MSP config already contains a directory"
  pure (signerOps (T.clean f.output) (decide (caInput ≠ f.output)) config rpk ipk)

end Idemix.Gen
