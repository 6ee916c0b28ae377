import Verif.Provider.Handlers

/-!
# The provider

Model of `bccsp/impl.go` (registration of wrappers, dispatch, storing of keys) and of `bccsp/bccsp.go` (the
registrations of `New` and `NewAries`, `Sign` and `Verify`). Go maps from types to wrappers are functions.
-/

namespace Idemix.Provider

variable {S : Suite} {B : Backend S}

/-- The method of `KeyGenerator` (`impl.go:26-30`). -/
abbrev KeyGenFn (B : Backend S) := GenOpts → B.Rnd → Res (Key B)
/-- The method of `KeyImporter` (`impl.go:41-46`). -/
abbrev KeyImportFn (B : Backend S) := Raw → ImportOpts → Res (Key B × Option B.Bases)
/-- The method of `KeyDeriver` (`impl.go:33-38`). -/
abbrev KeyDerivFn (B : Backend S) := Key B → DerivOpts B → B.Rnd → Res (Key B)
/-- The method of `Signer` (`impl.go:49-58`). -/
abbrev SignFn (B : Backend S) := Key B → Bytes → Option (SignerOpts B) → B.Rnd → Res (Bytes × SignerOpts B)
/-- The method of `Verifier` (`impl.go:61-66`). -/
abbrev VerifyFn (B : Backend S) := Key B → Bytes → Bytes → Option (SignerOpts B) → Res Bool

/-- A value passed to `AddWrapper`: which of the five interfaces it implements. -/
structure Wrapper (B : Backend S) where
  keyGen : Option (KeyGenFn B) := none
  keyImport : Option (KeyImportFn B) := none
  keyDeriv : Option (KeyDerivFn B) := none
  sign : Option (SignFn B) := none
  verify : Option (VerifyFn B) := none

/-- The maps of `CSP` (`impl.go:73-81`). -/
structure Registry (B : Backend S) where
  keyGenerators : GoType → Option (KeyGenFn B)
  keyImporters : GoType → Option (KeyImportFn B)
  keyDerivers : GoType → Option (KeyDerivFn B)
  signers : GoType → Option (SignFn B)
  verifiers : GoType → Option (VerifyFn B)

/-- The empty maps of `NewImpl` (`impl.go:83-99`). -/
def Registry.empty : Registry B :=
  ⟨fun _ => none, fun _ => none, fun _ => none, fun _ => none, fun _ => none⟩

/-- Assignment to a map entry. -/
def put {α : Type} (m : GoType → Option α) (t : GoType) (a : α) : GoType → Option α :=
  fun t' => if t' = t then some a else m t'

/-- `AddWrapper` (`impl.go:265-288`): the maps afterwards, and the result. -/
def Registry.addWrapper (r : Registry B) (t : Option GoType) (w : Option (Wrapper B)) : Registry B × Res Unit :=
  match t, w with
  | none, _ => (r, .err "type cannot be nil")
  | some _, none => (r, .err "wrapper cannot be nil")
  | some t, some w =>
    match w.keyGen, w.keyImport, w.keyDeriv, w.sign, w.verify with
    | some f, _, _, _, _ => ({ r with keyGenerators := put r.keyGenerators t f }, .ok ())
    | none, some f, _, _, _ => ({ r with keyImporters := put r.keyImporters t f }, .ok ())
    | none, none, some f, _, _ => ({ r with keyDerivers := put r.keyDerivers t f }, .ok ())
    | none, none, none, some f, _ => ({ r with signers := put r.signers t f }, .ok ())
    | none, none, none, none, some f => ({ r with verifiers := put r.verifiers t f }, .ok ())
    | none, none, none, none, none => (r, .err "wrapper type not valid")

/-- Several calls of `AddWrapper`: all are made, the first error is reported (`errors.Join`, `bccsp.go:40-181`,
`200-364`). -/
def Registry.addWrappers (r : Registry B) : List (Option GoType × Option (Wrapper B)) → Registry B × Res Unit
  | [] => (r, .ok ())
  | (t, w) :: rest =>
    let (r1, e1) := r.addWrapper t w
    let (r2, e2) := r1.addWrappers rest
    (r2, do e1; e2)

/-- The registrations of `New` (`bccsp.go:40-178`) and `NewAries` (`bccsp.go:200-361`), in order. Both make the
same ones; they differ in the scheme. -/
def registrations (B : Backend S) (exportable : Bool) : List (Option GoType × Option (Wrapper B)) := [
  (some .genIssuer, some { keyGen := some (issuerKeyGen B exportable) }),
  (some .genUser, some { keyGen := some (userKeyGen B exportable) }),
  (some .genRevocation, some { keyGen := some (revocationKeyGen B exportable) }),
  (some .userSk, some { keyDeriv := some (nymKeyDeriv B exportable) }),
  (some .userSk, some { sign := some (userSign B) }),
  (some .issuerSk, some { sign := some (credentialSign B) }),
  (some .revSk, some { sign := some (criSign B) }),
  (some .issuerPk, some { verify := some (issuerVerify B) }),
  (some .nymPk, some { verify := some (nymVerifierVerify B) }),
  (some .userSk, some { verify := some (credentialVerify B) }),
  (some .revPk, some { verify := some (criVerify B) }),
  (some .impUserSk, some { keyImport := some (userKeyImport B exportable) }),
  (some .impIssuerPk, some { keyImport := some (issuerPkImport B) }),
  (some .impIssuerSk, some { keyImport := some (issuerSkImport B exportable) }),
  (some .impNymPk, some { keyImport := some (nymPkImport B) }),
  (some .impNymSk, some { keyImport := some (nymSkImport B exportable) }),
  (some .impRevPk, some { keyImport := some (revPkImport B) }),
  (some .impRevSk, some { keyImport := some (revSkImport B exportable) })]

/-- A `bccsp.KeyStore` with state `σ`. -/
structure KeyStore (B : Backend S) (σ : Type) where
  get : σ → Bytes → Res (Key B)
  store : σ → Key B → σ × Res Unit

/-- `New` (`bccsp.go:26-184`) and `NewAries` (`bccsp.go:186-367`); `keyStore` is false for a nil key store. -/
def newCsp (B : Backend S) (keyStore exportable : Bool) : Res (Registry B) := do
  Res.guardErr (!keyStore) "invalid bccsp.KeyStore instance"
  match Registry.empty.addWrappers (registrations B exportable) with
  | (r, e) => do
    e
    pure r

/-- Wrapping an error; panics pass. -/
def wrapErr {α : Type} (m : String) : Res α → Res α
  | .ok a => .ok a
  | .err _ => .err m
  | .panic => .panic

variable {σ : Type} (ks : KeyStore B σ) (r : Registry B)

/-- The common end of `KeyGen`, `KeyDeriv` and `KeyImport` (`impl.go:113-127`, `146-160`, `179-193`). -/
def keep (s : σ) (ephemeral : Bool) (k : Res (Key B)) (failed : String) : σ × Res (Key B) :=
  match k with
  | .ok k =>
    if ephemeral then (s, .ok k)
    else
      match ks.store s k with
      | (s', .ok _) => (s', .ok k)
      | (s', .err _) => (s', .err "failed storing key")
      | (s', .panic) => (s', .panic)
  | .err _ => (s, .err failed)
  | .panic => (s, .panic)

/-- `CSP.KeyGen` (`impl.go:102-128`). -/
def keyGen (s : σ) (opts : Option GenOpts) (ρ : B.Rnd) : σ × Res (Key B) :=
  match opts with
  | none => (s, .err "invalid Opts parameter, it must not be nil")
  | some o =>
    match r.keyGenerators o.type with
    | none => (s, .err "unsupported 'KeyGenOpts' provided")
    | some f => keep ks s o.ephemeral (f o ρ) "failed generating key"

/-- `CSP.KeyDeriv` (`impl.go:132-161`): dispatched on the type of the key. -/
def keyDeriv (s : σ) (k : Option (Key B)) (opts : Option (DerivOpts B)) (ρ : B.Rnd) : σ × Res (Key B) :=
  match k, opts with
  | none, _ => (s, .err "invalid Key. It must not be nil")
  | some _, none => (s, .err "invalid opts. It must not be nil")
  | some k, some o =>
    match r.keyDerivers k.type with
    | none => (s, .err "unsupported 'Key' provided")
    | some f => keep ks s o.ephemeral (f k o ρ) "failed deriving key"

/-- The key of an import; the commitment bases go into the options. -/
def keyOf (x : Res (Key B × Option B.Bases)) : Res (Key B) := do
  let (k, _) ← x
  pure k

/-- `CSP.KeyImport` (`impl.go:165-194`). -/
def keyImport (s : σ) (raw : Option Raw) (opts : Option ImportOpts) : σ × Res (Key B) :=
  match raw, opts with
  | none, _ => (s, .err "invalid raw, it must not be nil")
  | some _, none => (s, .err "invalid opts, it must not be nil")
  | some raw, some o =>
    match r.keyImporters o.type with
    | none => (s, .err "unsupported 'KeyImportOpts' provided")
    | some f => keep ks s o.ephemeral (keyOf (f raw o)) "failed importing key"

/-- `CSP.GetKey` (`impl.go:198-205`). -/
def getKey (s : σ) (ski : Bytes) : Res (Key B) := wrapErr "failed getting key for SKI" (ks.get s ski)

/-- `csp.Sign` (`bccsp.go:376-395`), which replaces `CSP.Sign`. -/
def sign (k : Option (Key B)) (digest : Bytes) (opts : Option (SignerOpts B)) (ρ : B.Rnd) :
    Res (Bytes × SignerOpts B) :=
  match k with
  | none => .err "invalid key: it must not be nil"
  | some k =>
    match r.signers k.type with
    | none => .err "unsupported 'SignKey' provided"
    | some f => wrapErr "failed signing with opts" (f k digest opts ρ)

/-- `csp.Verify` (`bccsp.go:399-420`), which replaces `CSP.Verify`. -/
def verify (k : Option (Key B)) (signature digest : Bytes) (opts : Option (SignerOpts B)) : Res Bool :=
  match k with
  | none => .err "invalid key: it must not be nil"
  | some k =>
    if signature.length = 0 then .err "invalid signature: cannot be empty"
    else
      match r.verifiers k.type with
      | none => .err "unsupported 'VerifyKey' provided"
      | some f => wrapErr "failed verifying with opts" (f k signature digest opts)

/-- `CSP.Sign` (`impl.go:213-234`), of a provider assembled by hand. -/
def baseSign (k : Option (Key B)) (digest : Bytes) (opts : Option (SignerOpts B)) (ρ : B.Rnd) :
    Res (Bytes × SignerOpts B) :=
  match k with
  | none => .err "invalid Key. It must not be nil"
  | some k =>
    if digest.length = 0 then .err "invalid digest. Cannot be empty"
    else
      match r.signers k.type with
      | none => .err "unsupported 'SignKey' provided"
      | some f => wrapErr "failed signing with opts" (f k digest opts ρ)

/-- `CSP.Verify` (`impl.go:237-260`), of a provider assembled by hand. -/
def baseVerify (k : Option (Key B)) (signature digest : Bytes) (opts : Option (SignerOpts B)) : Res Bool :=
  match k with
  | none => .err "invalid Key. It must not be nil"
  | some k =>
    if signature.length = 0 then .err "invalid signature. Cannot be empty"
    else if digest.length = 0 then .err "invalid digest. Cannot be empty"
    else
      match r.verifiers k.type with
      | none => .err "unsupported 'VerifyKey' provided"
      | some f => wrapErr "failed verifing with opts" (f k signature digest opts)

/-! ## Histories -/

/-- An operation that may involve the key store. -/
inductive Op (B : Backend S) where
  | gen (o : Option GenOpts) (ρ : B.Rnd)
  | deriv (k : Option (Key B)) (o : Option (DerivOpts B)) (ρ : B.Rnd)
  | imp (raw : Option Raw) (o : Option ImportOpts)
  | get (ski : Bytes)

/-- One operation. -/
def step (s : σ) : Op B → σ × Res (Key B)
  | .gen o ρ => keyGen ks r s o ρ
  | .deriv k o ρ => keyDeriv ks r s k o ρ
  | .imp raw o => keyImport ks r s raw o
  | .get ski => (s, getKey ks s ski)

/-- A sequence of operations, with the results of all of them. -/
def run (s : σ) : List (Op B) → σ × List (Res (Key B))
  | [] => (s, [])
  | op :: ops =>
    let (s1, k) := step ks r s op
    let (s2, res) := run s1 ops
    (s2, k :: res)

end Idemix.Provider
