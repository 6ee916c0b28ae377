import Verif.Provider.Csp

/-!
# C46 Dispatch, C47 storing

Concrete cases meeting the hypotheses of the theorems are in `Verif/Provider/Examples.lean`.
-/

namespace Idemix.Provider

variable {S : Suite} {B : Backend S}

/-! ## Registration -/

namespace Spec

/-- What a wrapper is registered as: the first of generator, importer, deriver, signer, verifier that it is. -/
def asKeyGen (w : Wrapper B) : Option (KeyGenFn B) := w.keyGen
/-- See `asKeyGen`. -/
def asImport (w : Wrapper B) : Option (KeyImportFn B) := if w.keyGen.isSome then none else w.keyImport
/-- See `asKeyGen`. -/
def asDeriv (w : Wrapper B) : Option (KeyDerivFn B) :=
  if w.keyGen.isSome ∨ w.keyImport.isSome then none else w.keyDeriv
/-- See `asKeyGen`. -/
def asSign (w : Wrapper B) : Option (SignFn B) :=
  if w.keyGen.isSome ∨ w.keyImport.isSome ∨ w.keyDeriv.isSome then none else w.sign
/-- See `asKeyGen`. -/
def asVerify (w : Wrapper B) : Option (VerifyFn B) :=
  if w.keyGen.isSome ∨ w.keyImport.isSome ∨ w.keyDeriv.isSome ∨ w.sign.isSome then none else w.verify

/-- All the wrappers registered for the type `t` as something that `view` recognises, in order of registration. -/
def registered {α : Type} (view : Wrapper B → Option α) (h : List (Option GoType × Option (Wrapper B))) (t : GoType) :
    List α :=
  h.filterMap fun p => if p.1 = some t then p.2.bind view else none

/-- A registration that must be refused: no type, no wrapper, or a wrapper that is none of the five. -/
def BadRegistration (p : Option GoType × Option (Wrapper B)) : Prop :=
  p.1 = none ∨ ∀ w, p.2 = some w → w.keyGen = none ∧ w.keyImport = none ∧ w.keyDeriv = none ∧ w.sign = none ∧
    w.verify = none

end Spec

theorem put_apply {α : Type} (m : GoType → Option α) (t t' : GoType) (a : α) :
    put m t a t' = if t = t' then some a else m t' := by
  unfold put; split <;> split <;> simp_all

/-- One registration. -/
theorem addWrapper_lookup (r : Registry B) (p : Option GoType × Option (Wrapper B)) (t : GoType) :
    (r.addWrapper p.1 p.2).1.keyGenerators t =
      ((if p.1 = some t then p.2.bind Spec.asKeyGen else none).or (r.keyGenerators t)) ∧
    (r.addWrapper p.1 p.2).1.keyImporters t =
      ((if p.1 = some t then p.2.bind Spec.asImport else none).or (r.keyImporters t)) ∧
    (r.addWrapper p.1 p.2).1.keyDerivers t =
      ((if p.1 = some t then p.2.bind Spec.asDeriv else none).or (r.keyDerivers t)) ∧
    (r.addWrapper p.1 p.2).1.signers t =
      ((if p.1 = some t then p.2.bind Spec.asSign else none).or (r.signers t)) ∧
    (r.addWrapper p.1 p.2).1.verifiers t =
      ((if p.1 = some t then p.2.bind Spec.asVerify else none).or (r.verifiers t)) := by
  obtain ⟨t', w⟩ := p
  cases t' with
  | none => simp [Registry.addWrapper]
  | some t' =>
    cases w with
    | none => simp [Registry.addWrapper]
    | some w =>
      obtain ⟨a, b, c, d, e⟩ := w
      cases a <;> cases b <;> cases c <;> cases d <;> cases e <;>
        by_cases h : t' = t <;>
        simp [Registry.addWrapper, put_apply, h, Spec.asKeyGen, Spec.asImport, Spec.asDeriv, Spec.asSign,
          Spec.asVerify]

theorem registered_cons {α : Type} (view : Wrapper B → Option α) (p : Option GoType × Option (Wrapper B))
    (h : List (Option GoType × Option (Wrapper B))) (t : GoType) (x : Option α) :
    ((Spec.registered view (p :: h) t).getLast?).or x =
      ((Spec.registered view h t).getLast?).or ((if p.1 = some t then p.2.bind view else none).or x) := by
  simp only [Spec.registered, List.filterMap_cons]
  cases hp : (if p.1 = some t then p.2.bind view else none) with
  | none => simp
  | some a =>
    rw [List.getLast?_cons]
    cases (List.filterMap _ h).getLast? <;> simp

theorem addWrappers_lookup (r : Registry B) (h : List (Option GoType × Option (Wrapper B))) (t : GoType) :
    (r.addWrappers h).1.keyGenerators t = ((Spec.registered Spec.asKeyGen h t).getLast?).or (r.keyGenerators t) ∧
    (r.addWrappers h).1.keyImporters t = ((Spec.registered Spec.asImport h t).getLast?).or (r.keyImporters t) ∧
    (r.addWrappers h).1.keyDerivers t = ((Spec.registered Spec.asDeriv h t).getLast?).or (r.keyDerivers t) ∧
    (r.addWrappers h).1.signers t = ((Spec.registered Spec.asSign h t).getLast?).or (r.signers t) ∧
    (r.addWrappers h).1.verifiers t = ((Spec.registered Spec.asVerify h t).getLast?).or (r.verifiers t) := by
  induction h generalizing r with
  | nil => simp [Registry.addWrappers, Spec.registered]
  | cons p h ih =>
    have e : (r.addWrappers (p :: h)).1 = ((r.addWrapper p.1 p.2).1.addWrappers h).1 := rfl
    obtain ⟨h1, h2, h3, h4, h5⟩ := addWrapper_lookup r p t
    obtain ⟨g1, g2, g3, g4, g5⟩ := ih (r.addWrapper p.1 p.2).1
    simp only [e, registered_cons]
    exact ⟨by rw [g1, h1], by rw [g2, h2], by rw [g3, h3], by rw [g4, h4], by rw [g5, h5]⟩

/-- C46. After any sequence of registrations the wrapper found for a type is the one registered last for that type
in that role, and there is none if there was no such registration. In particular a registration does not disturb
other types or other roles. -/
theorem C46_last_registration (h : List (Option GoType × Option (Wrapper B))) (t : GoType) :
    ((Registry.empty : Registry B).addWrappers h).1.keyGenerators t = (Spec.registered Spec.asKeyGen h t).getLast? ∧
    ((Registry.empty : Registry B).addWrappers h).1.keyImporters t = (Spec.registered Spec.asImport h t).getLast? ∧
    ((Registry.empty : Registry B).addWrappers h).1.keyDerivers t = (Spec.registered Spec.asDeriv h t).getLast? ∧
    ((Registry.empty : Registry B).addWrappers h).1.signers t = (Spec.registered Spec.asSign h t).getLast? ∧
    ((Registry.empty : Registry B).addWrappers h).1.verifiers t = (Spec.registered Spec.asVerify h t).getLast? := by
  simpa [Registry.empty] using addWrappers_lookup Registry.empty h t

/-- C46. A registration fails exactly when there is no type, no wrapper, or a wrapper of none of the five roles; it
then changes nothing, and it never panics. -/
theorem C46_bad_registration (r : Registry B) (t : Option GoType) (w : Option (Wrapper B)) :
    (Spec.BadRegistration (t, w) → (∃ m, (r.addWrapper t w).2 = .err m) ∧ (r.addWrapper t w).1 = r) ∧
    (¬ Spec.BadRegistration (t, w) → (r.addWrapper t w).2 = .ok ()) := by
  cases t with
  | none => simp [Registry.addWrapper, Spec.BadRegistration]
  | some t =>
    cases w with
    | none => simp [Registry.addWrapper, Spec.BadRegistration]
    | some w =>
      obtain ⟨a, b, c, d, e⟩ := w
      cases a <;> cases b <;> cases c <;> cases d <;> cases e <;>
        simp [Registry.addWrapper, Spec.BadRegistration]

/-- Two generators for one type and a verifier for another: the later generator wins, the verifier stays. -/
example (f g : KeyGenFn B) (v : VerifyFn B) :
    let r := ((Registry.empty : Registry B).addWrappers [(some .genUser, some { keyGen := some f }),
      (some .issuerPk, some { verify := some v }), (some .genUser, some { keyGen := some g })]).1
    r.keyGenerators .genUser = some g ∧ r.verifiers .issuerPk = some v ∧ r.verifiers .genUser = none :=
  ⟨rfl, rfl, rfl⟩

/-! ## The providers of `New` and `NewAries` -/

/-- The maps of the provider. -/
def provider (B : Backend S) (exportable : Bool) : Registry B :=
  (Registry.empty.addWrappers (registrations B exportable)).1

/-- C46. Both constructors succeed for every key store, and refuse a nil one. -/
theorem C46_constructor (exportable : Bool) :
    newCsp B true exportable = .ok (provider B exportable) ∧ ∃ m, newCsp B false exportable = .err m :=
  ⟨rfl, _, rfl⟩

namespace Spec

/-- The outcome of the algorithm that a call stands for; `none` means that the call must be refused. -/
abbrev Call (α : Type) := Option (Res α)

/-- Which algorithm `KeyGen` runs. -/
def keyGenCall (B : Backend S) (exportable : Bool) (ρ : B.Rnd) : Option GenOpts → Call (Key B)
  | some (.issuer _ names) => some (B.newIssuerKey names ρ >>= fun k => .ok (.issuerSk k exportable))
  | some (.user _) => some (B.newUserKey ρ >>= fun k => .ok (.userSk k exportable))
  | some (.revocation _) => some (B.newRevKey ρ >>= fun k => .ok (.revSk k exportable))
  | _ => none

/-- Which algorithm `KeyDeriv` runs: pseudonyms from user keys, for an issuer. -/
def keyDerivCall (B : Backend S) (exportable : Bool) (ρ : B.Rnd) : Option (Key B) → Option (DerivOpts B) →
    Call (Key B)
  | some (.userSk sk _), some (.nym _ (some (.issuerPk ipk))) =>
    some (B.makeNym sk ipk ρ >>= fun n => .ok (newNymSecretKey B n.2 n.1 exportable))
  | _, _ => none

/-- Which algorithm `KeyImport` runs on non-empty bytes. -/
def keyImportCall (B : Backend S) (exportable : Bool) (b : Bytes) : Option ImportOpts → Call (Key B)
  | some (.issuerPk _ names req rh eid sk) =>
    some (B.issuerPkFromBytes b names >>= fun pk =>
      if req = 0 then .ok (.issuerPk pk) else B.bases pk req rh eid sk >>= fun _ => .ok (.issuerPk pk))
  | some (.issuerSk _ names) => some (B.issuerKeyFromBytes b names >>= fun k => .ok (.issuerSk k exportable))
  | some (.userSk _) => some (B.userKeyFromBytes b >>= fun k => .ok (.userSk k exportable))
  | some (.nymPk _) =>
    some ((match B.publicNymFromBytes b with
      | .err _ => B.publicNymFromBytes (4 :: b)
      | x => x) >>= fun pk => .ok (.nymPk pk))
  | some (.nymSk _) => some (B.nymFromBytes b >>= fun n => .ok (newNymSecretKey B n.2 n.1 exportable))
  | some (.revPk _) =>
    match B.ec.pemDecode b with
    | none => none
    | some block => some (B.ec.parsePkix block >>= fun pk => match pk with
      | none => .err "not an ECDSA key"
      | some pk => .ok (.revPk pk))
  | some (.revSk _) => some (B.revKeyFromBytes b >>= fun k => .ok (.revSk k exportable))
  | _ => none

/-- Which algorithm `Sign` runs, and what it writes into the options. -/
def signCall (B : Backend S) (digest : Bytes) (ρ : B.Rnd) : Option (Key B) → Option (SignerOpts B) →
    Call (Bytes × SignerOpts B)
  | some (.userSk sk _), some (.sig o) =>
    match o.issuerPK, o.nym with
    | some (.issuerPk ipk), some (.nymSk _ rNym nym _) =>
      some (B.sign o.credential sk nym rNym ipk o.attributes digest o.rhIndex o.eidIndex o.cri o.sigType o.metadata ρ
        >>= fun x => .ok (x.1, .sig { o with metadata := x.2 }))
    | _, _ => none
  | some (.userSk sk _), some (.nymSig o) =>
    match o.isSmartcard, o.issuerPK with
    | false, some (.issuerPk ipk) =>
      match o.nym with
      | some (.nymSk _ rNym nym _) => some (B.nymSign sk nym rNym ipk digest ρ >>= fun x => .ok (x, .nymSig o))
      | _ => none
    | true, some (.issuerPk ipk) =>
      match B.card, o.smartcard with
      | some C, some card => some (C.sign card ipk digest ρ >>= fun x =>
          .ok (x.1, .nymSig { o with nymG1 := some x.2.1, rNym := some x.2.2 }))
      | _, _ => none
    | _, _ => none
  | some (.userSk sk _), some (.credReq (some (.issuerPk ipk)) nonce) =>
    B.request.map fun R => R.sign sk ipk nonce ρ >>= fun x => .ok (x, .credReq (some (.issuerPk ipk)) nonce)
  | some (.userSk sk _), some (.blindReq (some (.issuerPk ipk)) nonce _) =>
    B.blind.map fun R => R.blind sk ipk nonce ρ >>= fun x => .ok (x.1, .blindReq (some (.issuerPk ipk)) nonce x.2)
  | some (.issuerSk sk _), some (.cred attributes ipk) =>
    some (B.credSign sk digest attributes ρ >>= fun x => .ok (x, .cred attributes ipk))
  | some (.revSk sk _), some (.cri epoch alg unrevoked) =>
    some (B.revSign sk unrevoked epoch alg ρ >>= fun x => .ok (x, .cri epoch alg unrevoked))
  | _, _ => none

/-- Which algorithm `Verify` runs on a non-empty signature. -/
def verifyCall (B : Backend S) (signature digest : Bytes) : Option (Key B) → Option (SignerOpts B) → Call Unit
  | some (.issuerPk ipk), some (.sig o) =>
    match o.revocationPK with
    | none => some (B.verify ipk signature digest o.attributes o.rhIndex o.eidIndex o.skIndex none o.epoch o.verType
        o.metadata)
    | some (.revPk rpk) => some (B.verify ipk signature digest o.attributes o.rhIndex o.eidIndex o.skIndex (some rpk)
        o.epoch o.verType o.metadata)
    | some _ => none
  | some (.issuerPk ipk), some (.eidAudit t index value r sk) => some (B.auditEid ipk index sk signature value r t)
  | some (.issuerPk ipk), some (.rhAudit t index value r sk) => some (B.auditRh ipk index sk signature value r t)
  | some (.issuerPk ipk), some (.credReq _ nonce) => B.request.map fun R => R.verify signature ipk nonce
  | some (.issuerPk ipk), some (.blindReq _ nonce _) => B.blind.map fun R => R.blindVerify signature ipk nonce
  | some (.nymPk nym), some (.nymSig o) =>
    match o.isSmartcard, o.issuerPK with
    | false, some (.issuerPk ipk) => some (B.nymVerify ipk nym signature digest o.skIndex)
    | true, some (.issuerPk ipk) =>
      match B.card, o.nymEid with
      | some C, some nymEid => some (C.verify ipk nymEid signature digest)
      | _, _ => none
    | _, _ => none
  | some (.userSk sk _), some (.cred attributes (some (.issuerPk ipk))) =>
    some (B.credVerify sk ipk signature attributes)
  | some (.revPk rpk), some (.cri epoch alg _) => some (B.revVerify rpk signature epoch alg)
  | _, _ => none

/-- Two outcomes agree: same value, or both an error, or both a panic. -/
def Agree {α : Type} : Res α → Res α → Prop
  | .ok a, .ok b => a = b
  | .err _, .err _ => True
  | .panic, .panic => True
  | _, _ => False

/-- The outcome of a call: that of the algorithm it stands for, an error if there is none. -/
def Obeys {α : Type} (got : Res α) : Call α → Prop
  | some want => Agree got want
  | none => ∃ m, got = .err m

/-- The option types that a scheme has no handler for. -/
def NoHandler (B : Backend S) : Option (SignerOpts B) → Prop
  | some (.credReq _ _) => B.request = none
  | some (.blindReq _ _ _) => B.blind = none
  | _ => False

end Spec

open Spec

theorem Agree.refl {α : Type} (x : Res α) : Agree x x := by cases x <;> simp [Agree]

theorem agree_wrapErr {α : Type} (m : String) (x : Res α) : Agree (wrapErr m x) x := by
  cases x <;> simp [Agree, wrapErr]

/-! ## Sign and verify -/

theorem issuerPKOf_cases (o : Option (Key B)) :
    (∃ pk, o = some (.issuerPk pk) ∧ issuerPKOf o = .ok pk) ∨
      ((∀ pk, o ≠ some (.issuerPk pk)) ∧ ∃ m, issuerPKOf o = .err m) := by
  cases o with
  | none => exact .inr ⟨by simp, _, rfl⟩
  | some k => cases k <;> simp [issuerPKOf]

theorem nymSkOf_cases (o : Option (Key B)) :
    (∃ ski sk pk e, o = some (.nymSk ski sk pk e) ∧ nymSkOf o = .ok (pk, sk)) ∨
      ((∀ ski sk pk e, o ≠ some (.nymSk ski sk pk e)) ∧ ∃ m, nymSkOf o = .err m) := by
  cases o with
  | none => exact .inr ⟨by simp, _, rfl⟩
  | some k => cases k <;> simp [nymSkOf]

/-- The algorithm run by `Sign` is determined by the types of the key and of the options. -/
theorem C46_sign_dispatch_partial (exportable : Bool) (k : Option (Key B)) (digest : Bytes)
    (opts : Option (SignerOpts B)) (ρ : B.Rnd) (h : ¬ NoHandler B opts) :
    Obeys (sign (provider B exportable) k digest opts ρ) (signCall B digest ρ k opts) := by
  cases k with
  | none => exact ⟨_, rfl⟩
  | some k =>
    cases k with
    | userSk sk e =>
      have e1 : sign (provider B exportable) (some (.userSk sk e)) digest opts ρ =
          wrapErr "failed signing with opts" (userSign B (.userSk sk e) digest opts ρ) := rfl
      rw [e1]
      cases opts with
      | none => exact ⟨_, rfl⟩
      | some o =>
        cases o with
        | sig o =>
          obtain ⟨nym, ipk, a1, a2, a3, a4, a5, a6, a7, a8, a9, a10, a11⟩ := o
          cases ipk with
          | none => exact ⟨_, rfl⟩
          | some ipk =>
            cases ipk with
            | issuerPk ipk =>
              cases nym with
              | none => exact ⟨_, rfl⟩
              | some nym =>
                cases nym with
                | nymSk ski r n e => exact agree_wrapErr _ _
                | _ => exact ⟨_, rfl⟩
            | _ => exact ⟨_, rfl⟩
        | nymSig o =>
          obtain ⟨nym, ipk, card, sc, a3, a4, a5, a6⟩ := o
          cases ipk with
          | none => cases card <;> exact ⟨_, rfl⟩
          | some ipk =>
            cases ipk with
            | issuerPk ipk =>
              cases card with
              | false =>
                cases nym with
                | none => exact ⟨_, rfl⟩
                | some nym =>
                  cases nym with
                  | nymSk ski r n e => exact agree_wrapErr _ _
                  | _ => exact ⟨_, rfl⟩
              | true =>
                simp only [userSign, nymSignerSign, issuerPKOf, Res.ok_bind, if_true, signCall]
                cases B.card with
                | none => exact ⟨_, rfl⟩
                | some C =>
                  cases sc with
                  | none => exact ⟨_, rfl⟩
                  | some c => exact agree_wrapErr _ _
            | _ => cases card <;> exact ⟨_, rfl⟩
        | credReq ipk nonce =>
          cases ipk with
          | none => exact ⟨_, rfl⟩
          | some ipk =>
            cases ipk with
            | issuerPk ipk =>
              simp only [userSign, credReqSign, issuerPKOf, Res.ok_bind, signCall]
              cases hR : B.request with
              | none => exact absurd hR h
              | some R => exact agree_wrapErr _ _
            | _ => exact ⟨_, rfl⟩
        | blindReq ipk nonce bl =>
          cases ipk with
          | none => exact ⟨_, rfl⟩
          | some ipk =>
            cases ipk with
            | issuerPk ipk =>
              simp only [userSign, blindReqSign, issuerPKOf, Res.ok_bind, signCall]
              cases hR : B.blind with
              | none => exact absurd hR h
              | some R => exact agree_wrapErr _ _
            | _ => exact ⟨_, rfl⟩
        | _ => exact ⟨_, rfl⟩
    | issuerSk sk e =>
      cases opts with
      | none => exact ⟨_, rfl⟩
      | some o =>
        cases o with
        | cred attributes ipk => exact agree_wrapErr _ _
        | _ => exact ⟨_, rfl⟩
    | revSk sk e =>
      cases opts with
      | none => exact ⟨_, rfl⟩
      | some o =>
        cases o with
        | cri a b c => exact agree_wrapErr _ _
        | _ => exact ⟨_, rfl⟩
    | _ => exact ⟨_, rfl⟩

theorem agree_accepted (m : String) (x : Res Unit) :
    Agree (wrapErr m (accepted x)) (x >>= fun _ => .ok true) := agree_wrapErr _ _

/-- C46. The algorithm run by `Verify` is determined by the types of the key and of the options; an empty signature
is refused before that. Success is always `true`: a failed verification is an error. -/
theorem C46_verify_dispatch_partial (exportable : Bool) (k : Option (Key B)) (signature digest : Bytes)
    (opts : Option (SignerOpts B)) (h : ¬ NoHandler B opts) :
    (signature = [] → ∃ m, verify (provider B exportable) k signature digest opts = .err m) ∧
    (signature ≠ [] → Obeys (verify (provider B exportable) k signature digest opts)
      ((verifyCall B signature digest k opts).map fun r => r >>= fun _ => .ok true)) := by
  constructor
  · rintro rfl
    cases k <;> exact ⟨_, rfl⟩
  · intro hs
    have hl : decide (signature.length = 0) = false := by simpa using hs
    have hl' : ¬ signature.length = 0 := by simpa using hs
    cases k with
    | none => exact ⟨_, rfl⟩
    | some k =>
      have e1 : verify (provider B exportable) (some k) signature digest opts =
          match (provider B exportable).verifiers k.type with
          | none => .err "unsupported 'VerifyKey' provided"
          | some f => wrapErr "failed verifying with opts" (f k signature digest opts) := by
        unfold verify
        exact if_neg hl'
      rw [e1]
      cases k with
      | issuerPk ipk =>
        have e2 : (provider B exportable).verifiers (Key.issuerPk (B := B) ipk).type = some (issuerVerify B) := rfl
        rw [e2]
        dsimp only
        cases opts with
        | none => exact ⟨_, rfl⟩
        | some o =>
          cases o with
          | sig o =>
            obtain ⟨nym, ipk, a1, a2, a3, a4, a5, a6, a7, rpk, a9, a10, a11⟩ := o
            cases rpk with
            | none =>
              simp only [issuerVerify, verifierVerify, revPKOf, Res.ok_bind, hl, Res.guardErr_false]
              exact agree_wrapErr _ _
            | some rpk =>
              cases rpk with
              | revPk rpk =>
                simp only [issuerVerify, verifierVerify, revPKOf, Res.ok_bind, hl, Res.guardErr_false]
                exact agree_wrapErr _ _
              | _ => exact ⟨_, rfl⟩
          | eidAudit =>
            simp only [issuerVerify, auditNymEid, Res.ok_bind, hl, Res.guardErr_false]
            exact agree_wrapErr _ _
          | rhAudit =>
            simp only [issuerVerify, auditNymRh, Res.ok_bind, hl, Res.guardErr_false]
            exact agree_wrapErr _ _
          | credReq ipk nonce =>
            simp only [issuerVerify, credReqVerify, verifyCall]
            cases hR : B.request with
            | none => exact absurd hR h
            | some R => exact agree_wrapErr _ _
          | blindReq ipk nonce bl =>
            simp only [issuerVerify, blindReqVerify, verifyCall]
            cases hR : B.blind with
            | none => exact absurd hR h
            | some R => exact agree_wrapErr _ _
          | _ => exact ⟨_, rfl⟩
      | nymPk nym =>
        have e2 : (provider B exportable).verifiers (Key.nymPk (B := B) nym).type = some (nymVerifierVerify B) := rfl
        rw [e2]
        dsimp only
        cases opts with
        | none => exact ⟨_, rfl⟩
        | some o =>
          cases o with
          | nymSig o =>
            obtain ⟨n, ipk, card, sc, eid, a4, a5, a6⟩ := o
            cases ipk with
            | none => cases card <;> exact ⟨_, rfl⟩
            | some ipk =>
              cases ipk with
              | issuerPk ipk =>
                simp only [nymVerifierVerify, issuerPKOf, Res.ok_bind, hl, Res.guardErr_false, verifyCall]
                cases card with
                | false => exact agree_wrapErr _ _
                | true =>
                  cases B.card with
                  | none => exact ⟨_, rfl⟩
                  | some C =>
                    cases eid with
                    | none => exact ⟨_, rfl⟩
                    | some c => exact agree_wrapErr _ _
              | _ => cases card <;> exact ⟨_, rfl⟩
          | _ => exact ⟨_, rfl⟩
      | userSk sk e =>
        have e2 : (provider B exportable).verifiers (Key.userSk (B := B) sk e).type = some (credentialVerify B) := rfl
        rw [e2]
        dsimp only
        cases opts with
        | none => exact ⟨_, rfl⟩
        | some o =>
          cases o with
          | cred attributes ipk =>
            cases ipk with
            | none => exact ⟨_, rfl⟩
            | some ipk =>
              cases ipk with
              | issuerPk ipk =>
                simp only [credentialVerify, issuerPKOf, Res.ok_bind, hl, Res.guardErr_false]
                exact agree_wrapErr _ _
              | _ => exact ⟨_, rfl⟩
          | _ => exact ⟨_, rfl⟩
      | revPk rpk =>
        have e2 : (provider B exportable).verifiers (Key.revPk (B := B) rpk).type = some (criVerify B) := rfl
        rw [e2]
        dsimp only
        cases opts with
        | none => exact ⟨_, rfl⟩
        | some o =>
          cases o with
          | cri epoch alg u =>
            simp only [criVerify, Res.ok_bind, hl, Res.guardErr_false]
            exact agree_wrapErr _ _
          | _ => exact ⟨_, rfl⟩
      | _ => exact ⟨_, rfl⟩

theorem obeys_of_eq {α : Type} {x y : Res α} {c : Call α} (h : Obeys x c) (hxy : Agree y x) : Obeys y c := by
  cases c with
  | none =>
    obtain ⟨m, rfl⟩ := h
    cases y <;> simp_all [Agree, Obeys]
  | some w => cases x <;> cases y <;> cases w <;> simp_all [Agree, Obeys]

/-- C46. A provider assembled by hand with the same handlers (`CSP`, without the layer that the constructors of the
two schemes add) runs the same algorithm on every digest but the empty one, which it refuses. -/
theorem C46_base_sign_partial (exportable : Bool) (k : Option (Key B)) (digest : Bytes)
    (opts : Option (SignerOpts B)) (ρ : B.Rnd) (h : ¬ NoHandler B opts) :
    Obeys (baseSign (provider B exportable) k digest opts ρ)
      (if digest = [] then none else signCall B digest ρ k opts) := by
  split
  · next hd => subst hd; cases k <;> exact ⟨_, rfl⟩
  · next hd =>
    refine obeys_of_eq (C46_sign_dispatch_partial exportable k digest opts ρ h) ?_
    cases k with
    | none => simp [baseSign, sign, Agree]
    | some k =>
      have hl : ¬ digest.length = 0 := by simpa using hd
      simp only [baseSign, sign, hl, if_false]
      exact Agree.refl _

/-- C46. Likewise for `Verify`. So a provider assembled by hand accepts nothing that has no digest: no credential, no
request for one, no revocation information and no identity of an MSP, which the other layer checks with an empty
digest. -/
theorem C46_base_verify_partial (exportable : Bool) (k : Option (Key B)) (signature digest : Bytes)
    (opts : Option (SignerOpts B)) (h : ¬ NoHandler B opts) :
    Obeys (baseVerify (provider B exportable) k signature digest opts)
      (if signature = [] ∨ digest = [] then none
       else (verifyCall B signature digest k opts).map fun r => r >>= fun _ => .ok true) := by
  have key : signature ≠ [] → digest ≠ [] →
      Agree (baseVerify (provider B exportable) k signature digest opts)
        (verify (provider B exportable) k signature digest opts) := by
    intro hs hd
    have hl : ¬ digest.length = 0 := by simpa using hd
    have hl' : ¬ signature.length = 0 := by simpa using hs
    cases k with
    | none => simp [baseVerify, verify, Agree]
    | some k =>
      simp only [baseVerify, verify, hl, hl', if_false]
      cases (provider B exportable).verifiers k.type with
      | none => simp [Agree]
      | some f => dsimp only; cases f k signature digest opts <;> simp [wrapErr, Agree]
  split
  · next hd =>
    cases k with
    | none => exact ⟨_, rfl⟩
    | some k =>
      by_cases hs : signature.length = 0
      · exact ⟨_, by simp only [baseVerify, hs, if_true]; rfl⟩
      · have hd' : digest.length = 0 := by
          rcases hd with hd | hd
          · exact absurd (by simp [hd]) hs
          · simp [hd]
        exact ⟨_, by simp only [baseVerify, hs, hd', if_true, if_false]; rfl⟩
  · next hd =>
    simp only [not_or] at hd
    exact obeys_of_eq ((C46_verify_dispatch_partial exportable k signature digest opts h).2 hd.1) (key hd.1 hd.2)

/-- C46, violated. A scheme without a handler for the kind of request in the options does not refuse them: with an
issuer public key of the library `Sign` and `Verify` panic. In `New` this happens for blinded requests, in
`NewAries` for requests that are not blinded. -/
theorem C46_violated (exportable ex : Bool) (sk : S.F) (ipk : B.IPK) (nonce digest signature : Bytes) (ρ : B.Rnd)
    (hs : signature ≠ []) :
    (B.request = none →
      sign (provider B exportable) (some (.userSk sk ex)) digest (some (.credReq (some (.issuerPk ipk)) nonce)) ρ
        = .panic ∧
      verify (provider B exportable) (some (.issuerPk ipk)) signature digest (some (.credReq none nonce)) = .panic) ∧
    (B.blind = none →
      sign (provider B exportable) (some (.userSk sk ex)) digest
        (some (.blindReq (some (.issuerPk ipk)) nonce [])) ρ = .panic ∧
      verify (provider B exportable) (some (.issuerPk ipk)) signature digest (some (.blindReq none nonce []))
        = .panic) := by
  have hl' : ¬ signature.length = 0 := by simpa using hs
  refine ⟨fun h => ⟨?_, ?_⟩, fun h => ⟨?_, ?_⟩⟩
  · have e1 : sign (provider B exportable) (some (.userSk sk ex)) digest
        (some (.credReq (some (.issuerPk ipk)) nonce)) ρ = wrapErr "failed signing with opts"
          (userSign B (.userSk sk ex) digest (some (.credReq (some (.issuerPk ipk)) nonce)) ρ) := rfl
    rw [e1]
    simp [userSign, credReqSign, issuerPKOf, h, wrapErr]
  · have e2 : (provider B exportable).verifiers (Key.issuerPk (B := B) ipk).type = some (issuerVerify B) := rfl
    simp only [verify, if_neg hl', e2]
    simp [issuerVerify, credReqVerify, h, wrapErr]
  · have e1 : sign (provider B exportable) (some (.userSk sk ex)) digest
        (some (.blindReq (some (.issuerPk ipk)) nonce [])) ρ = wrapErr "failed signing with opts"
          (userSign B (.userSk sk ex) digest (some (.blindReq (some (.issuerPk ipk)) nonce [])) ρ) := rfl
    rw [e1]
    simp [userSign, blindReqSign, issuerPKOf, h, wrapErr]
  · have e2 : (provider B exportable).verifiers (Key.issuerPk (B := B) ipk).type = some (issuerVerify B) := rfl
    simp only [verify, if_neg hl', e2]
    simp [issuerVerify, blindReqVerify, h, wrapErr]

/-! ## Keys: generation, derivation, import, and what is stored -/

namespace Spec

variable {σ : Type}

/-- What a call that makes a key must do with the key store: nothing if there is no key or if it is ephemeral;
otherwise store exactly this key, and return it only if that succeeded. -/
def Kept (ks : KeyStore B σ) (s : σ) (ephemeral : Bool) (out : σ × Res (Key B)) : Call (Key B) → Prop
  | some (.ok k) =>
    if ephemeral then out = (s, .ok k)
    else out.1 = (ks.store s k).1 ∧ match (ks.store s k).2 with
      | .ok _ => out.2 = .ok k
      | .err _ => ∃ m, out.2 = .err m
      | .panic => out.2 = .panic
  | some (.err _) => out.1 = s ∧ ∃ m, out.2 = .err m
  | some .panic => out = (s, .panic)
  | none => out.1 = s ∧ ∃ m, out.2 = .err m

/-- The `Temporary` flag of the options; calls without options are refused in any case. -/
def genEphemeral : Option GenOpts → Bool
  | some (.issuer t _) | some (.user t) | some (.revocation t) | some (.foreign _ t) => t
  | none => true

/-- See `genEphemeral`. -/
def derivEphemeral : Option (DerivOpts B) → Bool
  | some (.nym t _) | some (.foreign _ t) => t
  | none => true

/-- See `genEphemeral`. -/
def importEphemeral : Option ImportOpts → Bool
  | some (.issuerPk t _ _ _ _ _) | some (.issuerSk t _) | some (.userSk t) | some (.nymPk t) | some (.nymSk t)
  | some (.revPk t) | some (.revSk t) | some (.foreign _ t) => t
  | none => true

/-- The import a call stands for: only non-empty bytes are imported. -/
def importCall (B : Backend S) (exportable : Bool) (raw : Option Raw) (o : Option ImportOpts) : Call (Key B) :=
  match raw with
  | some (.bytes (b :: bs)) => keyImportCall B exportable (b :: bs) o
  | _ => none

end Spec

variable {σ : Type} (ks : KeyStore B σ)

theorem keep_kept (s : σ) (eph : Bool) (x : Res (Key B)) (m : String) :
    Kept ks s eph (keep ks s eph x m) (some x) := by
  cases x with
  | ok k =>
    cases eph with
    | true => exact rfl
    | false =>
      simp only [Kept, keep, Bool.false_eq_true, if_false]
      rcases h : ks.store s k with ⟨s', _ | _ | _⟩ <;> simp
  | err m => exact ⟨rfl, _, rfl⟩
  | panic => exact rfl

/-- C46, C47. `KeyGen` runs the algorithm of its options, and stores the key exactly if it is not temporary. -/
theorem C46_C47_keyGen (exportable : Bool) (s : σ) (o : Option GenOpts) (ρ : B.Rnd) :
    Kept ks s (genEphemeral o) (keyGen ks (provider B exportable) s o ρ) (keyGenCall B exportable ρ o) := by
  cases o with
  | none => exact ⟨rfl, _, rfl⟩
  | some o =>
    cases o with
    | foreign n t => exact ⟨rfl, _, rfl⟩
    | _ => exact keep_kept ks s _ _ _

/-- C46, C47. `KeyDeriv` makes pseudonyms from user keys, and stores them exactly if they are not temporary. -/
theorem C46_C47_keyDeriv (exportable : Bool) (s : σ) (k : Option (Key B)) (o : Option (DerivOpts B)) (ρ : B.Rnd) :
    Kept ks s (derivEphemeral o) (keyDeriv ks (provider B exportable) s k o ρ)
      (keyDerivCall B exportable ρ k o) := by
  cases k with
  | none => exact ⟨rfl, _, rfl⟩
  | some k =>
    cases o with
    | none => cases k <;> exact ⟨rfl, _, rfl⟩
    | some o =>
      cases k with
      | userSk sk e =>
        cases o with
        | nym t ipk =>
          cases ipk with
          | none => exact ⟨rfl, _, rfl⟩
          | some ipk =>
            cases ipk with
            | issuerPk ipk => exact keep_kept ks s _ _ _
            | _ => exact ⟨rfl, _, rfl⟩
        | foreign n t => exact ⟨rfl, _, rfl⟩
      | _ => exact ⟨rfl, _, rfl⟩

theorem keep_agree (s : σ) (eph : Bool) (x y : Res (Key B)) (m : String) (h : Agree x y) :
    Kept ks s eph (keep ks s eph x m) (some y) := by
  have := keep_kept ks s eph x m
  cases x <;> cases y <;> simp only [Agree] at h
  · subst h; exact this
  · exact this
  · exact this

theorem keep_err (s : σ) (eph : Bool) (x : Res (Key B)) (m : String) (h : ∃ e, x = .err e) :
    (keep ks s eph x m).1 = s ∧ ∃ e, (keep ks s eph x m).2 = .err e := by
  obtain ⟨e, rfl⟩ := h
  exact ⟨rfl, _, rfl⟩

/-- C46, C47. `KeyImport` runs the algorithm of its options on non-empty bytes, refuses everything else, and stores
the key exactly if it is not temporary. -/
theorem C46_C47_keyImport (exportable : Bool) (s : σ) (raw : Option Raw) (o : Option ImportOpts) :
    Kept ks s (importEphemeral o) (keyImport ks (provider B exportable) s raw o)
      (importCall B exportable raw o) := by
  cases raw with
  | none => exact ⟨rfl, _, rfl⟩
  | some raw =>
    cases o with
    | none =>
      rcases raw with (_ | ⟨b, bs⟩) | _ <;> exact ⟨rfl, _, rfl⟩
    | some o =>
      cases raw with
      | other => cases o <;> exact ⟨rfl, _, rfl⟩
      | bytes b =>
        cases b with
        | nil => cases o <;> exact ⟨rfl, _, rfl⟩
        | cons b bs =>
          have hg : rawBytes (.bytes (b :: bs)) = .ok (b :: bs) := rfl
          cases o with
          | issuerPk t names req rh eid sk =>
            refine keep_agree ks s t _ _ _ ?_
            simp only [keyOf, issuerPkImport, hg, Res.ok_bind]
            cases B.issuerPkFromBytes (b :: bs) names with
            | ok pk =>
              by_cases hr : req = 0
              · simp [hr, Agree, Res.pure_def]
              · simp only [Res.ok_bind, hr, if_false]
                cases B.bases pk req rh eid sk <;> simp [Agree, Res.pure_def, Res.err_bind, Res.panic_bind]
            | err m => trivial
            | panic => trivial
          | issuerSk t names =>
            refine keep_agree ks s t _ _ _ ?_
            simp only [keyOf, issuerSkImport, hg, Res.ok_bind]
            cases B.issuerKeyFromBytes (b :: bs) names <;> simp [Agree, Res.pure_def, Res.err_bind, Res.panic_bind]
          | userSk t =>
            refine keep_agree ks s t _ _ _ ?_
            simp only [keyOf, userKeyImport, hg, Res.ok_bind]
            cases B.userKeyFromBytes (b :: bs) <;> simp [Agree, Res.pure_def, Res.err_bind, Res.panic_bind]
          | nymPk t =>
            refine keep_agree ks s t _ _ _ ?_
            simp only [keyOf, nymPkImport, hg, Res.ok_bind]
            cases B.publicNymFromBytes (b :: bs) with
            | err m =>
              cases B.publicNymFromBytes (4 :: b :: bs) <;> simp [Agree, Res.pure_def, Res.err_bind, Res.panic_bind]
            | _ => simp [Agree, Res.pure_def, Res.panic_bind]
          | nymSk t =>
            refine keep_agree ks s t _ _ _ ?_
            simp only [keyOf, nymSkImport, hg, Res.ok_bind]
            cases B.nymFromBytes (b :: bs) <;> simp [Agree, Res.pure_def, Res.err_bind, Res.panic_bind]
          | revPk t =>
            have e1 : keyImport ks (provider B exportable) s (some (.bytes (b :: bs))) (some (.revPk t)) =
              keep ks s t (keyOf (revPkImport B (.bytes (b :: bs)) (.revPk t))) "failed importing key" := rfl
            rw [e1]
            simp only [importCall, keyImportCall]
            cases hd : B.ec.pemDecode (b :: bs) with
            | none =>
              exact keep_err ks s t _ _ ⟨_, by simp only [keyOf, revPkImport, hg, Res.ok_bind, hd]; rfl⟩
            | some block =>
              refine keep_agree ks s t _ _ _ ?_
              simp only [keyOf, revPkImport, hg, Res.ok_bind, hd, Res.ofOption_some]
              rcases B.ec.parsePkix block with (_ | pk) | m | _ <;> simp [Agree, Res.pure_def, Res.ofOption, Res.err_bind, Res.panic_bind]
          | revSk t =>
            refine keep_agree ks s t _ _ _ ?_
            simp only [keyOf, revSkImport, hg, Res.ok_bind]
            cases B.revKeyFromBytes (b :: bs) <;> simp [Agree, Res.pure_def, Res.err_bind, Res.panic_bind]
          | foreign n t => exact ⟨rfl, _, rfl⟩

namespace Spec

/-- The key of a call that makes one. -/
def lasting : Call (Key B) → Option (Key B)
  | some (.ok k) => some k
  | _ => none

/-- The key that an operation leaves in the key store, if any. It does not depend on the contents of the store. -/
def leaves (B : Backend S) (exportable : Bool) : Op B → Option (Key B)
  | .gen o ρ => if genEphemeral o then none else lasting (keyGenCall B exportable ρ o)
  | .deriv k o ρ => if derivEphemeral o then none else lasting (keyDerivCall B exportable ρ k o)
  | .imp raw o => if importEphemeral o then none else lasting (importCall B exportable raw o)
  | .get _ => none

end Spec

theorem kept_state (s : σ) (eph : Bool) (out : σ × Res (Key B)) (c : Call (Key B)) (h : Kept ks s eph out c) :
    out.1 = ((if eph then none else lasting c).toList).foldl (fun s k => (ks.store s k).1) s := by
  rcases c with _ | k | m | _
  · cases eph <;> exact h.1
  · cases eph
    · simp only [Kept, Bool.false_eq_true, if_false] at h
      simpa [lasting] using h.1
    · simp only [Kept, if_true] at h
      simp [h]
  · cases eph <;> exact h.1
  · simp only [Kept] at h
    cases eph <;> simp [h, lasting]

/-- C47. After any history the key store has been given exactly the keys made by the operations that were not
temporary, in order: nothing else writes to it, whatever succeeds or fails. -/
theorem C47_history (exportable : Bool) (s : σ) (ops : List (Op B)) :
    (run ks (provider B exportable) s ops).1 =
      (ops.filterMap (leaves B exportable)).foldl (fun s k => (ks.store s k).1) s := by
  induction ops generalizing s with
  | nil => rfl
  | cons op ops ih =>
    have h1 : (step ks (provider B exportable) s op).1 =
        ((leaves B exportable op).toList).foldl (fun s k => (ks.store s k).1) s := by
      cases op with
      | gen o ρ => exact kept_state ks s _ _ _ (C46_C47_keyGen ks exportable s o ρ)
      | deriv k o ρ => exact kept_state ks s _ _ _ (C46_C47_keyDeriv ks exportable s k o ρ)
      | imp raw o => exact kept_state ks s _ _ _ (C46_C47_keyImport ks exportable s raw o)
      | get ski => rfl
    have h2 : (run ks (provider B exportable) s (op :: ops)).1 =
        (run ks (provider B exportable) (step ks (provider B exportable) s op).1 ops).1 := rfl
    rw [h2, ih, h1, List.filterMap_cons]
    cases leaves B exportable op <;> rfl

/-- A temporary and a lasting user key: only the second reaches the store. -/
example (s : List (Key B)) (ρ ρ' : B.Rnd) (x y : S.F) (_h : B.newUserKey ρ = .ok x) (h' : B.newUserKey ρ' = .ok y) :
    let ks : KeyStore B (List (Key B)) := { get := fun _ _ => .err "none", store := fun s k => (s ++ [k], .ok ()) }
    (run ks (provider B true) s [.gen (some (.user true)) ρ, .gen (some (.user false)) ρ']).1 =
      s ++ [.userSk y true] := by
  intro ks
  rw [C47_history]
  simp [leaves, genEphemeral, lasting, keyGenCall, h', ks]

end Idemix.Provider
