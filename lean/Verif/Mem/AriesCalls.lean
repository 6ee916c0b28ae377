import Verif.Mem.AriesVerifyRefine

/-!
# Calls of the API of the aries scheme, with arguments in memory
-/

namespace Idemix.Mem.Aries

open Idemix.Bbs (Lib PKG SigMsg ProofG1 PoKRand)
open Idemix.Aries (IPK ISK Blinded SignRand Card)
open Idemix.Dlog (SigType VerType AuditType SignerMetadata)
open Idemix.Mem.Dlog (MetaPtr OptMetaAt)
open Idemix.Mem.Dlog.Call (see seeMeta see_at seeMeta_at readMeta gives_readMeta mapM_rel)
open Idemix.Mem.Bbs

variable {S : Suite} (L : Lib S) (c : Consts)

/-- Calls of `bccsp/schemes/aries`. Keys, pseudonyms, openings, cards and messages that are given as scalars are pointers here,
which calls may share in any way. Random choices of the call are arguments; `lib` is the cache of the library that is used. -/
inductive Call (S : Suite) where
  /-- `Issuer.NewKey` (`issuer.go:91-117`) -/
  | newKey (lib : Option Nat) (names : List Bytes) (seed : Bytes)
  /-- `Issuer.NewKeyFromBytes` (`issuer.go:121-142`) -/
  | newKeyFromBytes (lib : Option Nat) (raw : Bytes) (names : List Bytes)
  /-- `Issuer.NewPublicKeyFromBytes` (`issuer.go:146-162`) -/
  | newPublicKeyFromBytes (lib : Option Nat) (raw : Bytes) (names : List Bytes)
  /-- `Issuer.Bases` (`issuer.go:64-88`) -/
  | bases (key : Dyn IpkPtr) (isDlog : Bool) (rhIndex eidIndex skIndex : Int)
  /-- `User.MakeNym` (`user.go:41-58`) -/
  | makeNym (sk : Ptr .zr) (key : Dyn IpkPtr) (skIdx : Int) (rNym : S.F)
  /-- `BlindMessagesZr` (`blind_sign.go:136-178`) -/
  | blindMessages (lib : Option Nat) (zrs : List (Option (Ptr .zr))) (w : Ptr .g2) (nonce : Bytes) (s : S.F) (ρ : Nat → S.F)
  /-- `BlindSign` (`blind_sign.go:181-208`) -/
  | blindSign (lib : Option Nat) (messages : List MsgPtr) (msgCount : Int) (commitment : Ptr .g1) (rawSk : Bytes) (e s : S.F)
  /-- `UnblindSign` (`blind_sign.go:211-220`) -/
  | unblindSign (raw : Bytes) (s : Ptr .zr)
  /-- `CredRequest.Blind` (`credrequest.go:23-38`) -/
  | blind (sk : Ptr .zr) (key : Dyn IpkPtr) (nonce : Bytes) (skIdx : Int) (s : S.F) (ρ : Nat → S.F)
  /-- `CredRequest.BlindVerify` (`credrequest.go:41-56`) -/
  | blindVerify (request : Bytes) (key : Dyn IpkPtr) (nonce : Bytes) (skIdx : Int)
  /-- `CredRequest.Unblind` (`credrequest.go:59-76`) -/
  | unblind (signature blinding : Bytes)
  /-- `Cred.Sign` (`cred.go:26-60`) -/
  | credSign (lib : Option Nat) (key : Dyn IskPtr) (request : Bytes) (attributes : List IdemixAttribute) (skIdx : Int)
      (e s : S.F)
  /-- `Cred.Verify` (`cred.go:64-117`) -/
  | credVerify (sk : Ptr .zr) (key : Dyn IpkPtr) (credBytes : Bytes) (attributes : List IdemixAttribute)
  /-- `NymSigner.Sign` (`nymsigner.go:27-65`) -/
  | nymSign (sk : Ptr .zr) (nym : Ptr .g1) (rNym : Ptr .zr) (key : Dyn IpkPtr) (digest : Bytes) (skIdx : Int) (nonce : S.F)
      (ρ : Nat → S.F)
  /-- `NymSigner.Verify` (`nymsigner.go:68-108`) -/
  | nymVerify (key : Dyn IpkPtr) (nym : Ptr .g1) (sigBytes digest : Bytes) (skIdx : Int)
  /-- `Signer.Sign` (`signer.go:442-603`) -/
  | sign (credBytes : Bytes) (sk : Ptr .zr) (nym : Ptr .g1) (rNym : Ptr .zr) (key : Dyn IpkPtr)
      (attributes : List IdemixAttribute) (msg : Bytes) (rhIndex eidIndex : Int) (criRaw : Bytes) (t : SigType)
      (md : Option MetaPtr) (ρ : SignRand S)
  /-- `Signer.Verify` (`signer.go:606-894`) -/
  | verify (key : Dyn IpkPtr) (signature msg : Bytes) (attributes : List IdemixAttribute) (rhIndex eidIndex skIndex : Int)
      (v : VerType) (md : Option MetaPtr)
  /-- `Signer.AuditNymEid` (`signer.go:897-948`) -/
  | auditNymEid (key : Dyn IpkPtr) (eidIndex skIndex : Int) (signature enrollmentID : Bytes) (rand : Ptr .zr) (t : AuditType)
  /-- `Signer.AuditNymRh` (`signer.go:951-1000`) -/
  | auditNymRh (key : Dyn IpkPtr) (rhIndex skIndex : Int) (signature handle : Bytes) (rand : Ptr .zr) (t : AuditType)
  /-- `SmartcardIdemixBackend.Sign` (`smartcard.go:172-192`) -/
  | cardSign (sha : Bytes → Bytes) (key : Dyn CardPtr) (digest seed : Bytes) (xt rt : S.F)
  /-- `SmartcardIdemixBackend.Verify` (`smartcard.go:195-204`) -/
  | cardVerify (sha : Bytes → Bytes) (key : Dyn IpkPtr) (nym : Ptr .g1) (signature digest : Bytes)

/-- What a call returns. -/
inductive Out (S : Suite) where
  | nothing
  | issuerKey (isk : ISK S)
  | issuerPublicKey (ipk : IPK S)
  | bases (nym eid rh : List S.G1)
  | nym (nym : S.G1) (rand : S.F)
  | blinded (b : Blinded S)
  | bytes (b : Bytes)
  | request (request blinding : Bytes)
  | signature (sig : Bytes) (md : Option (SignerMetadata S))
  | cardSignature (sig : Bytes) (nym : S.G1) (rand : S.F)

namespace Call

/-! ## What the caller does with the pointers that are returned: they are read -/

/-- A public key. -/
def readIpk (p : IpkPtr) : Prog S (IPK S) := do
  let w ← load p.w
  let h0 ← load p.pkg.h0
  let hs ← loadAll p.pkg.h
  let pw ← load p.pkg.w
  pure ⟨w, ⟨h0, hs, pw, p.pkg.count⟩, p.n⟩

/-- A blinded message. -/
def readBlinded (p : BlindedPtr) : Prog S (Blinded S) := do
  let x ← load p.c
  let y ← load p.pokC
  let z ← load p.proof.commitment
  let rs ← loadAll p.proof.responses
  pure ⟨x, y, ⟨z, rs⟩⟩

/-- What runs. -/
def prog : Call S → Prog S (Out S)
  | newKey lib names seed => do
    let p ← Aries.newKey L lib names seed
    let k ← readIpk p.pk
    let sk ← load p.sk
    pure (.issuerKey ⟨k, sk⟩)
  | newKeyFromBytes lib raw names => do
    let p ← Aries.newKeyFromBytes c lib raw names
    let k ← readIpk p.pk
    let sk ← load p.sk
    pure (.issuerKey ⟨k, sk⟩)
  | newPublicKeyFromBytes lib raw names => do
    let p ← Aries.newPublicKeyFromBytes lib raw names
    let k ← readIpk p
    pure (.issuerPublicKey k)
  | bases key isDlog rhIndex eidIndex skIndex => do
    let p ← issuerBases key isDlog rhIndex eidIndex skIndex
    let x ← loadAll p.1
    let y ← loadAll p.2.1
    let z ← loadAll p.2.2
    pure (.bases x y z)
  | makeNym sk key skIdx rNym => do
    let p ← Aries.makeNym sk key skIdx rNym
    let n ← load p.1
    let x ← load p.2
    pure (.nym n x)
  | blindMessages lib zrs w nonce s ρ => do
    let p ← blindMessagesZr L c lib zrs w nonce s ρ
    let b ← readBlinded p.1
    pure (.blinded b)
  | blindSign lib messages msgCount commitment rawSk e s => do
    let b ← Aries.blindSign c lib messages msgCount commitment rawSk e s
    pure (.bytes b)
  | unblindSign raw s => do
    let b ← Aries.unblindSign raw s
    pure (.bytes b)
  | blind sk key nonce skIdx s ρ => do
    let b ← Aries.blind L c sk key nonce skIdx s ρ
    pure (.request b.1 b.2)
  | blindVerify request key nonce skIdx => do
    Aries.blindVerify L c request key nonce skIdx
    pure .nothing
  | unblind signature blinding => do
    let b ← Aries.unblind signature blinding
    pure (.bytes b)
  | credSign lib key request attributes skIdx e s => do
    let b ← Aries.credSign L c lib key request attributes skIdx e s
    pure (.bytes b)
  | credVerify sk key credBytes attributes => do
    Aries.credVerify L c sk key credBytes attributes
    pure .nothing
  | nymSign sk nym rNym key digest skIdx nonce ρ => do
    let b ← Aries.nymSign L c sk nym rNym key digest skIdx nonce ρ
    pure (.bytes b)
  | nymVerify key nym sigBytes digest skIdx => do
    Aries.nymVerify L c key nym sigBytes digest skIdx
    pure .nothing
  | sign credBytes sk nym rNym key attributes msg rhIndex eidIndex criRaw t md ρ => do
    let p ← Aries.sign L c credBytes sk nym rNym key attributes msg rhIndex eidIndex criRaw t md ρ
    let m ← readMeta p.2
    pure (.signature p.1 m)
  | verify key signature msg attributes rhIndex eidIndex skIndex v md => do
    Aries.verify L c key signature msg attributes rhIndex eidIndex skIndex v md
    pure .nothing
  | auditNymEid key eidIndex skIndex signature enrollmentID rand t => do
    Aries.auditNymEid L c key eidIndex skIndex signature enrollmentID rand t
    pure .nothing
  | auditNymRh key rhIndex skIndex signature handle rand t => do
    Aries.auditNymRh L c key rhIndex skIndex signature handle rand t
    pure .nothing
  | cardSign sha key digest seed xt rt => do
    let p ← Aries.cardSign sha key digest seed xt rt
    let n ← load p.2.1
    let x ← load p.2.2
    pure (.cardSignature p.1 n x)
  | cardVerify sha key nym signature digest => do
    Aries.cardVerify sha key nym signature digest
    pure .nothing

/-! ## The values of the arguments -/

/-- A public key. -/
def seeIpk (r : Nat) (h : Heap S) (p : IpkPtr) : Option (IPK S) := do
  let w ← see r h p.w
  let h0 ← see r h p.pkg.h0
  let hs ← p.pkg.h.mapM (see r h)
  let pw ← see r h p.pkg.w
  pure ⟨w, ⟨h0, hs, pw, p.pkg.count⟩, p.n⟩

/-- What an interface contains. -/
def seeKey (r : Nat) (h : Heap S) : Dyn IpkPtr → Option (Dyn (IPK S))
  | .val p => (seeIpk r h p).map .val
  | .nilPtr => some .nilPtr
  | .other => some .other

/-- The same for an issuer's secret key. -/
def seeIsk (r : Nat) (h : Heap S) : Dyn IskPtr → Option (Dyn (ISK S))
  | .val p => do
    let k ← seeIpk r h p.pk
    let x ← see r h p.sk
    pure (.val ⟨k, x⟩)
  | .nilPtr => some .nilPtr
  | .other => some .other

/-- The same for a card. Its counter is a 16-bit integer. -/
def seeCard (r : Nat) (h : Heap S) : Dyn CardPtr → Option (Dyn (Card S))
  | .val p => do
    let h0 ← see r h p.h0
    let h1 ← see r h p.h1
    let h2 ← see r h p.h2
    let uid ← see r h p.uid
    let eid ← see r h p.eid
    let ctr ← see r h p.ctr
    if (Int16.ofInt ctr).toInt = ctr then pure (.val ⟨h0, h1, h2, uid, eid, p.k0, p.k1, Int16.ofInt ctr⟩) else none
  | .nilPtr => some .nilPtr
  | .other => some .other

/-- A scalar that may be absent. -/
def seeZr (r : Nat) (h : Heap S) : Option (Ptr .zr) → Option (Option S.F)
  | none => some none
  | some p => (see r h p).map some

/-- A message. -/
def seeMsg (r : Nat) (h : Heap S) (m : MsgPtr) : Option (SigMsg S) := (see r h m.fr).map fun x => ⟨x, m.idx⟩

/-- What the call should return, given the values of its arguments before it: the outcome of the model without memory.
`none` if an argument points nowhere. -/
def expected (r : Nat) (h : Heap S) : Call S → Option (Res (Out S))
  | newKey _ names seed => some ((Idemix.Aries.newKey L names seed).bind fun k => .ok (.issuerKey k))
  | newKeyFromBytes _ raw names => some ((Idemix.Aries.newKeyFromBytes S raw names).bind fun k => .ok (.issuerKey k))
  | newPublicKeyFromBytes _ raw names =>
    some ((Idemix.Aries.newPublicKeyFromBytes S raw names).bind fun k => .ok (.issuerPublicKey k))
  | bases key isDlog rhIndex eidIndex skIndex => do
    let key ← seeKey r h key
    pure ((Idemix.Aries.issuerBases key isDlog rhIndex eidIndex skIndex).bind fun x => .ok (.bases x.1 x.2.1 x.2.2))
  | makeNym sk key skIdx rNym => do
    let sk ← see r h sk
    let key ← seeKey r h key
    pure ((Idemix.Aries.makeNym sk key skIdx rNym).bind fun x => .ok (.nym x.1 x.2))
  | blindMessages _ zrs w nonce s ρ => do
    let zrs ← zrs.mapM (seeZr r h)
    let w ← see r h w
    pure ((Idemix.Aries.blindMessagesZr L zrs w nonce s ρ).bind fun x => .ok (.blinded x))
  | blindSign _ messages msgCount commitment rawSk e s => do
    let messages ← messages.mapM (seeMsg r h)
    let commitment ← see r h commitment
    pure ((Idemix.Aries.blindSign messages msgCount commitment rawSk e s).bind fun x => .ok (.bytes x))
  | unblindSign raw s => do
    let s ← see r h s
    pure ((Idemix.Aries.unblindSign S raw s).bind fun x => .ok (.bytes x))
  | blind sk key nonce skIdx s ρ => do
    let sk ← see r h sk
    let key ← seeKey r h key
    pure ((Idemix.Aries.blind L sk key nonce skIdx s ρ).bind fun x => .ok (.request x.1 x.2))
  | blindVerify request key nonce skIdx => do
    let key ← seeKey r h key
    pure ((Idemix.Aries.blindVerify L request key nonce skIdx).bind fun _ => .ok .nothing)
  | unblind signature blinding => some ((Idemix.Aries.unblind S signature blinding).bind fun x => .ok (.bytes x))
  | credSign _ key request attributes skIdx e s => do
    let key ← seeIsk r h key
    pure ((Idemix.Aries.credSign L key request attributes skIdx e s).bind fun x => .ok (.bytes x))
  | credVerify sk key credBytes attributes => do
    let sk ← see r h sk
    let key ← seeKey r h key
    pure ((Idemix.Aries.credVerify L sk key credBytes attributes).bind fun _ => .ok .nothing)
  | nymSign sk nym rNym key digest skIdx nonce ρ => do
    let sk ← see r h sk
    let nym ← see r h nym
    let rNym ← see r h rNym
    let key ← seeKey r h key
    pure ((Idemix.Aries.nymSign L sk nym rNym key digest skIdx nonce ρ).bind fun x => .ok (.bytes x))
  | nymVerify key nym sigBytes digest skIdx => do
    let key ← seeKey r h key
    let nym ← see r h nym
    pure ((Idemix.Aries.nymVerify L key nym sigBytes digest skIdx).bind fun _ => .ok .nothing)
  | sign credBytes sk nym rNym key attributes msg rhIndex eidIndex criRaw t md ρ => do
    let sk ← see r h sk
    let nym ← see r h nym
    let rNym ← see r h rNym
    let key ← seeKey r h key
    let md ← seeMeta r h md
    pure ((Idemix.Aries.sign L credBytes sk nym rNym key attributes msg rhIndex eidIndex criRaw t md ρ).bind fun x =>
      .ok (.signature x.1 x.2))
  | verify key signature msg attributes rhIndex eidIndex skIndex v md => do
    let key ← seeKey r h key
    let md ← seeMeta r h md
    pure ((Idemix.Aries.verify L key signature msg attributes rhIndex eidIndex skIndex v md).bind fun _ => .ok .nothing)
  | auditNymEid key eidIndex skIndex signature enrollmentID rand t => do
    let key ← seeKey r h key
    let rand ← see r h rand
    pure ((Idemix.Aries.auditNymEid L key eidIndex skIndex signature enrollmentID rand t).bind fun _ => .ok .nothing)
  | auditNymRh key rhIndex skIndex signature handle rand t => do
    let key ← seeKey r h key
    let rand ← see r h rand
    pure ((Idemix.Aries.auditNymRh L key rhIndex skIndex signature handle rand t).bind fun _ => .ok .nothing)
  | cardSign sha key digest seed xt rt => do
    let key ← seeCard r h key
    pure ((Idemix.Aries.cardSign sha key digest seed xt rt).bind fun x => .ok (.cardSignature x.1 x.2.1 x.2.2))
  | cardVerify sha key nym signature digest => do
    let key ← seeKey r h key
    let nym ← see r h nym
    pure ((Idemix.Aries.cardVerify sha key nym signature digest).bind fun _ => .ok .nothing)

end Call

/-! ## Proofs -/

variable {L c} {r : Nat} {h h' h₀ : Heap S}

namespace Call

theorem seeIpk_at {p : IpkPtr} {v : IPK S} (e : seeIpk r h p = some v) : IpkAt r h p v := by
  simp only [seeIpk, Option.bind_eq_bind, Option.bind_eq_some_iff, Option.pure_def, Option.some.injEq] at e
  obtain ⟨w, hw, h0, hh0, hs, hhs, pw, hpw, rfl⟩ := e
  exact ⟨see_at hw, ⟨see_at hh0, mapM_rel (R := At (k := .g1) r h) (fun _ _ e => see_at e) hhs, see_at hpw, rfl⟩, rfl⟩

theorem seeKey_at {p : Dyn IpkPtr} {v : Dyn (IPK S)} (e : seeKey r h p = some v) : DynIpkAt r h p v := by
  cases p with
  | val p =>
    simp only [seeKey, Option.map_eq_some_iff] at e
    obtain ⟨v, e, rfl⟩ := e
    exact seeIpk_at e
  | nilPtr => cases e; trivial
  | other => cases e; trivial

theorem seeIsk_at {p : Dyn IskPtr} {v : Dyn (ISK S)} (e : seeIsk r h p = some v) : DynIskAt r h p v := by
  cases p with
  | val p =>
    simp only [seeIsk, Option.bind_eq_bind, Option.bind_eq_some_iff, Option.pure_def, Option.some.injEq] at e
    obtain ⟨k, hk, x, hx, rfl⟩ := e
    exact ⟨seeIpk_at hk, see_at hx⟩
  | nilPtr => cases e; trivial
  | other => cases e; trivial

theorem seeCard_at {p : Dyn CardPtr} {v : Dyn (Card S)} (e : seeCard r h p = some v) : DynCardAt r h p v := by
  cases p with
  | val p =>
    simp only [seeCard, Option.bind_eq_bind, Option.bind_eq_some_iff, Option.pure_def] at e
    obtain ⟨a0, h0, a1, h1, a2, h2, u, hu, i, hi, k, hk, e⟩ := e
    split at e
    · rename_i ek
      cases e
      exact ⟨see_at h0, see_at h1, see_at h2, see_at hu, see_at hi, rfl, rfl, by
        show At (k := .int) r h p.ctr (Int16.ofInt k).toInt
        rw [ek]; exact see_at hk⟩
    · cases e
  | nilPtr => cases e; trivial
  | other => cases e; trivial

theorem seeZr_at {p : Option (Ptr .zr)} {v : Option S.F} (e : seeZr r h p = some v) : OptZrAt r h p v := by
  cases p with
  | none => cases e; trivial
  | some p =>
    simp only [seeZr, Option.map_eq_some_iff] at e
    obtain ⟨v, e, rfl⟩ := e
    exact see_at e

theorem seeMsg_at {p : MsgPtr} {v : SigMsg S} (e : seeMsg r h p = some v) : MsgAt r h p v := by
  simp only [seeMsg, Option.map_eq_some_iff] at e
  obtain ⟨v, e, rfl⟩ := e
  exact ⟨see_at e, rfl⟩

theorem gives_readIpk (f : From r h h) {p : IpkPtr} {v : IPK S} (a : IpkAt r h p v) :
    Gives r h h (readIpk p) (.ok v) fun _ a b => a = b := by
  have hw := a.w
  have h0 := a.pkg.h0
  have hs := a.pkg.hs
  have hpw := a.pkg.w
  get (gives_load hw)
  get (gives_load h0)
  get (gives_loadAll f hs)
  get (gives_load hpw)
  exact Gives.done fun _ _ => by
    rw [a.n, a.pkg.count]

theorem gives_readBlinded (f : From r h h) {p : BlindedPtr} {v : Blinded S} (a : BlindedAt r h p v) :
    Gives r h h (readBlinded p) (.ok v) fun _ a b => a = b := by
  get (gives_load a.c)
  get (gives_load a.pokC)
  get (gives_load a.proof.commitment)
  get (gives_loadAll f a.proof.responses)
  exact Gives.done fun _ _ => rfl

/-- A call whose result is a value. -/
theorem gives_map {α : Type} (f : From r h h) {p : Prog S α} {x : Res α} (g : α → Out S)
    (a : Gives r h h p x fun _ a b => a = b) :
    Gives r h h (p >>= fun a => pure (g a)) (x.bind fun a => .ok (g a)) fun _ a b => a = b :=
  Gives.bind f a fun _ _ _ _ _ e => Gives.done fun _ _ => by rw [e]

/-- The calls on the heap. -/
theorem gives (f : From r h h) (hc : ConstsAt r h c) (call : Call S) {x : Res (Out S)} (hx : call.expected L r h = some x) :
    Gives r h h (call.prog L c) x fun _ a b => a = b := by
  cases call <;> simp only [expected, Option.bind_eq_bind, Option.bind_eq_some_iff, Option.pure_def, Option.some.injEq] at hx
  case newKey lib names seed =>
    subst hx
    try_run (gives_newKey (L := L) f lib names seed) with p v hp
    get (gives_readIpk f hp.pk)
    get (gives_load hp.sk)
    exact Gives.done fun _ _ => rfl
  case newKeyFromBytes lib raw names =>
    subst hx
    try_run (gives_newKeyFromBytes f hc lib raw names) with p v hp
    get (gives_readIpk f hp.pk)
    get (gives_load hp.sk)
    exact Gives.done fun _ _ => rfl
  case newPublicKeyFromBytes lib raw names =>
    subst hx
    try_run (gives_newPublicKeyFromBytes f lib raw names) with p v hp
    get (gives_readIpk f hp)
    exact Gives.done fun _ _ => rfl
  case bases key isDlog rhIndex eidIndex skIndex =>
    obtain ⟨k, hk, rfl⟩ := hx
    refine Gives.bind f (gives_issuerBases f (seeKey_at hk) isDlog rhIndex eidIndex skIndex) fun p v h' _ f' a => ?_
    obtain ⟨a1, a2, a3⟩ := a
    have a1' : AtAll (k := .g1) r h' p.1 v.1 := a1
    have a2' : AtAll (k := .g1) r h' p.2.1 v.2.1 := a2
    have a3' : AtAll (k := .g1) r h' p.2.2 v.2.2 := a3
    replace f := f'.self
    refine Gives.seq f (gives_loadAll f a1') fun _ h₁ f₁ e₁ => ?_
    refine Gives.seq f₁.self (gives_loadAll f₁.self (AtAll.mono a2' f₁.ext)) fun _ h₂ f₂ e₂ => ?_
    refine Gives.seq f₂.self (gives_loadAll f₂.self (AtAll.mono a3' (f₁.trans f₂).ext)) fun _ h₃ f₃ e₃ => ?_
    cases e₁; cases e₂; cases e₃
    exact Gives.done fun _ _ => rfl
  case makeNym sk key skIdx ρ =>
    obtain ⟨s, hs, k, hk, rfl⟩ := hx
    refine Gives.bind f (gives_makeNym f (see_at hs) (seeKey_at hk) skIdx ρ) fun p v h' _ f' a => ?_
    obtain ⟨a1, a2⟩ := a
    replace f := f'.self
    get (gives_load a1)
    get (gives_load a2)
    exact Gives.done fun _ _ => rfl
  case blindMessages lib zrs w nonce s ρ =>
    obtain ⟨z, hz, w, hw, rfl⟩ := hx
    refine Gives.bind f (gives_blindMessagesZr (L := L) f hc lib (mapM_rel (R := OptZrAt r h) (fun _ _ e => seeZr_at e) hz)
      (see_at hw) nonce s ρ) fun p v h' _ f' a => ?_
    have a1 := a.1
    replace f := f'.self
    get (gives_readBlinded f a1)
    exact Gives.done fun _ _ => rfl
  case blindSign lib messages msgCount commitment rawSk e s =>
    obtain ⟨m, hm, k, hk, rfl⟩ := hx
    exact gives_map f _ (gives_blindSign f hc lib (mapM_rel (R := MsgAt r h) (fun _ _ e => seeMsg_at e) hm) msgCount
      (see_at hk) rawSk e s)
  case unblindSign raw s =>
    obtain ⟨s, hs, rfl⟩ := hx
    exact gives_map f _ (gives_unblindSign f raw (see_at hs))
  case blind sk key nonce skIdx s ρ =>
    obtain ⟨x, hs, k, hk, rfl⟩ := hx
    exact gives_map f (fun x => .request x.1 x.2) (gives_blind f hc (see_at hs) (seeKey_at hk) nonce skIdx s ρ)
  case blindVerify request key nonce skIdx =>
    obtain ⟨k, hk, rfl⟩ := hx
    exact gives_map f (fun _ => .nothing) (gives_blindVerify f hc request (seeKey_at hk) nonce skIdx)
  case unblind signature blinding =>
    subst hx
    exact gives_map f _ (gives_unblind f signature blinding)
  case credSign lib key request attributes skIdx e s =>
    obtain ⟨k, hk, rfl⟩ := hx
    exact gives_map f _ (gives_credSign f hc lib (seeIsk_at hk) request attributes skIdx e s)
  case credVerify sk key credBytes attributes =>
    obtain ⟨s, hs, k, hk, rfl⟩ := hx
    exact gives_map f (fun _ => .nothing) (gives_credVerify f hc (see_at hs) (seeKey_at hk) credBytes attributes)
  case nymSign sk nym rNym key digest skIdx nonce ρ =>
    obtain ⟨s, hs, n, hn, rn, hr, k, hk, rfl⟩ := hx
    exact gives_map f _ (gives_nymSign f hc (see_at hs) (see_at hn) (see_at hr) (seeKey_at hk) digest skIdx nonce ρ)
  case nymVerify key nym sigBytes digest skIdx =>
    obtain ⟨k, hk, n, hn, rfl⟩ := hx
    exact gives_map f (fun _ => .nothing) (gives_nymVerify f hc (seeKey_at hk) (see_at hn) sigBytes digest skIdx)
  case sign credBytes sk nym rNym key attributes msg rhIndex eidIndex criRaw t md ρ =>
    obtain ⟨s, hs, n, hn, rn, hr, k, hk, m, hm, rfl⟩ := hx
    refine Gives.bind f (gives_sign (L := L) f hc credBytes (see_at hs) (see_at hn) (see_at hr) (seeKey_at hk) attributes msg
      rhIndex eidIndex criRaw t (seeMeta_at hm) ρ) fun p v h' _ f' a => ?_
    obtain ⟨a1, a2⟩ := a
    replace f := f'.self
    get (gives_readMeta f a2)
    exact Gives.done fun _ _ => by rw [a1]
  case verify key signature msg attributes rhIndex eidIndex skIndex v md =>
    obtain ⟨k, hk, m, hm, rfl⟩ := hx
    exact gives_map f (fun _ => .nothing) (gives_verify f hc (seeKey_at hk) signature msg attributes rhIndex eidIndex skIndex v
      (seeMeta_at hm))
  case auditNymEid key eidIndex skIndex signature enrollmentID rand t =>
    obtain ⟨k, hk, m, hm, rfl⟩ := hx
    exact gives_map f (fun _ => .nothing) (gives_auditNymEid f hc (seeKey_at hk) eidIndex skIndex signature enrollmentID
      (see_at hm) t)
  case auditNymRh key rhIndex skIndex signature handle rand t =>
    obtain ⟨k, hk, m, hm, rfl⟩ := hx
    exact gives_map f (fun _ => .nothing) (gives_auditNymRh f hc (seeKey_at hk) rhIndex skIndex signature handle (see_at hm) t)
  case cardSign sha key digest seed xt rt =>
    obtain ⟨k, hk, rfl⟩ := hx
    refine Gives.bind f (gives_cardSign f sha (seeCard_at hk) digest seed xt rt) fun p v h' _ f' a => ?_
    obtain ⟨a1, a2, a3⟩ := a
    replace f := f'.self
    get (gives_load a2)
    get (gives_load a3)
    exact Gives.done fun _ _ => by rw [a1]
  case cardVerify sha key nym signature digest =>
    obtain ⟨k, hk, n, hn, rfl⟩ := hx
    exact gives_map f (fun _ => .nothing) (gives_cardVerify f sha (seeKey_at hk) (see_at hn) signature digest)

end Call

end Idemix.Mem.Aries
