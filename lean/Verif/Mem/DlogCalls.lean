import Verif.Mem.DlogVerifyRefine
import Verif.Mem.Interleave

/-!
# Calls of the API of the dlog scheme, with arguments in memory
-/

namespace Idemix.Mem.Dlog

open Idemix.Dlog (IssuerPublicKey IssuerKey CredRequest Credential NymSignature Signature AttrNym CRI SigType VerType
  NymRand SigRand AuditData SignerMetadata IpkMarshal)

variable {S : Suite} (T : Translator S) (c : Consts)

/-- Calls of `bccsp/schemes/dlog/crypto` and `bccsp/schemes/weak-bb`. Keys, pseudonyms, attributes, openings and the field
`Hash` of issuer public keys are pointers here, which calls may share in any way. Random choices of the call are arguments. -/
inductive Call (S : Suite) where
  /-- `Issuer.NewPublicKeyFromBytes` after the bytes have been parsed to a new object (`bridge/issuer.go:106-120`): `SetHash` and
  `Check`. The messages of its errors are those of the causes here. -/
  | importKey (m : IpkMarshal) (parsed : IssuerPublicKey)
  /-- `Idemix.MakeNym` (`util.go:38-57`) -/
  | makeNym (sk : Ptr .zr) (ipk : Ipk) (randNym : S.F)
  /-- `Idemix.NewCredRequest` (`credrequest.go:36-82`) -/
  | newCredRequest (sk : Ptr .zr) (nonce : Option Bytes) (ipk : Ipk) (rSk : S.F)
  /-- `CredRequest.Check` (`credrequest.go:85-125`) -/
  | checkRequest (req : CredRequest) (ipk : Ipk)
  /-- `Idemix.NewCredential` (`credential.go:41-145`) -/
  | newCredential (isk : Bytes) (ipk : Ipk) (req : CredRequest) (attrs : List (Ptr .zr)) (e s : S.F)
  /-- `Credential.Ver` (`credential.go:150-208`) -/
  | verCredential (cred : Credential) (sk : Ptr .zr) (ipk : Ipk)
  /-- `Idemix.NewNymSignature` (`nymsignature.go:20-81`) -/
  | newNymSignature (sk : Ptr .zr) (nym : Ptr .g1) (rNym : Ptr .zr) (ipk : Ipk) (msg : Bytes) (ρ : NymRand S)
  /-- `NymSignature.Ver` (`nymsignature.go:84-128`) -/
  | verNymSignature (sig : NymSignature) (nym : Ptr .g1) (ipk : Ipk) (msg : Bytes)
  /-- `Idemix.NewSignature` (`signature.go:55-232`) -/
  | newSignature (cred : Credential) (sk : Ptr .zr) (nym : Ptr .g1) (rNym : Ptr .zr) (ipk : Ipk) (disclosure msg : Bytes)
      (rhIndex eidIndex : Int) (cri : CRI) (ρ : SigRand S) (sigType : SigType) (md : Option MetaPtr)
  /-- `Signature.Ver` (`signature.go:801-1193`) -/
  | verSignature (sig : Signature) (disclosure : Bytes) (ipk : Option Ipk) (msg : Bytes) (values : List (Option (Ptr .zr)))
      (rhIndex eidIndex : Int) (verType : VerType) (md : Option MetaPtr)
  /-- `Signature.AuditNymEid` and `AuditNymRh` (`signature.go:711-799`) -/
  | auditSigNym (an : Option AttrNym) (ipk : Ipk) (attr : Ptr .zr) (idx : Int) (rand : Ptr .zr)
  /-- `NymEID.AuditNymEid` and `NymRH.AuditNymRh` (`nymeid.go:18-61`, `nymrh.go:18-61`) -/
  | auditRawNym (nymBytes : Bytes) (ipk : Ipk) (attr : Ptr .zr) (idx : Int) (rand : Ptr .zr)
  /-- `WbbSign` (`weak-bb.go:27-34`) -/
  | wbbSign (sk m : Ptr .zr)
  /-- `WbbVerify` (`weak-bb.go:37-52`) -/
  | wbbVerify (pk : Option (Ptr .g2)) (sig : Option (Ptr .g1)) (m : Option (Ptr .zr))

/-- What a call returns. -/
inductive Out (S : Suite) where
  | nothing
  | key (ipk : IssuerPublicKey)
  | nym (nym : S.G1) (rand : S.F)
  | request (req : CredRequest)
  | credential (cred : Credential)
  | nymSignature (sig : NymSignature)
  | signature (sig : Signature) (md : Option (SignerMetadata S))
  | point (P : S.G1)

namespace Call

/-! ## What the caller does with the pointers that are returned: they are read -/

/-- The audit data. -/
def readAudit : Option AuditPtr → Prog S (Option (AuditData S))
  | none => pure none
  | some ⟨none, rand, attr⟩ => do
    let ρ ← load rand
    let a ← load attr
    pure (some ⟨none, ρ, a⟩)
  | some ⟨some nym, rand, attr⟩ => do
    let n ← load nym
    let ρ ← load rand
    let a ← load attr
    pure (some ⟨some n, ρ, a⟩)

/-- The metadata. -/
def readMeta : Option MetaPtr → Prog S (Option (SignerMetadata S))
  | none => pure none
  | some m => do
    let e ← readAudit m.eidNymAuditData
    let h ← readAudit m.rhNymAuditData
    pure (some ⟨e, h, m.eidNym, m.rhNym⟩)

/-- What runs. -/
def prog : Call S → Prog S (Out S)
  | importKey m parsed => do
    let hash ← new .bytes parsed.hash
    setHash m ⟨parsed, hash⟩
    check T c m ⟨parsed, hash⟩
    let b ← load hash
    pure (.key { parsed with hash := b })
  | makeNym sk ipk randNym => do
    let (nym, rand) ← Dlog.makeNym T sk ipk randNym
    let n ← load nym
    let ρ ← load rand
    pure (.nym n ρ)
  | newCredRequest sk nonce ipk rSk => do
    let req ← Dlog.newCredRequest T sk nonce ipk rSk
    pure (.request req)
  | checkRequest req ipk => do
    Dlog.checkRequest T req ipk
    pure .nothing
  | newCredential isk ipk req attrs e s => do
    let cred ← Dlog.newCredential T c isk ipk req attrs e s
    pure (.credential cred)
  | verCredential cred sk ipk => do
    Dlog.verCredential T c cred sk ipk
    pure .nothing
  | newNymSignature sk nym rNym ipk msg ρ => do
    let sig ← Dlog.newNymSignature T sk nym rNym ipk msg ρ
    pure (.nymSignature sig)
  | verNymSignature sig nym ipk msg => do
    Dlog.verNymSignature T sig nym ipk msg
    pure .nothing
  | newSignature cred sk nym rNym ipk disclosure msg rhIndex eidIndex cri ρ sigType md => do
    let (sig, m) ← Dlog.newSignature T cred sk nym rNym ipk disclosure msg rhIndex eidIndex cri ρ sigType md
    let m ← readMeta m
    pure (.signature sig m)
  | verSignature sig disclosure ipk msg values rhIndex eidIndex verType md => do
    Dlog.verSignature T c sig disclosure ipk msg values rhIndex eidIndex verType md
    pure .nothing
  | auditSigNym an ipk attr idx rand => do
    Dlog.auditSigNym T an ipk attr idx rand
    pure .nothing
  | auditRawNym nymBytes ipk attr idx rand => do
    Dlog.auditRawNym T nymBytes ipk attr idx rand
    pure .nothing
  | wbbSign sk m => do
    let p ← Dlog.wbbSign c sk m
    let P ← load p
    pure (.point P)
  | wbbVerify pk sig m => do
    Dlog.wbbVerify c pk sig m
    pure .nothing

/-! ## The values of the arguments -/

/-- What the goroutine `r` finds at an address: in its own part of the memory or in the shared part. -/
def see {k : Kind} (r : Nat) (h : Heap S) (p : Ptr k) : Option (Val S k) :=
  if p.region = 0 ∨ p.region = r then h.get p else none

/-- The same for a pointer that may be nil. -/
def seeOpt {k : Kind} (r : Nat) (h : Heap S) : Option (Ptr k) → Option (Option (Val S k))
  | none => some none
  | some p => (see r h p).map some

/-- An issuer public key. -/
def seeIpk (r : Nat) (h : Heap S) (p : Ipk) : Option IssuerPublicKey :=
  (see r h p.hash).map fun b => { p.fields with hash := b }

/-- The same for a pointer that may be nil. -/
def seeOptIpk (r : Nat) (h : Heap S) : Option Ipk → Option (Option IssuerPublicKey)
  | none => some none
  | some p => (seeIpk r h p).map some

/-- Audit data. -/
def seeAudit (r : Nat) (h : Heap S) : Option AuditPtr → Option (Option (AuditData S))
  | none => some none
  | some p => do
    let n ← seeOpt r h p.nym
    let ρ ← see r h p.rand
    let a ← see r h p.attr
    pure (some ⟨n, ρ, a⟩)

/-- Metadata. -/
def seeMeta (r : Nat) (h : Heap S) : Option MetaPtr → Option (Option (SignerMetadata S))
  | none => some none
  | some p => do
    let e ← seeAudit r h p.eidNymAuditData
    let ρ ← seeAudit r h p.rhNymAuditData
    pure (some ⟨e, ρ, p.eidNym, p.rhNym⟩)

/-- What the call should return, given the values of its arguments before it: the outcome of the model without memory.
`none` if an argument points nowhere. -/
def expected (r : Nat) (h : Heap S) : Call S → Option (Res (Out S))
  | importKey m parsed =>
    some ((Idemix.Dlog.setHash (S := S) m parsed).bind fun k => (k.check T m).bind fun k => .ok (.key k))
  | makeNym sk ipk randNym => do
    let sk ← see r h sk
    let ipk ← seeIpk r h ipk
    pure ((Idemix.Dlog.makeNym T sk ipk randNym).bind fun x => .ok (.nym x.1 x.2))
  | newCredRequest sk nonce ipk rSk => do
    let sk ← see r h sk
    let ipk ← seeIpk r h ipk
    pure ((Idemix.Dlog.newCredRequest T sk nonce ipk rSk).bind fun x => .ok (.request x))
  | checkRequest req ipk => do
    let ipk ← seeIpk r h ipk
    pure ((req.check T ipk).bind fun _ => .ok .nothing)
  | newCredential isk ipk req attrs e s => do
    let ipk ← seeIpk r h ipk
    let attrs ← attrs.mapM (see r h)
    pure ((Idemix.Dlog.newCredential T ⟨isk, ipk⟩ req attrs e s).bind fun x => .ok (.credential x))
  | verCredential cred sk ipk => do
    let sk ← see r h sk
    let ipk ← seeIpk r h ipk
    pure ((cred.ver T sk ipk).bind fun _ => .ok .nothing)
  | newNymSignature sk nym rNym ipk msg ρ => do
    let sk ← see r h sk
    let nym ← see r h nym
    let rNym ← see r h rNym
    let ipk ← seeIpk r h ipk
    pure ((Idemix.Dlog.newNymSignature T sk nym rNym ipk msg ρ).bind fun x => .ok (.nymSignature x))
  | verNymSignature sig nym ipk msg => do
    let nym ← see r h nym
    let ipk ← seeIpk r h ipk
    pure ((sig.ver T nym ipk msg).bind fun _ => .ok .nothing)
  | newSignature cred sk nym rNym ipk disclosure msg rhIndex eidIndex cri ρ sigType md => do
    let sk ← see r h sk
    let nym ← see r h nym
    let rNym ← see r h rNym
    let ipk ← seeIpk r h ipk
    let md ← seeMeta r h md
    pure ((Idemix.Dlog.newSignature T cred sk nym rNym ipk disclosure msg rhIndex eidIndex cri ρ sigType md).bind fun x =>
      .ok (.signature x.1 x.2))
  | verSignature sig disclosure ipk msg values rhIndex eidIndex verType md => do
    let ipk ← seeOptIpk r h ipk
    let values ← values.mapM (seeOpt r h)
    let md ← seeMeta r h md
    pure ((sig.ver T disclosure ipk msg values rhIndex eidIndex () 0 verType md).bind fun _ => .ok .nothing)
  | auditSigNym an ipk attr idx rand => do
    let ipk ← seeIpk r h ipk
    let attr ← see r h attr
    let rand ← see r h rand
    pure ((Idemix.Dlog.auditSigNym T an ipk attr idx rand).bind fun _ => .ok .nothing)
  | auditRawNym nymBytes ipk attr idx rand => do
    let ipk ← seeIpk r h ipk
    let attr ← see r h attr
    let rand ← see r h rand
    pure ((Idemix.Dlog.auditRawNym T nymBytes ipk attr idx rand).bind fun _ => .ok .nothing)
  | wbbSign sk m => do
    let sk ← see r h sk
    let m ← see r h m
    pure (.ok (.point (WeakBB.sign sk m)))
  | wbbVerify pk sig m => do
    let pk ← seeOpt r h pk
    let sig ← seeOpt r h sig
    let m ← seeOpt r h m
    pure ((WeakBB.verify pk sig m).bind fun _ => .ok .nothing)

end Call

/-! ## Proofs -/

variable {T c} {r : Nat} {h h' h₀ : Heap S}

namespace Call

theorem see_at {k : Kind} {p : Ptr k} {v : Val S k} (e : see r h p = some v) : At r h p v := by
  unfold see at e
  split at e
  · exact ⟨Or.symm ‹_›, e⟩
  · cases e

theorem at_see {k : Kind} {p : Ptr k} {v : Val S k} (e : At r h p v) : see r h p = some v := by
  unfold see
  rw [if_pos e.visible.symm]; exact e.get

theorem seeOpt_at {k : Kind} {p : Option (Ptr k)} {v : Option (Val S k)} (e : seeOpt r h p = some v) : OptAt r h p v := by
  cases p with
  | none => cases e; exact trivial
  | some p =>
    simp only [seeOpt, Option.map_eq_some_iff] at e
    obtain ⟨v, e, rfl⟩ := e
    exact see_at e

theorem seeIpk_at {p : Ipk} {v : IssuerPublicKey} (e : seeIpk r h p = some v) : IpkAt r h p v := by
  simp only [seeIpk, Option.map_eq_some_iff] at e
  obtain ⟨b, e, rfl⟩ := e
  exact ⟨b, rfl, see_at e⟩

theorem seeOptIpk_at {p : Option Ipk} {v : Option IssuerPublicKey} (e : seeOptIpk r h p = some v) : OptIpkAt r h p v := by
  cases p with
  | none => cases e; exact trivial
  | some p =>
    simp only [seeOptIpk, Option.map_eq_some_iff] at e
    obtain ⟨v, e, rfl⟩ := e
    exact seeIpk_at e

theorem seeAudit_at {p : Option AuditPtr} {v : Option (AuditData S)} (e : seeAudit r h p = some v) : OptAuditAt r h p v := by
  cases p with
  | none => cases e; exact trivial
  | some p =>
    simp only [seeAudit, Option.bind_eq_bind, Option.bind_eq_some_iff, Option.pure_def, Option.some.injEq] at e
    obtain ⟨n, hn, ρ, hρ, a, ha, rfl⟩ := e
    exact ⟨seeOpt_at hn, see_at hρ, see_at ha⟩

theorem seeMeta_at {p : Option MetaPtr} {v : Option (SignerMetadata S)} (e : seeMeta r h p = some v) : OptMetaAt r h p v := by
  cases p with
  | none => cases e; exact trivial
  | some p =>
    simp only [seeMeta, Option.bind_eq_bind, Option.bind_eq_some_iff, Option.pure_def, Option.some.injEq] at e
    obtain ⟨n, hn, ρ, hρ, rfl⟩ := e
    exact ⟨seeAudit_at hn, seeAudit_at hρ, rfl, rfl⟩

theorem mapM_rel {α β : Type} {f : α → Option β} {R : α → β → Prop} (hf : ∀ a b, f a = some b → R a b) {as : List α}
    {bs : List β} (e : as.mapM f = some bs) : List.Forall₂ R as bs := by
  induction as generalizing bs with
  | nil => simp only [List.mapM_nil, Option.pure_def, Option.some.injEq] at e; subst e; exact .nil
  | cons a as ih =>
    simp only [List.mapM_cons, Option.bind_eq_bind, Option.bind_eq_some_iff, Option.pure_def, Option.some.injEq] at e
    obtain ⟨b, hb, bs, hbs, rfl⟩ := e
    exact .cons (hf _ _ hb) (ih hbs)

theorem gives_readAudit (f : From r h h) {p : Option AuditPtr} {v : Option (AuditData S)} (a : OptAuditAt r h p v) :
    Gives r h h (readAudit p) (.ok v) (fun _ a b => a = b) := by
  cases p <;> cases v <;> simp only [OptAuditAt] at a
  · exact Gives.done fun _ _ => rfl
  · rename_i p v
    obtain ⟨nym, rand, attr⟩ := p
    obtain ⟨vn, vr, va⟩ := v
    obtain ⟨a1, a2, a3⟩ := a
    cases nym <;> cases vn <;> simp only [OptAt] at a1
    · get (gives_load a2)
      get (gives_load a3)
      exact Gives.done fun _ _ => rfl
    · get (gives_load a1)
      get (gives_load a2)
      get (gives_load a3)
      exact Gives.done fun _ _ => rfl

theorem gives_readMeta (f : From r h h) {p : Option MetaPtr} {v : Option (SignerMetadata S)} (a : OptMetaAt r h p v) :
    Gives r h h (readMeta p) (.ok v) (fun _ a b => a = b) := by
  cases p <;> cases v <;> simp only [OptMetaAt] at a
  · exact Gives.done fun _ _ => rfl
  · rename_i p v
    obtain ⟨e, ρ, n1, n2⟩ := p
    obtain ⟨ve, vρ, v1, v2⟩ := v
    obtain ⟨a1, a2, a3, a4⟩ := a
    cases a3
    cases a4
    get (gives_readAudit f a1)
    get (gives_readAudit f a2)
    exact Gives.done fun _ _ => rfl

/-- A call whose result is a value. -/
theorem gives_map {α : Type} (f : From r h h) {p : Prog S α} {x : Res α} (g : α → Out S)
    (a : Gives r h h p x fun _ a b => a = b) :
    Gives r h h (p >>= fun a => pure (g a)) (x.bind fun a => .ok (g a)) fun _ a b => a = b :=
  Gives.bind f a fun _ _ _ _ _ e => Gives.done fun _ _ => by rw [e]

theorem gives_setHash (f : From r h₀ h) (m : IpkMarshal) (p : Ipk) {b : Bytes} (hn : New (k := .bytes) r h₀ h p.hash b)
    (b' : Bytes) :
    Gives r h₀ h (setHash m p) (Idemix.Dlog.setHash (S := S) m { p.fields with hash := b' })
      (fun h' _ k => k = { p.fields with hash := k.hash } ∧ New (k := .bytes) r h₀ h' p.hash k.hash) := by
  refine Gives.write (k := .bytes) hn.1 hn.2 fun h₁ e₁ => ?_
  have n₁ : New (k := .bytes) r h₀ (h₁.set (k := .bytes) p.hash ([] : Bytes)) p.hash ([] : Bytes) :=
    New.set_self (hn.mono e₁.ext)
  have f₁ : From r h₀ (h₁.set (k := .bytes) p.hash ([] : Bytes)) := (f.env e₁).set hn.2 _
  refine Gives.read (k := .bytes) n₁.1 fun h₂ e₂ => ?_
  have e : Idemix.Dlog.setHash (S := S) m { p.fields with hash := b' } = (m { p.fields with hash := [] }).bind fun ser =>
    .ok { p.fields with hash := S.zrBytes (S.hashToZr ser) } := rfl
  rw [e]
  cases m { p.fields with hash := [] } with
  | ok ser => exact (gives_set (k := .bytes) (n₁.1.mono e₂.ext) hn.2).to fun _ _ n => ⟨rfl, n⟩
  | err _ => exact Gives.fail
  | panic => exact Gives.panic

/-- The calls on the heap. -/
theorem gives (f : From r h h) (hc : ConstsAt r h c) (call : Call S) {x : Res (Out S)} (hx : call.expected T r h = some x) :
    Gives r h h (call.prog T c) x fun _ a b => a = b := by
  cases call <;> simp only [expected, Option.bind_eq_bind, Option.bind_eq_some_iff, Option.pure_def, Option.some.injEq] at hx
  case importKey m parsed =>
    subst hx
    refine Gives.seq₀ f (gives_new (k := .bytes) f parsed.hash) fun p h₁ f₁ n => ?_
    refine Gives.bind₀ f₁ (gives_setHash f₁ m ⟨parsed, p⟩ n parsed.hash) fun _ k h₂ _ f₂ a => ?_
    obtain ⟨ek, n⟩ := a
    rw [ek, check_eq]
    refine Gives.bind₀ f₂ (Gives.callBind f₂ (gives_checkKey f₂.self (hc.mono f₂.ext) ⟨parsed, p⟩)
      fun _ _ h₃ _ f₃ _ => gives_setHash (f₂.trans f₃) m ⟨parsed, p⟩ (n.mono f₃.ext) _) fun _ k h₃ _ f₃ a => ?_
    obtain ⟨ek, n⟩ := a
    refine Gives.seq₀ f₃ (gives_load n.1) fun _ h₄ f₄ e => ?_
    exact Gives.done fun _ _ => by rw [e, ek]
  case makeNym sk ipk ρ =>
    obtain ⟨k, hk, i, hi, rfl⟩ := hx
    refine Gives.bind f (gives_makeNym f (see_at hk) (seeIpk_at hi) ρ) fun p v h' _ f' a => ?_
    obtain ⟨a1, a2⟩ := a
    replace f := f'.self
    get (gives_load a1)
    get (gives_load a2)
    exact Gives.done fun _ _ => rfl
  case newCredRequest sk nonce ipk ρ =>
    obtain ⟨k, hk, i, hi, rfl⟩ := hx
    exact gives_map f _ (gives_newCredRequest f (see_at hk) nonce (seeIpk_at hi) ρ)
  case checkRequest req ipk =>
    obtain ⟨i, hi, rfl⟩ := hx
    exact gives_map f (fun _ => .nothing) (gives_checkRequest f req (seeIpk_at hi))
  case newCredential isk ipk req attrs e s =>
    obtain ⟨i, hi, as', ha, rfl⟩ := hx
    exact gives_map f _ (gives_newCredential f hc isk (seeIpk_at hi) req (mapM_rel (R := At (k := .zr) r h) (fun _ _ e => see_at e) ha) e s)
  case verCredential cred sk ipk =>
    obtain ⟨k, hk, i, hi, rfl⟩ := hx
    exact gives_map f (fun _ => .nothing) (gives_verCredential f hc cred (see_at hk) (seeIpk_at hi))
  case newNymSignature sk nym rNym ipk msg ρ =>
    obtain ⟨k, hk, n, hn, rn, hr, i, hi, rfl⟩ := hx
    exact gives_map f _ (gives_newNymSignature f (see_at hk) (see_at hn) (see_at hr) (seeIpk_at hi) msg ρ)
  case verNymSignature sig nym ipk msg =>
    obtain ⟨n, hn, i, hi, rfl⟩ := hx
    exact gives_map f (fun _ => .nothing) (gives_verNymSignature f sig (see_at hn) (seeIpk_at hi) msg)
  case newSignature cred sk nym rNym ipk disclosure msg rhIndex eidIndex cri ρ sigType md =>
    obtain ⟨k, hk, n, hn, rn, hr, i, hi, m, hm, rfl⟩ := hx
    refine Gives.bind f (gives_newSignature f cred (see_at hk) (see_at hn) (see_at hr) (seeIpk_at hi) disclosure msg rhIndex
      eidIndex cri ρ sigType (seeMeta_at hm)) fun p v h' _ f' a => ?_
    obtain ⟨a1, a2⟩ := a
    replace f := f'.self
    get (gives_readMeta f a2)
    exact Gives.done fun _ _ => by rw [a1]
  case verSignature sig disclosure ipk msg values rhIndex eidIndex verType md =>
    obtain ⟨i, hi, vs, hv, m, hm, rfl⟩ := hx
    exact gives_map f (fun _ => .nothing) (gives_verSignature f hc sig disclosure (seeOptIpk_at hi) msg
      (mapM_rel (R := OptAt (k := .zr) r h) (fun _ _ e => seeOpt_at e) hv) rhIndex eidIndex () 0 verType (seeMeta_at hm))
  case auditSigNym an ipk attr idx rand =>
    obtain ⟨i, hi, a, ha, ρ, hρ, rfl⟩ := hx
    exact gives_map f (fun _ => .nothing) (gives_auditSigNym f an (seeIpk_at hi) (see_at ha) idx (see_at hρ))
  case auditRawNym an ipk attr idx rand =>
    obtain ⟨i, hi, a, ha, ρ, hρ, rfl⟩ := hx
    exact gives_map f (fun _ => .nothing) (gives_auditRawNym f an (seeIpk_at hi) (see_at ha) idx (see_at hρ))
  case wbbSign sk m =>
    obtain ⟨k, hk, m, hm, rfl⟩ := hx
    run (gives_wbbSign f hc (see_at hk) (see_at hm)) with p hp
    get (gives_load hp)
    exact Gives.done fun _ _ => rfl
  case wbbVerify pk sig m =>
    obtain ⟨k, hk, s, hs, m, hm, rfl⟩ := hx
    exact gives_map f (fun _ => .nothing) (gives_wbbVerify f hc (seeOpt_at hk) (seeOpt_at hs) (seeOpt_at hm))

end Call

end Idemix.Mem.Dlog
