import Verif.Mem.DlogRefine

/-!
# Signatures of the dlog scheme on the heap do what `Verif/Dlog/Sign.lean` says
-/

namespace Idemix.Mem.Dlog

open Idemix.Dlog (IssuerPublicKey IssuerKey CredRequest Credential NymSignature Signature AttrNym CRI SigType VerType
  NonRevocationProof NymRand SigRand IpkMarshal AuditData SignerMetadata Prepared AttrNymPart)
open Idemix.Mem.Bbs (Agree Agree.gives Agree.imp agree_index agree_mapM')

variable {S : Suite} {T : Translator S} {c : Consts} {r : Nat} {h₀ h h' : Heap S}

theorem agree_nth {α β : Type} {R : α → β → Prop} {as : List α} {bs : List β} (a : List.Forall₂ R as bs) (n : Nat) :
    Agree R (Res.nth as n) (Res.nth bs n) := by
  unfold Res.nth
  induction a generalizing n with
  | nil => simp [Agree]
  | cons x _ ih =>
    cases n with
    | zero => simpa [Agree] using x
    | succ n => simpa using ih n

theorem gives_nth {k : Kind} {ps : List (Ptr k)} {vs : List (Val S k)} (a : AtAll r h ps vs) (n : Nat) :
    Gives r h₀ h (.lift (Res.nth ps n)) (Res.nth vs n) (At r) :=
  Agree.gives ((agree_nth a n).imp fun _ _ x _ g => x.mono g)

theorem gives_nths {k : Kind} {ps : List (Ptr k)} {vs : List (Val S k)} (a : AtAll r h ps vs) (ns : List Nat) :
    Gives r h₀ h (.lift (Res.mapM' (Res.nth ps) ns)) (Res.mapM' (Res.nth vs) ns) (AtAll r) := by
  have : List.Forall₂ (fun a b : Nat => a = b) ns ns := by
    induction ns with
    | nil => exact .nil
    | cons n ns ih => exact .cons rfl ih
  exact Agree.gives ((agree_mapM' this fun n _ e => e ▸ agree_nth a n).imp fun _ _ x _ g => AtAll.mono x g)

/-! ## Signing -/

/-- What `prepare` returns, with the samples of `ρ`. -/
structure PrepAt (ρ : SigRand S) (r : Nat) (h : Heap S) (p : PreparedPtr) (v : Prepared S) : Prop where
  t1 : At r h p.t1 v.t1
  t2 : At r h p.t2 v.t2
  t3 : At r h p.t3 v.t3
  aPrime : At r h p.aPrime v.aPrime
  aBar : At r h p.aBar v.aBar
  bPrime : At r h p.bPrime v.bPrime
  nonRev : p.nonRev = v.nonRev
  e : At r h p.e v.e
  nonce : At r h p.nonce ρ.nonce
  rSk : At r h p.rSk ρ.rSk
  rSPrime : At r h p.rSPrime ρ.rSPrime
  rR2 : At r h p.rR2 ρ.rR2
  rR3 : At r h p.rR3 ρ.rR3
  r2 : At r h p.r2 ρ.r2
  r3 : At r h p.r3 v.r3
  re : At r h p.re ρ.re
  sPrime : At r h p.sPrime v.sPrime
  rRNym : At r h p.rRNym ρ.rRNym
  rAttrs : AtAll (k := .zr) r h p.rAttrs ρ.rAttrs
  hidden : p.hidden = v.hidden

theorem PrepAt.mono {ρ : SigRand S} {p : PreparedPtr} {v : Prepared S} (a : PrepAt ρ r h p v) (g : Ext r h h') :
    PrepAt ρ r h' p v :=
  ⟨a.t1.mono g, a.t2.mono g, a.t3.mono g, a.aPrime.mono g, a.aBar.mono g, a.bPrime.mono g, a.nonRev, a.e.mono g,
    a.nonce.mono g, a.rSk.mono g, a.rSPrime.mono g, a.rR2.mono g, a.rR3.mono g, a.r2.mono g, a.r3.mono g, a.re.mono g,
    a.sPrime.mono g, a.rRNym.mono g, AtAll.mono a.rAttrs g, a.hidden⟩

theorem gives_invCopy (f : From r h h) {p : Ptr .zr} {v : S.F} (a : At r h p v) :
    Gives r h h (invCopy p) (.ok v⁻¹) (At (k := .zr) r) := by
  refine Gives.seq₀ f (gives_copy f a) fun p h₁ f₁ n => ?_
  refine Gives.seq₀ f₁ (gives_zrInv n) fun _ h₂ f₂ n => ?_
  exact Gives.done fun h₃ e₃ => n.1.mono e₃

theorem gives_prepareABar (f : From r h h) {b aPrime : Ptr .g1} {bv av : S.G1} {r1 : Ptr .zr} {rv : S.F} (h1 : At r h b bv)
    (h2 : At r h r1 rv) (h3 : At r h aPrime av) (e : Bytes) :
    Gives r h h (prepareABar b r1 aPrime e) (.ok (rv • bv - S.zrOfBytes e • av)) (At (k := .g1) r) := by
  refine Gives.call f (gives_g1Mul f h1 h2) fun t h₁ f₁ n => ?_
  refine Gives.call f₁ (gives_new (k := .zr) f₁.self _) fun x h₂ f₂ hx => ?_
  have F₂ := f₁.trans f₂
  refine Gives.call F₂ (gives_g1Mul f₂.self (h3.mono F₂.ext) hx.1) fun m h₃ f₃ k => ?_
  refine Gives.seq₀ (F₂.trans f₃) (gives_g1Sub (n.mono (f₂.trans f₃).ext) k.1) fun _ h₃ f₃ n => ?_
  exact Gives.done fun h₄ e₄ => n.1.mono e₄

theorem gives_t2Block (f : From r h h) {hRand bPrime hSk : Ptr .g1} {rv bv kv : S.G1} {s r3 k : Ptr .zr} {sv r3v skv : S.F}
    (h1 : At r h hRand rv) (h2 : At r h s sv) (h3 : At r h bPrime bv) (h4 : At r h r3 r3v) (h5 : At r h hSk kv)
    (h6 : At r h k skv) {as : List (Ptr .zr)} {av : List S.F} (h7 : AtAll (k := .zr) r h as av) {bs : List (Ptr .g1)}
    {bsv : List S.G1} (h8 : AtAll (k := .g1) r h bs bsv) :
    Gives r h h (t2Block hRand s bPrime r3 hSk k as bs)
      (Idemix.Dlog.addPairs (sv • rv + (r3v • bv + skv • kv)) av bsv) (New (k := .g1) r h) := by
  refine Gives.seq₀ f (gives_g1Mul f h1 h2) fun b h₁ f₁ n => ?_
  refine Gives.call f₁ (gives_g1Mul2 f₁.self (h3.mono f₁.ext) (h4.mono f₁.ext) (h5.mono f₁.ext) (h6.mono f₁.ext))
    fun m h₃ f₃ k => ?_
  have F₃ := f₁.trans f₃
  refine Gives.seq₀ F₃ (gives_g1Add (n.mono f₃.ext) k.1) fun _ h₄ f₄ n => ?_
  rw [← Res.bind_ok (Idemix.Dlog.addPairs _ _ _)]
  refine Gives.bind₀ f₄ (gives_addPairs as bs h₄ _ _ _ f₄ n h8 h7) fun _ w h₅ _ f₅ n => ?_
  exact Gives.done fun h₆ e₆ => n.mono e₆

theorem gives_prepare (f : From r h h) (cred : Credential) {ipk : Ipk} {ipkv : IssuerPublicKey} (hi : IpkAt r h ipk ipkv)
    (disclosure : Bytes) (rhIndex : Int) (cri : CRI) (ρ : SigRand S) :
    Gives r h h (prepare T cred ipk disclosure rhIndex cri ρ)
      (Idemix.Dlog.prepare T cred ipkv disclosure rhIndex cri ρ) (PrepAt ρ r) := by
  obtain ⟨hash, rfl, hh⟩ := hi
  pure_run _u
  pure_run dRh
  pure_run _u
  pure_run _u
  run (gives_new (k := .zr) f ρ.r1) with r1 hr1
  run (gives_new (k := .zr) f ρ.r2) with r2 hr2
  run (gives_invCopy f hr1) with r3 hr3
  run (gives_new (k := .zr) f ρ.nonce) with nonce hnonce
  try_run (gives_g1FromProto f _) with a va aa
  try_run (gives_g1FromProto f _) with b vb ab
  run (gives_g1Mul f aa hr1) with aPrime haPrime
  run (gives_prepareABar f ab hr1 haPrime cred.e) with aBar haBar
  try_run (gives_g1FromProto f _) with hRand vr ar
  try_run (gives_g1FromProto f _) with hSk vSk aSk
  run (gives_mulSub f ab hr1 ar hr2) with bPrime hbPrime
  run (gives_new (k := .zr) f (S.zrOfBytes cred.s)) with s hs
  run (gives_new (k := .zr) f (S.zrOfBytes cred.e)) with e he
  run (gives_zrMul f hr2 hr3) with m hm
  run (gives_zrMinus f hs hm) with sPrime hsPrime
  run (gives_new (k := .zr) f ρ.rSk) with rSk hrSk
  run (gives_new (k := .zr) f ρ.re) with re hre
  run (gives_new (k := .zr) f ρ.rR2) with rR2 hrR2
  run (gives_new (k := .zr) f ρ.rR3) with rR3 hrR3
  run (gives_new (k := .zr) f ρ.rSPrime) with rSPrime hrSPrime
  run (gives_new (k := .zr) f ρ.rRNym) with rRNym hrRNym
  run (gives_newZrs f ρ.rAttrs) with rAttrs hrAttrs
  pure_run _u
  pure_run rh
  run (gives_new (k := .zr) f (S.zrOfBytes rh)) with _rh _hrh
  try_run (gives_nth hrAttrs _) with _rRh _vRh _hRh
  pure_run nonRev
  try_run (gives_parseAttrs f _) with hAttrs vA aA
  run (gives_g1Mul2 f haPrime hre ar hrR2) with t1 ht1
  try_run (gives_nths aA _) with hHidden vH aH
  try_run (gives_t2Block f ar hrSPrime hbPrime hrR3 aSk hrSk hrAttrs aH) with t2 vt2 ht2
  run (gives_g1Mul2 f aSk hrSk ar hrRNym) with t3 ht3
  refine Gives.done fun h' e => ?_
  carry e
  exact ⟨ht1, ht2, ht3, haPrime, haBar, hbPrime, rfl, ‹_›, hnonce, hrSk, hrSPrime, hrR2, hrR3, hr2, hr3, hre, hsPrime, hrRNym,
    hrAttrs, rfl⟩

/-- An attribute pseudonym. -/
structure AttrNymAt (r : Nat) (h : Heap S) (p : AttrNymPtr) (v : AttrNymPart S) : Prop where
  nym : At r h p.nym v.nym
  t4 : At r h p.t4 v.t4
  rand : At r h p.r v.r
  rr : At r h p.rr v.rr
  attr : At r h p.attr v.attr

theorem AttrNymAt.mono {p : AttrNymPtr} {v : AttrNymPart S} (a : AttrNymAt r h p v) (g : Ext r h h') : AttrNymAt r h' p v :=
  ⟨a.nym.mono g, a.t4.mono g, a.rand.mono g, a.rr.mono g, a.attr.mono g⟩

theorem gives_nymRand (f : From r h h) (b : Bool) {audit : Option AuditPtr} {auditv : Option (AuditData S)}
    (ha : OptAuditAt r h audit auditv) {attr : Ptr .zr} {av : S.F} (hx : At r h attr av) (rNew : S.F) :
    Gives r h h (nymRand b audit attr rNew) (Idemix.Dlog.nymRand b auditv av rNew) (At (k := .zr) r) := by
  cases b
  · exact (gives_new (k := .zr) f rNew).imp fun _ _ _ n => n.1
  · cases audit <;> cases auditv <;> simp only [OptAuditAt] at ha
    · exact Gives.fail
    · rename_i ad adv
      rw [show Idemix.Dlog.nymRand true (some adv) av rNew = (do
        Res.guardErr (!decide (adv.attr = av)) "audit metadata does not match (1)"
        pure adv.rand) from rfl]
      show Gives r h h ((load _).bind _) _ _
      get (gives_load ha.attr)
      get (gives_load hx)
      pure_run _u
      exact Gives.done fun h' e => ha.rand.mono e

theorem gives_nymCheck (f : From r h h) (b : Bool) {audit : Option AuditPtr} {auditv : Option (AuditData S)}
    (ha : OptAuditAt r h audit auditv) {nym : Ptr .g1} {nv : S.G1} (hx : At r h nym nv) :
    Gives r h h (nymCheck b audit nym) (Idemix.Dlog.nymCheck b auditv nv) (fun _ a b => a = b) := by
  cases b
  · exact Gives.done fun _ _ => rfl
  · cases audit <;> cases auditv <;> simp only [OptAuditAt] at ha
    · exact Gives.fail
    · rename_i ad adv
      obtain ⟨n, ra, at'⟩ := ad
      obtain ⟨nv', rv', av'⟩ := adv
      obtain ⟨h1, h2, h3⟩ := ha
      cases n <;> cases nv' <;> simp only [OptAt] at h1
      · exact Gives.panic
      · show Gives r h h ((load _).bind _) _ _
        get (gives_load h1)
        get (gives_load hx)
        exact Gives.lift

theorem gives_attrNymPart (f : From r h h) (cred : Credential) {ipk : Ipk} {ipkv : IssuerPublicKey} (hi : IpkAt r h ipk ipkv)
    (hidden : List Nat) {rAttrs : List (Ptr .zr)} {rv : List S.F} (hr : AtAll (k := .zr) r h rAttrs rv) (idx : Int) (b : Bool)
    {audit : Option AuditPtr} {auditv : Option (AuditData S)} (ha : OptAuditAt r h audit auditv) (rNew rr : S.F) :
    Gives r h h (attrNymPart T cred ipk hidden rAttrs idx b audit rNew rr)
      (Idemix.Dlog.attrNymPart T cred ipkv hidden rv idx b auditv rNew rr) (AttrNymAt r) := by
  obtain ⟨hash, rfl, hh⟩ := hi
  pure_run ab
  run (gives_new (k := .zr) f (S.zrOfBytes ab)) with attr hattr
  try_run (gives_nymRand f b ha hattr rNew) with ρ vρ hρ
  try_run (gives_nth hr _) with rA vrA hrA
  pure_run hE
  try_run (gives_g1FromProto f hE) with hp vh hh'
  try_run (gives_g1FromProto f _) with hRand vr ar
  run (gives_new (k := .zr) f rr) with prr hrr
  run (gives_g1Mul2 f hh' hattr ar hρ) with nym hn
  try_run (gives_nymCheck f b ha hn) with _u _v _e
  run (gives_g1Mul2 f hh' hrA ar hrr) with t4 ht4
  exact Gives.done fun h' e => ⟨hn.mono e, ht4.mono e, hρ.mono e, hrr.mono e, hattr.mono e⟩

/-- Nil, or something that denotes a value. -/
def OptRel {α β : Type} (R : Heap S → α → β → Prop) (h : Heap S) : Option α → Option β → Prop
  | none, none => True
  | some a, some b => R h a b
  | _, _ => False

theorem gives_optional {α β : Type} {R : Heap S → α → β → Prop} (f : From r h h) (b : Bool) {p : Prog S α} {x : Res β}
    (mono : ∀ h h' a b, Ext r h h' → R h a b → R h' a b)
    (a : b = true → Gives r h h p x R) : Gives r h h (optional b p) (Idemix.Dlog.optional b x) (OptRel R) := by
  cases b
  · exact Gives.done fun _ _ => trivial
  · exact Gives.bind f (a rfl) fun c d h₁ _ f₁ hR => Gives.done fun h₂ e₂ => mono _ _ _ _ e₂ hR

/-- Pseudonym and t-value, or nil. -/
def PairAt (r : Nat) (h : Heap S) : Option (Ptr .g1 × Ptr .g1) → Option (S.G1 × S.G1) → Prop
  | none, none => True
  | some p, some v => At (k := .g1) r h p.1 v.1 ∧ At (k := .g1) r h p.2 v.2
  | _, _ => False

theorem PairAt.mono {p : Option (Ptr .g1 × Ptr .g1)} {v : Option (S.G1 × S.G1)} (a : PairAt r h p v) (g : Ext r h h') :
    PairAt r h' p v := by
  cases p <;> cases v <;> simp only [PairAt] at a ⊢
  exact ⟨a.1.mono g, a.2.mono g⟩

/-- An attribute pseudonym, or nil. -/
def OptNymAt (r : Nat) (h : Heap S) (p : Option AttrNymPtr) (v : Option (AttrNymPart S)) : Prop := OptRel (AttrNymAt r) h p v

theorem OptNymAt.mono {p : Option AttrNymPtr} {v : Option (AttrNymPart S)} (a : OptNymAt r h p v) (g : Ext r h h') :
    OptNymAt r h' p v := by
  cases p <;> cases v <;> simp only [OptNymAt, OptRel] at a ⊢
  exact a.mono g

theorem OptNymAt.pair {p : Option AttrNymPtr} {v : Option (AttrNymPart S)} (a : OptNymAt r h p v) :
    PairAt r h (p.map fun e => (e.nym, e.t4)) (v.map fun e => (e.nym, e.t4)) := by
  cases p <;> cases v <;> simp only [OptNymAt, OptRel] at a
  · exact trivial
  · exact ⟨a.nym, a.t4⟩

theorem OptNymAt.audit {p : Option AttrNymPtr} {v : Option (AttrNymPart S)} (a : OptNymAt r h p v) :
    OptAuditAt r h (p.map AttrNymPtr.audit) (v.map AttrNymPart.audit) := by
  cases p <;> cases v <;> simp only [OptNymAt, OptRel] at a
  · exact trivial
  · exact ⟨a.nym, a.rand, a.attr⟩

theorem gives_loadNym (f : From r h h) {p : Option (Ptr .g1 × Ptr .g1)} {v : Option (S.G1 × S.G1)} (a : PairAt r h p v) :
    Gives r h h (loadNym p) (.ok v) (fun _ a b => a = b) := by
  cases p <;> cases v <;> simp only [PairAt] at a
  · exact Gives.done fun _ _ => rfl
  · obtain ⟨a1, a2⟩ := a
    get (gives_load a1)
    get (gives_load a2)
    exact Gives.done fun _ _ => rfl

theorem gives_responses {pc : Ptr .zr} {cv : S.F} : ∀ {h : Heap S} (_ : From r h h) (_ : At r h pc cv) {rs : List (Ptr .zr)}
    {rv : List S.F} (_ : AtAll (k := .zr) r h rs rv) (vs : List Bytes),
    Gives r h h (responses pc rs vs)
      (.ok ((List.zipWith (fun r v => r + cv * S.zrOfBytes v) rv vs).map S.zrBytes)) (fun _ a b => a = b)
  | h, _, _, _, _, .nil, vs => by cases vs <;> exact Gives.done fun _ _ => rfl
  | h, _, _, _, _, .cons _ _, [] => Gives.done fun _ _ => rfl
  | h, f, hc, p :: ps, x :: xs, .cons a b, v :: vs => by
    change AtAll (k := .zr) r h ps xs at b
    run (gives_new (k := .zr) f (S.zrOfBytes v)) with y hy
    run (gives_respond f a hc hy) with s hs
    get (gives_zrBytes f hs)
    get (gives_responses f hc b vs)
    exact Gives.done fun _ _ => rfl

theorem gives_attrResponses (f : From r h h) (cred : Credential) {pc : Ptr .zr} {cv : S.F} (hc : At r h pc cv)
    {rs : List (Ptr .zr)} {rv : List S.F} (hr : AtAll (k := .zr) r h rs rv) (hidden : List Nat) :
    Gives r h h (attrResponses cred pc rs hidden) (Idemix.Dlog.attrResponses cred cv rv hidden)
      (fun _ a b => a = b.map S.zrBytes) := by
  pure_run vals
  exact (gives_responses f hc hr vals).to fun _ _ e => e

theorem gives_toWire (f : From r h h) {pc : Ptr .zr} {cv : S.F} (hc : At r h pc cv) {p : Option AttrNymPtr}
    {v : Option (AttrNymPart S)} (a : OptNymAt r h p v) :
    Gives r h h (toWire T pc p) (.ok (v.map fun e => e.toWire T cv)) (fun _ a b => a = b) := by
  cases p <;> cases v <;> simp only [OptNymAt, OptRel] at a
  · exact Gives.done fun _ _ => rfl
  · rename_i p v
    run (gives_respond f a.rr hc a.rand) with s hs
    get (gives_g1ToProto (T := T) f a.nym)
    get (gives_zrBytes f hs)
    exact Gives.done fun _ _ => rfl

/-- The two hashes of the transcript, without heap (`signature.go:525-586`). -/
def challengeOf (sigType : SigType) (ipk : IssuerPublicKey) (disclosure msg : Bytes) (cri : CRI) (p : Prepared S) (nonce : S.F)
    (nym : S.G1) (eid rh : Option (S.G1 × S.G1)) : Res S.F := do
  let label ← Idemix.Dlog.sigLabel sigType
  let nPts ← Idemix.Dlog.sigPts sigType
  let proofData ← Idemix.Dlog.sigProofData label nPts cri.revocationAlg p.t1 p.t2 p.t3 p.aPrime p.aBar p.bPrime nym
    eid rh p.nonRev ipk.hash disclosure msg
  let proofData2 ← Idemix.Dlog.secondHash proofData (S.hashToZr proofData) nonce
  pure (S.hashToZr proofData2)

theorem gives_challenge (f : From r h h) (sigType : SigType) {ipk : Ipk} {ipkv : IssuerPublicKey} (hi : IpkAt r h ipk ipkv)
    (disclosure msg : Bytes) (cri : CRI) {ρ : SigRand S} {p : PreparedPtr} {v : Prepared S} (hp : PrepAt ρ r h p v)
    {nym : Ptr .g1} {nv : S.G1} (hn : At r h nym nv) {eid rh : Option (Ptr .g1 × Ptr .g1)}
    {eidv rhv : Option (S.G1 × S.G1)} (he : PairAt r h eid eidv) (hr : PairAt r h rh rhv) :
    Gives r h h (challenge sigType ipk disclosure msg cri p nym eid rh)
      (challengeOf sigType ipkv disclosure msg cri v ρ.nonce nv eidv rhv) (At (k := .zr) r) := by
  obtain ⟨hash, rfl, hh⟩ := hi
  pure_run label
  pure_run nPts
  get (gives_load hp.t1)
  get (gives_load hp.t2)
  get (gives_load hp.t3)
  get (gives_load hp.aPrime)
  get (gives_load hp.aBar)
  get (gives_load hp.bPrime)
  get (gives_load hn)
  get (gives_loadNym f he)
  get (gives_loadNym f hr)
  get (gives_load hh)
  rw [hp.nonRev]
  pure_run pd
  run (gives_new (k := .zr) f (S.hashToZr pd)) with c hc
  get (gives_load hc)
  get (gives_load hp.nonce)
  pure_run pd2
  exact (gives_new (k := .zr) f (S.hashToZr pd2)).imp fun _ _ _ n => n.1

/-- What signing returns: the signature, and metadata. -/
def SignedAt (r : Nat) (h : Heap S) (p : Signature × Option MetaPtr) (v : Signature × Option (SignerMetadata S)) : Prop :=
  p.1 = v.1 ∧ OptMetaAt r h p.2 v.2

theorem OptMetaAt.eid {p : Option MetaPtr} {v : Option (SignerMetadata S)} (a : OptMetaAt r h p v) :
    OptAuditAt r h (p.bind (·.eidNymAuditData)) (v.bind (·.eidNymAuditData)) := by
  cases p <;> cases v <;> simp only [OptMetaAt] at a
  · exact trivial
  · exact a.eid

theorem OptMetaAt.rh {p : Option MetaPtr} {v : Option (SignerMetadata S)} (a : OptMetaAt r h p v) :
    OptAuditAt r h (p.bind (·.rhNymAuditData)) (v.bind (·.rhNymAuditData)) := by
  cases p <;> cases v <;> simp only [OptMetaAt] at a
  · exact trivial
  · exact a.rh

theorem OptMetaAt.isSome {p : Option MetaPtr} {v : Option (SignerMetadata S)} (a : OptMetaAt r h p v) :
    p.isSome = v.isSome := by
  cases p <;> cases v <;> simp only [OptMetaAt] at a <;> rfl

theorem gives_finalise (f : From r h h) (cred : Credential) {sk : Ptr .zr} {skv : S.F} (hs : At r h sk skv) {nym : Ptr .g1}
    {nv : S.G1} (hn : At r h nym nv) {rNym : Ptr .zr} {rnv : S.F} (hr : At r h rNym rnv) {ipk : Ipk} {ipkv : IssuerPublicKey}
    (hi : IpkAt r h ipk ipkv) (disclosure msg : Bytes) (rhIndex eidIndex : Int) (cri : CRI) (ρ : SigRand S) {p : PreparedPtr}
    {v : Prepared S} (hp : PrepAt ρ r h p v) (sigType : SigType) {md : Option MetaPtr} {mv : Option (SignerMetadata S)}
    (hm : OptMetaAt r h md mv) :
    Gives r h h (finalise T cred sk nym rNym ipk disclosure msg rhIndex eidIndex cri ρ p sigType md)
      (Idemix.Dlog.finalise T cred skv nv rnv ipkv disclosure msg rhIndex eidIndex cri ρ v sigType mv) (SignedAt r) := by
  have e : Idemix.Dlog.finalise T cred skv nv rnv ipkv disclosure msg rhIndex eidIndex cri ρ v sigType mv = (do
      let eid ← Idemix.Dlog.optional sigType.hasEid (Idemix.Dlog.attrNymPart T cred ipkv p.hidden ρ.rAttrs eidIndex md.isSome
        (mv.bind (·.eidNymAuditData)) ρ.rEid ρ.rREid)
      let rh ← Idemix.Dlog.optional sigType.hasRh (Idemix.Dlog.attrNymPart T cred ipkv p.hidden ρ.rAttrs rhIndex md.isSome
        (mv.bind (·.rhNymAuditData)) ρ.rRh ρ.rRRh)
      let proofC ← challengeOf sigType ipkv disclosure msg cri v ρ.nonce nv (eid.map fun e => (e.nym, e.t4))
        (rh.map fun e => (e.nym, e.t4))
      let sAttrs ← Idemix.Dlog.attrResponses cred proofC ρ.rAttrs p.hidden
      pure ({ aPrime := some (T.g1ToProto v.aPrime), aBar := some (T.g1ToProto v.aBar),
              bPrime := some (T.g1ToProto v.bPrime), proofC := S.zrBytes proofC,
              proofSSk := S.zrBytes (ρ.rSk + proofC * skv), proofSE := S.zrBytes (ρ.re - proofC * v.e),
              proofSR2 := S.zrBytes (ρ.rR2 + proofC * ρ.r2), proofSR3 := S.zrBytes (ρ.rR3 - proofC * v.r3),
              proofSSPrime := S.zrBytes (ρ.rSPrime + proofC * v.sPrime),
              proofSAttrs := sAttrs.map S.zrBytes, nonce := S.zrBytes ρ.nonce,
              nym := some (T.g1ToProto nv), proofSRNym := S.zrBytes (ρ.rRNym + proofC * rnv),
              revocationEpochPk := cri.epochPk, revocationPkSig := cri.epochPkSig, epoch := cri.epoch,
              nonRevocationProof := some { revocationAlg := 0, proof := [] },
              eidNym := eid.map (fun e => e.toWire T proofC), rhNym := rh.map (fun e => e.toWire T proofC) },
            eid.map fun e => { eidNymAuditData := some e.audit, rhNymAuditData := rh.map (·.audit), eidNym := [],
                               rhNym := [] })) := by
    simp only [Idemix.Dlog.finalise, challengeOf, bind_assoc, pure_bind, hm.isSome, hp.hidden]
  rw [e]
  have h1 := hm.eid
  have h2 := hm.rh
  try_run (gives_optional (R := AttrNymAt r) f _ (fun _ _ _ _ g a => a.mono g) fun _ =>
    gives_attrNymPart f cred hi p.hidden hp.rAttrs eidIndex md.isSome h1 ρ.rEid ρ.rREid) with eid vEid aEid
  change OptNymAt r h' eid vEid at aEid
  try_run (gives_optional (R := AttrNymAt r) f _ (fun _ _ _ _ g a => a.mono g) fun _ =>
    gives_attrNymPart f cred hi p.hidden hp.rAttrs rhIndex md.isSome h2 ρ.rRh ρ.rRRh) with rh vRh aRh
  change OptNymAt r h' rh vRh at aRh
  try_run (gives_challenge f sigType hi disclosure msg cri hp hn aEid.pair aRh.pair) with pc cv hc
  run (gives_respond f hp.rSk hc hs) with sSk hsSk
  run (gives_respondSub f hp.re hc hp.e) with sE hsE
  run (gives_respond f hp.rR2 hc hp.r2) with sR2 hsR2
  run (gives_respondSub f hp.rR3 hc hp.r3) with sR3 hsR3
  run (gives_respond f hp.rSPrime hc hp.sPrime) with sSPrime hsSPrime
  run (gives_respond f hp.rRNym hc hr) with sRNym hsRNym
  try_run (gives_attrResponses f cred hc hp.rAttrs p.hidden) with sAttrs vAttrs eAttrs
  subst eAttrs
  get (gives_g1ToProto (T := T) f hp.aPrime)
  get (gives_g1ToProto (T := T) f hp.aBar)
  get (gives_g1ToProto (T := T) f hp.bPrime)
  get (gives_zrBytes f hc)
  get (gives_zrBytes f hsSk)
  get (gives_zrBytes f hsE)
  get (gives_zrBytes f hsR2)
  get (gives_zrBytes f hsR3)
  get (gives_zrBytes f hsSPrime)
  get (gives_zrBytes f hp.nonce)
  get (gives_g1ToProto (T := T) f hn)
  get (gives_zrBytes f hsRNym)
  get (gives_toWire (T := T) f hc aEid)
  get (gives_toWire (T := T) f hc aRh)
  refine Gives.done fun h'' e => ⟨rfl, ?_⟩
  carry e
  cases eid <;> cases vEid <;> simp only [OptNymAt, OptRel] at aEid
  · exact trivial
  · exact ⟨⟨aEid.nym, aEid.rand, aEid.attr⟩, aRh.audit, rfl, rfl⟩

theorem gives_newSignature (f : From r h h) (cred : Credential) {sk : Ptr .zr} {skv : S.F} (hs : At r h sk skv) {nym : Ptr .g1}
    {nv : S.G1} (hn : At r h nym nv) {rNym : Ptr .zr} {rnv : S.F} (hr : At r h rNym rnv) {ipk : Ipk} {ipkv : IssuerPublicKey}
    (hi : IpkAt r h ipk ipkv) (disclosure msg : Bytes) (rhIndex eidIndex : Int) (cri : CRI) (ρ : SigRand S)
    (sigType : SigType) {md : Option MetaPtr} {mv : Option (SignerMetadata S)} (hm : OptMetaAt r h md mv) :
    Gives r h h (newSignature T cred sk nym rNym ipk disclosure msg rhIndex eidIndex cri ρ sigType md)
      (Idemix.Dlog.newSignature T cred skv nv rnv ipkv disclosure msg rhIndex eidIndex cri ρ sigType mv) (SignedAt r) := by
  cases sigType
  case standard =>
    try_run (gives_prepare f cred hi disclosure rhIndex cri ρ) with p v hp
    exact gives_finalise f cred hs hn hr hi disclosure msg rhIndex (-1) cri ρ hp _ hm
  case eidNym =>
    pure_run d
    pure_run _u
    try_run (gives_prepare f cred hi disclosure rhIndex cri ρ) with p v hp
    exact gives_finalise f cred hs hn hr hi disclosure msg rhIndex eidIndex cri ρ hp _ hm
  case eidNymRhNym =>
    pure_run d
    pure_run _u
    pure_run d'
    pure_run _u
    try_run (gives_prepare f cred hi disclosure rhIndex cri ρ) with p v hp
    exact gives_finalise f cred hs hn hr hi disclosure msg rhIndex eidIndex cri ρ hp _ hm
  all_goals exact Gives.panic

end Idemix.Mem.Dlog
