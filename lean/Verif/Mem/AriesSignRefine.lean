import Verif.Mem.AriesRefine

/-!
# Signing with the aries scheme on the heap does what `Verif/Aries/Signer.lean` says
-/

namespace Idemix.Mem.Aries

open Idemix.Bbs (Lib PKG Sig SigMsg PoK PoKRand Committed ProofG1 SigProof Payload)
open Idemix.Aries (IPK ISK Credential AttrComm SignRand CRI)
open Idemix.Dlog (SigType AuditData SignerMetadata)
open Idemix.Mem.Dlog (AuditPtr MetaPtr AuditAt OptAuditAt MetaAt OptMetaAt OptAt)
open Idemix.Mem.Bbs

variable {S : Suite} {L : Lib S} {c : Consts} {r : Nat} {h₀ h h' : Heap S}

/-! ## What pointers denote -/

structure AttrCommAt (r : Nat) (h : Heap S) (p : AttrCommPtr) (v : AttrComm S) : Prop where
  index : p.index = v.index
  proof : CommittedAt r h p.proof v.proof
  comm : At r h p.comm v.comm
  r : At r h p.r v.r

def OptAttrCommAt (r : Nat) (h : Heap S) : Option AttrCommPtr → Option (AttrComm S) → Prop
  | none, none => True
  | some p, some v => AttrCommAt r h p v
  | _, _ => False

def OptCommittedAt (r : Nat) (h : Heap S) : Option CommittedPtr → Option (Committed S) → Prop
  | none, none => True
  | some p, some v => CommittedAt r h p v
  | _, _ => False

def OptProofAt (r : Nat) (h : Heap S) : Option ProofG1Ptr → Option (ProofG1 S) → Prop
  | none, none => True
  | some p, some v => ProofG1At r h p v
  | _, _ => False

theorem AttrCommAt.mono {p : AttrCommPtr} {v : AttrComm S} (a : AttrCommAt r h p v) (g : Ext r h h') : AttrCommAt r h' p v :=
  ⟨a.index, a.proof.mono g, a.comm.mono g, a.r.mono g⟩

theorem OptAttrCommAt.mono {p : Option AttrCommPtr} {v : Option (AttrComm S)} (a : OptAttrCommAt r h p v) (g : Ext r h h') :
    OptAttrCommAt r h' p v := by
  cases p <;> cases v <;> simp only [OptAttrCommAt] at a ⊢
  exact a.mono g

theorem OptCommittedAt.mono {p : Option CommittedPtr} {v : Option (Committed S)} (a : OptCommittedAt r h p v)
    (g : Ext r h h') : OptCommittedAt r h' p v := by
  cases p <;> cases v <;> simp only [OptCommittedAt] at a ⊢
  exact a.mono g

theorem OptProofAt.mono {p : Option ProofG1Ptr} {v : Option (ProofG1 S)} (a : OptProofAt r h p v)
    (g : Ext r h h') : OptProofAt r h' p v := by
  cases p <;> cases v <;> simp only [OptProofAt] at a ⊢
  exact a.mono g

/-! ## The proof of knowledge -/

theorem smartcardVC2_ok {rNym : Ptr .zr} {rv : S.F} (hr : At r h rNym rv) :
    ProviderOk r h (smartcardVC2 rNym) (Idemix.Aries.smartcardVC2 rv) := by
  intro h₁ d dv r3 r3v pk pkv s sv ms msv rev g f hd h3 hp hs hm
  replace hr := hr.mono g
  refine Gives.call f (gives_copy f h3) fun q h₁ f₁ a => ?_
  refine Gives.seq₀ f₁ (gives_zrNeg a) fun _ h₂ f₂ a => ?_
  refine Gives.base f₂ ?_
  replace a := a.1
  carry f₂.ext
  replace f := f₂.self
  run (gives_zrMinus f hs hr) with s' hs'
  have hm' := hiddenMsgs_at hm rev
  try_run (gives_msgBases hp hm') with gs gv hg
  run (gives_copies f (frs_at hm')) with fs hfs
  exact Gives.done fun _ e => ⟨.cons (hd.mono e) (.cons (hp.h0.mono e) (AtAll.mono hg e)),
    .cons (a.mono e) (.cons (hs'.mono e) (AtAll.mono hfs e))⟩

theorem forall₂_take {α β : Type} {R : α → β → Prop} {as : List α} {bs : List β} (l : List.Forall₂ R as bs) (i j : Nat) :
    List.Forall₂ R (as.take i ++ as.drop j) (bs.take i ++ bs.drop j) :=
  List.rel_append (List.forall₂_take i l) (List.forall₂_drop j l)

theorem gives_cardPoK (f : From r h h) (hc : ConstsAt r h c) {p : SigPtr} {σ : Sig S} (hσ : SigAt r h p σ) {ms : List MsgPtr}
    {msv : List (SigMsg S)} (hm : MsgsAt r h ms msv) (skPos : Int) (as : List IdemixAttribute) {pk : PKGPtr} {pkv : PKG S}
    (hp : PKGAt r h pk pkv) {nym : Ptr .g1} {nymv : S.G1} (hn : At r h nym nymv) {rNym : Ptr .zr} {rv : S.F}
    (hr : At r h rNym rv) (ρ : PoKRand S) :
    Gives r h h (cardPoK c p ms skPos as pk nym rNym ρ) (Idemix.Aries.cardPoK σ msv skPos as pkv nymv rv ρ) (PoKAt r) := by
  refine Gives.call f (gives_copy f hn) fun C h₁ f₁ a => ?_
  refine Gives.call f₁ (gives_g1Mul f₁.self (hp.h0.mono f₁.ext) (hr.mono f₁.ext)) fun g h₂ f₂ b => ?_
  refine Gives.seq₀ (f₁.trans f₂) (gives_g1Sub (a.mono f₂.ext) b.1) fun _ h₃ f₃ a => ?_
  refine Gives.base f₃ ?_
  replace a := a.1
  carry f₃.ext
  replace f := f₃.self
  rw [List.Forall₂.length_eq hm]
  pure_run u
  have hm' : MsgsAt r _ (ms.take skPos.toNat ++ ms.drop (skPos.toNat + 1))
    (msv.take skPos.toNat ++ msv.drop (skPos.toNat + 1)) := forall₂_take hm _ _
  refine Gives.bind₀ f (gives_computeB f hc hσ.s hm' hp) fun q qv h₅ _ f₅ hq => ?_
  refine Gives.seq₀ f₅ (gives_g1Add hq (a.mono f₅.ext)) fun _ h₆ f₆ hq => ?_
  refine Gives.base f₆ ?_
  replace hq := hq.1
  carry f₆.ext
  replace f := f₆.self
  refine Gives.seq f (Bbs.Call.gives_newInts f _) fun is h₇ f₇ hi => ?_
  have hi : AtAll (k := .int) r h₇ is _ := List.Forall₂.imp (fun _ _ x => x.1) hi.1
  carry f₇.ext
  replace f := f₇.self
  exact gives_pokOfSignatureB (smartcardVC2_ok hr) f hc false hσ hm' hi hp hq ρ

theorem gives_getPoK (f : From r h h) (hc : ConstsAt r h c) (cred : Credential) (as : List IdemixAttribute) {sk : Ptr .zr}
    {skv : S.F} (hs : At r h sk skv) {pk : PKGPtr} {pkv : PKG S} (hp : PKGAt r h pk pkv) (t : SigType) {nym : Ptr .g1}
    {nymv : S.G1} (hn : At r h nym nymv) {rNym : Ptr .zr} {rv : S.F} (hr : At r h rNym rv) (ρ : PoKRand S) :
    Gives r h h (getPoK c cred as sk pk t nym rNym ρ) (Idemix.Aries.getPoK cred as skv pkv t nymv rv ρ)
      fun h' a b => PoKAt r h' a.1 b.1 ∧ MsgsAt r h' a.2 b.2 := by
  try_run (gives_parseSignature f cred.cred) with σ σv hσ
  try_run (gives_toSignatureMessage f cred hs) with ms msv hm
  cases Idemix.Aries.cardType t with
  | true =>
    try_run (gives_cardPoK f hc hσ hm cred.skPos as hp hn hr ρ) with q qv hq
    exact Gives.done fun _ e => ⟨hq.mono e, hm.mono e⟩
  | false =>
    refine Gives.seq f (Bbs.Call.gives_newInts f _) fun is h₇ f₇ hi => ?_
    have hi : AtAll (k := .int) r h₇ is _ := List.Forall₂.imp (fun _ _ x => x.1) hi.1
    carry f₇.ext
    replace f := f₇.self
    try_run (gives_newPoKOfSignature f hc hσ hm hi hp ρ) with q qv hq
    exact Gives.done fun _ e => ⟨hq.mono e, hm.mono e⟩

theorem gives_commitNym (f : From r h h) {pk : PKGPtr} {pkv : PKG S} (hp : PKGAt r h pk pkv) {pok : PoKPtr} {pokv : PoK S}
    (hq : PoKAt r h pok pokv) (skPos : Int) (t0 : S.F) :
    Gives r h h (commitNym pk pok skPos t0) (Idemix.Aries.commitNym pkv pokv skPos t0) (CommittedAt r) := by
  run (gives_new (k := .zr) f t0) with p0 h0
  try_run (gives_index hp.hs _) with q1 v1 h1
  try_run (gives_index hq.vc2.blind _) with q2 v2 h2
  exact gives_finish f (.cons hp.h0 (.cons h1 .nil)) (.cons h0 (.cons h2 .nil))

theorem gives_deref {k : Kind} {p : Option (Ptr k)} {v : Option (Val S k)} (a : OptAt r h p v) :
    Gives r h₀ h (.lift (Res.deref p)) (Res.deref v) (At (k := k) r) := by
  cases p <;> cases v <;> simp only [OptAt] at a
  · exact Gives.panic
  · exact Gives.done fun _ e => a.mono e

theorem gives_attrNym (f : From r h h) {pk : PKGPtr} {pkv : PKG S} (hp : PKGAt r h pk pkv) {attr : Ptr .zr} {av : S.F}
    (ha : At r h attr av) (idx : Int) {audit : Option AuditPtr} {auditv : Option (AuditData S)}
    (hd : OptAuditAt r h audit auditv) (fresh : S.F) :
    Gives r h h (attrNym pk attr idx audit fresh) (Idemix.Aries.attrNym pkv av idx auditv fresh)
      fun h' a b => At (k := .g1) r h' a.1 b.1 ∧ At (k := .zr) r h' a.2 b.2 := by
  cases audit with
  | none =>
    cases auditv with
    | some v => exact hd.elim
    | none =>
      run (gives_new (k := .zr) f fresh) with p0 h0
      try_run (gives_index hp.hs _) with q1 v1 h1
      try_run (gives_build f (.cons hp.h0 (.cons h1 .nil)) (.cons h0 (.cons ha .nil))) with q2 v2 h2
      exact Gives.done fun _ e => ⟨h2.mono e, h0.mono e⟩
  | some a =>
    cases auditv with
    | none => exact hd.elim
    | some v =>
      replace hd : AuditAt r h a v := hd
      get (gives_load ha)
      get (gives_load hd.attr)
      pure_run u
      try_run (gives_index hp.hs _) with q1 v1 h1
      try_run (gives_build f (.cons hp.h0 (.cons h1 .nil)) (.cons hd.rand (.cons hd.attr .nil))) with q2 v2 h2
      try_run (gives_deref hd.nym) with q3 v3 h3
      get (gives_load h3)
      get (gives_load h2)
      pure_run u
      exact Gives.done fun _ e => ⟨h2.mono e, hd.rand.mono e⟩

theorem gives_indexInCommitment (f : From r h h) {p : CommittedPtr} {v : Committed S} (hp : CommittedAt r h p v) (idx : Int)
    {pk : PKGPtr} {pkv : PKG S} (hk : PKGAt r h pk pkv) :
    Gives r h h (indexInCommitment p idx pk) (Idemix.Aries.indexInCommitment v idx pkv) fun _ a b => a = b := by
  try_run (gives_index hk.hs _) with q1 v1 h1
  get (gives_load h1)
  get (gives_loadAll f hp.bases)
  exact Gives.lift

theorem gives_attrCommitment (f : From r h h) {pk : PKGPtr} {pkv : PKG S} (hp : PKGAt r h pk pkv) {pok : PoKPtr}
    {pokv : PoK S} (hq : PoKAt r h pok pokv) {attr : Ptr .zr} {av : S.F} (ha : At r h attr av) (idx : Int)
    {audit : Option AuditPtr} {auditv : Option (AuditData S)} (hd : OptAuditAt r h audit auditv) (fresh t0 : S.F) :
    Gives r h h (attrCommitment pk pok attr idx audit fresh t0)
      (Idemix.Aries.attrCommitment pkv pokv av idx auditv fresh t0) (AttrCommAt r) := by
  refine Gives.bind f (gives_attrNym f hp ha idx hd fresh) fun nr nrv h' _ f' hnr => ?_
  obtain ⟨nym, rd⟩ := nr
  obtain ⟨nymv, rdv⟩ := nrv
  have hn := hnr.1
  have hr := hnr.2
  clear hnr
  simp only at hn hr
  carry f'.ext
  replace f := f'.self
  refine Gives.bind f (gives_indexInCommitment f hq.vc2 idx hp) fun i _ h' _ f' e' => ?_
  subst e'
  carry f'.ext
  replace f := f'.self
  run (gives_new (k := .zr) f t0) with p0 h0
  try_run (gives_index hp.hs _) with q1 v1 h1
  try_run (gives_index hq.vc2.blind _) with q2 v2 h2
  try_run (gives_finish f (.cons hp.h0 (.cons h1 .nil)) (.cons h0 (.cons h2 .nil))) with u uv hu
  exact Gives.done fun _ e => ⟨rfl, hu.mono e, hn.mono e, hr.mono e⟩

theorem gives_onlyIf {α β : Type} {R : Heap S → α → β → Prop} {Q : Heap S → Option α → Option β → Prop} (f : From r h h)
    (b : Bool) {x : Prog S α} {y : Res β} (a : Gives r h h x y R)
    (h1 : ∀ h' h'' u v, R h' u v → Ext r h' h'' → Q h'' (some u) (some v)) (h2 : ∀ h', Q h' none none) :
    Gives r h h (onlyIf b x) (Idemix.Aries.onlyIf b y) Q := by
  cases b with
  | true =>
    refine Gives.bind f a fun u v h' _ f' hr => ?_
    exact Gives.done fun _ e => h1 _ _ _ _ hr e
  | false => exact Gives.done fun _ _ => h2 _

/-! ## The challenge -/

theorem gives_derefComm {p : Option AttrCommPtr} {v : Option (AttrComm S)} (a : OptAttrCommAt r h p v) :
    Gives r h₀ h (.lift (Res.deref p)) (Res.deref v) (AttrCommAt r) := by
  cases p <;> cases v <;> simp only [OptAttrCommAt] at a
  · exact Gives.panic
  · exact Gives.done fun _ e => a.mono e

theorem gives_derefCommitted {p : Option CommittedPtr} {v : Option (Committed S)} (a : OptCommittedAt r h p v) :
    Gives r h₀ h (.lift (Res.deref p)) (Res.deref v) (CommittedAt r) := by
  cases p <;> cases v <;> simp only [OptCommittedAt] at a
  · exact Gives.panic
  · exact Gives.done fun _ e => a.mono e

theorem gives_hashComm (f : From r h h) (b : Bool) {p : Option AttrCommPtr} {v : Option (AttrComm S)}
    (a : OptAttrCommAt r h p v) :
    Gives r h h (hashComm b p) (Idemix.Aries.hashComm b v) fun _ a b => a = b := by
  cases b with
  | false => exact Gives.done fun _ _ => rfl
  | true =>
    try_run (gives_derefComm a) with q qv hq
    get (gives_load hq.comm)
    get (gives_load hq.proof.commitment)
    exact Gives.done fun _ _ => rfl

theorem gives_hashNym (f : From r h h) (b : Bool) {p : Option CommittedPtr} {v : Option (Committed S)}
    (a : OptCommittedAt r h p v) :
    Gives r h h (hashNym b p) (Idemix.Aries.hashNym b v) fun _ a b => a = b := by
  cases b with
  | false => exact Gives.done fun _ _ => rfl
  | true =>
    try_run (gives_derefCommitted a) with q qv hq
    get (gives_load hq.commitment)
    exact Gives.done fun _ _ => rfl

/-- A step that may fail and returns what it computes. -/
macro "get_try " t:term : tactic =>
  `(tactic| (refine Gives.bind $(Lean.mkIdent `f) $t fun _ _ h' _ f' e' => ?_; cases e'; carry f'.ext;
             replace $(Lean.mkIdent `f) := f'.self; clear f'))

theorem gives_challengeHash (f : From r h h) (hc : ConstsAt r h c) {pok : PoKPtr} {pokv : PoK S} (hq : PoKAt r h pok pokv)
    {nym : Ptr .g1} {nymv : S.G1} (hn : At r h nym nymv) {cn : Option CommittedPtr} {cnv : Option (Committed S)}
    (hcn : OptCommittedAt r h cn cnv) {eid rh : Option AttrCommPtr} {eidv rhv : Option (AttrComm S)}
    (he : OptAttrCommAt r h eid eidv) (hr : OptAttrCommAt r h rh rhv) (msg : Bytes) (t : SigType) {nonce : Ptr .zr}
    {nv : S.F} (hnn : At r h nonce nv) :
    Gives r h h (challengeHash L c pok nym cn eid rh msg t nonce)
      (Idemix.Aries.challengeHash L pokv nymv cnv eidv rhv msg t nv) (At (k := .zr) r) := by
  pure_run label
  get (gives_pokBytes f hq)
  get (gives_load hn)
  get_try (gives_hashNym f _ hcn)
  get_try (gives_hashComm f _ he)
  get_try (gives_hashComm f _ hr)
  get (gives_nonceBytes (L := L) f hc msg)
  run (gives_frFromOKM (L := L) f hc _) with ch hch
  get (gives_load hnn)
  exact gives_withNonce f hc hch _

/-! ## The signature -/

theorem gives_respond (f : From r h h) {p : Option CommittedPtr} {v : Option (Committed S)} (a : OptCommittedAt r h p v)
    {ch : Ptr .zr} {chv : S.F} (hch : At r h ch chv) {ss : List (Ptr .zr)} {sv : List S.F} (hs : AtAll (k := .zr) r h ss sv) :
    Gives r h h (respond p ch ss) (Idemix.Aries.respond v chv sv) (OptProofAt r) := by
  cases p <;> cases v <;> simp only [OptCommittedAt] at a
  · exact Gives.done fun _ _ => trivial
  · try_run (gives_generateProofG1 f a hch hs) with q qv hq
    exact Gives.done fun _ e => hq.mono e

theorem gives_respondAttr (f : From r h h) {p : Option AttrCommPtr} {v : Option (AttrComm S)} (a : OptAttrCommAt r h p v)
    {ch : Ptr .zr} {chv : S.F} (hch : At r h ch chv) {attr : Ptr .zr} {av : S.F} (ha : At r h attr av) :
    Gives r h h (respondAttr p ch attr) (Idemix.Aries.respond (v.map (·.proof)) chv [(v.map (·.r)).getD 0, av])
      (OptProofAt r) := by
  cases p <;> cases v <;> simp only [OptAttrCommAt] at a
  · exact Gives.done fun _ _ => trivial
  · exact gives_respond (p := some _) (v := some _) f a.proof hch (.cons a.r (.cons ha .nil))

theorem gives_proofBytes (f : From r h h) {p : Option ProofG1Ptr} {v : Option (ProofG1 S)} (a : OptProofAt r h p v) :
    Gives r h h (proofBytes p) (Idemix.Aries.proofBytes v) fun _ a b => a = b := by
  cases p <;> cases v <;> simp only [OptProofAt] at a
  · exact Gives.done fun _ _ => rfl
  · exact gives_proofG1Bytes f a

theorem gives_commBytes (f : From r h h) {p : Option AttrCommPtr} {v : Option (AttrComm S)} (a : OptAttrCommAt r h p v) :
    Gives r h h (commBytes p) (.ok ((v.map fun a => S.g1Bytes a.comm).getD [])) fun _ a b => a = b := by
  cases p <;> cases v <;> simp only [OptAttrCommAt] at a
  · exact Gives.done fun _ _ => rfl
  · get (gives_load a.comm)
    exact Gives.done fun _ _ => rfl

theorem OptAttrCommAt.index {p : Option AttrCommPtr} {v : Option (AttrComm S)} (a : OptAttrCommAt r h p v) :
    (p.map (·.index)).getD 0 = (v.map (·.index)).getD 0 := by
  cases p <;> cases v <;> simp only [OptAttrCommAt] at a
  · rfl
  · exact a.index

theorem gives_packageProof (f : From r h h) (as : List IdemixAttribute) {nym : Ptr .g1} {nymv : S.G1} (hn : At r h nym nymv)
    {proof : SigProofPtr} {proofv : SigProof S} (hp : SigProofAt r h proof proofv) {pn pe pr : Option ProofG1Ptr}
    {pnv pev prv : Option (ProofG1 S)} (hpn : OptProofAt r h pn pnv) (hpe : OptProofAt r h pe pev)
    (hpr : OptProofAt r h pr prv) {eid rh : Option AttrCommPtr} {eidv rhv : Option (AttrComm S)}
    (he : OptAttrCommAt r h eid eidv) (hr : OptAttrCommAt r h rh rhv) (cri : CRI) {nonce : Ptr .zr} {nv : S.F}
    (hnn : At r h nonce nv) :
    Gives r h h (packageProof as nym proof pn eid pe rh pr cri nonce)
      (Idemix.Aries.packageProof as nymv proofv pnv eidv pev rhv prv cri nv) fun _ a b => a = b := by
  unfold packageProof
  rw [he.index, hr.index]
  pure_run payload
  get_try (gives_sigProofBytes f hp)
  get_try (gives_proofBytes f hpn)
  get_try (gives_proofBytes f hpe)
  get_try (gives_proofBytes f hpr)
  get (gives_load hnn)
  get (gives_load hn)
  get (gives_commBytes f he)
  get (gives_commBytes f hr)
  exact Gives.lift

theorem auditOf_at {p : Option AttrCommPtr} {v : Option (AttrComm S)} (a : OptAttrCommAt r h p v) {attr : Ptr .zr} {av : S.F}
    (ha : At r h attr av) : OptAuditAt r h (auditOf p attr) (Idemix.Aries.auditOf v av) := by
  cases p <;> cases v <;> simp only [OptAttrCommAt] at a
  · trivial
  · exact ⟨a.comm, a.r, ha⟩

theorem signMeta_at (t : SigType) {eid rh : Option AttrCommPtr} {eidv rhv : Option (AttrComm S)}
    (he : OptAttrCommAt r h eid eidv) (hr : OptAttrCommAt r h rh rhv) {p q : Ptr .zr} {v w : S.F} (hp : At r h p v)
    (hq : At r h q w) : OptMetaAt r h (signMeta t eid rh p q) (Idemix.Aries.signMeta t eidv rhv v w) := by
  unfold signMeta Idemix.Aries.signMeta
  split
  · exact ⟨auditOf_at he hp, auditOf_at hr hq, rfl, rfl⟩
  · split
    · exact ⟨auditOf_at he hp, trivial, rfl, rfl⟩
    · trivial

theorem gives_msg {ms : List MsgPtr} {msv : List (SigMsg S)} (hm : MsgsAt r h ms msv) (i : Int) :
    Gives r h₀ h (.lift (Res.index ms i)) (Res.index msv i) (MsgAt r) :=
  Agree.gives ((agree_index hm i).imp fun _ _ x _ g => x.mono g)

theorem optMeta_eid {md : Option MetaPtr} {mdv : Option (SignerMetadata S)} (a : OptMetaAt r h md mdv) :
    OptAuditAt r h (md.bind (·.eidNymAuditData)) (mdv.bind (·.eidNymAuditData)) := by
  cases md <;> cases mdv <;> simp only [OptMetaAt] at a
  · trivial
  · exact a.eid

theorem optMeta_rh {md : Option MetaPtr} {mdv : Option (SignerMetadata S)} (a : OptMetaAt r h md mdv) :
    OptAuditAt r h (md.bind (·.rhNymAuditData)) (mdv.bind (·.rhNymAuditData)) := by
  cases md <;> cases mdv <;> simp only [OptMetaAt] at a
  · trivial
  · exact a.rh

/-- `Signer.Sign`. -/
theorem gives_sign (f : From r h h) (hc : ConstsAt r h c) (credBytes : Bytes) {sk : Ptr .zr} {skv : S.F} (hs : At r h sk skv)
    {nym : Ptr .g1} {nymv : S.G1} (hn : At r h nym nymv) {rNym : Ptr .zr} {rv : S.F} (hr : At r h rNym rv) {key : Dyn IpkPtr}
    {keyv : Dyn (IPK S)} (hk : DynIpkAt r h key keyv) (as : List IdemixAttribute) (msg : Bytes) (rhIndex eidIndex : Int)
    (criRaw : Bytes) (t : SigType) {md : Option MetaPtr} {mdv : Option (SignerMetadata S)} (hmd : OptMetaAt r h md mdv)
    (ρ : SignRand S) :
    Gives r h h (sign L c credBytes sk nym rNym key as msg rhIndex eidIndex criRaw t md ρ)
      (Idemix.Aries.sign L credBytes skv nymv rv keyv as msg rhIndex eidIndex criRaw t mdv ρ)
      fun h' a b => a.1 = b.1 ∧ OptMetaAt r h' a.2 b.2 := by
  pure_run u
  try_run (gives_ipk hk _) with ipk ipkv hi
  have hp := hi.pkg
  pure_run cri
  pure_run u
  pure_run cred
  refine Gives.bind f (gives_getPoK f hc cred as hs hp t hn hr ρ.pok) fun pm pmv h' _ f' hpm => ?_
  obtain ⟨pok, ms⟩ := pm
  obtain ⟨pokv, msv⟩ := pmv
  have hq := hpm.1
  have hm := hpm.2
  clear hpm
  simp only at hq hm
  carry f'.ext
  replace f := f'.self
  try_run (gives_onlyIf (Q := OptCommittedAt r) f (!Idemix.Aries.cardType t) (gives_commitNym f hp hq cred.skPos ρ.nym0)
    (fun _ _ _ _ x e => x.mono e) (fun _ => trivial)) with cn cnv hcn
  try_run (gives_msg hm _) with mE mEv hmE
  have hmE := hmE.fr
  try_run (gives_onlyIf (Q := OptAttrCommAt r) f (Idemix.Aries.eidEnabled t) (gives_attrCommitment f hp hq hmE
    (Idemix.Aries.shiftIndex eidIndex cred.skPos) (optMeta_eid hmd) ρ.rEid ρ.eid0)
    (fun _ _ _ _ x e => x.mono e) (fun _ => trivial)) with eid eidv he
  try_run (gives_msg hm _) with mR mRv hmR
  have hmR := hmR.fr
  try_run (gives_onlyIf (Q := OptAttrCommAt r) f (Idemix.Aries.rhEnabled t) (gives_attrCommitment f hp hq hmR
    (Idemix.Aries.shiftIndex rhIndex cred.skPos) (optMeta_rh hmd) ρ.rRh ρ.rh0)
    (fun _ _ _ _ x e => x.mono e) (fun _ => trivial)) with rh rhv hh
  run (gives_new (k := .zr) f ρ.nonce) with nonce hnn
  try_run (gives_challengeHash (L := L) f hc hq hn hcn he hh msg t hnn) with ch chv hch
  try_run (gives_generateProof f hq hch) with pf pfv hpf
  try_run (gives_respond f hcn hch (.cons hr (.cons hs .nil))) with pn pnv hpn
  try_run (gives_respondAttr f he hch hmE) with pe pev hpe
  try_run (gives_respondAttr f hh hch hmR) with pr prv hpr
  get_try (gives_packageProof f as hn hpf hpn hpe hpr he hh cri hnn)
  exact Gives.done fun _ e => ⟨rfl, (signMeta_at t he hh hmE hmR).mono e⟩

end Idemix.Mem.Aries
