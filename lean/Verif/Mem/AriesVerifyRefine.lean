import Verif.Mem.AriesSignRefine

/-!
# Verifying and auditing with the aries scheme, and the smartcard, on the heap

They do what `Verif/Aries/Signer.lean` and `Verif/Aries/Smartcard.lean` say.
-/

namespace Idemix.Mem.Aries

open Idemix.Bbs (Lib PKG Sig SigMsg ProofG1 SigProof)
open Idemix.Aries (IPK ISK Parsed Signature Card)
open Idemix.Dlog (SigType VerType AuditType AuditData SignerMetadata)
open Idemix.Mem.Dlog (AuditPtr MetaPtr AuditAt OptAuditAt MetaAt OptMetaAt OptAt)
open Idemix.Mem.Bbs

variable {S : Suite} {L : Lib S} {c : Consts} {r : Nat} {h₀ h h' : Heap S}

/-! ## Parsing -/

structure CommAt (r : Nat) (h : Heap S) (p : ProofG1Ptr × Ptr .g1) (v : ProofG1 S × S.G1) : Prop where
  proof : ProofG1At r h p.1 v.1
  comm : At (k := .g1) r h p.2 v.2

def OptCommAt (r : Nat) (h : Heap S) : Option (ProofG1Ptr × Ptr .g1) → Option (ProofG1 S × S.G1) → Prop
  | none, none => True
  | some p, some v => CommAt r h p v
  | _, _ => False

theorem CommAt.mono {p : ProofG1Ptr × Ptr .g1} {v : ProofG1 S × S.G1} (a : CommAt r h p v) (g : Ext r h h') :
    CommAt r h' p v :=
  ⟨a.proof.mono g, a.comm.mono g⟩

theorem OptCommAt.mono {p : Option (ProofG1Ptr × Ptr .g1)} {v : Option (ProofG1 S × S.G1)} (a : OptCommAt r h p v)
    (g : Ext r h h') : OptCommAt r h' p v := by
  cases p <;> cases v <;> simp only [OptCommAt] at a ⊢
  exact a.mono g

structure ParsedAt (r : Nat) (h : Heap S) (p : ParsedPtr) (v : Parsed S) : Prop where
  rev : p.rev = v.rev
  sp : SigProofAt r h p.sp v.sp
  nym : At r h p.nym v.nym
  nymProof : OptProofAt r h p.nymProof v.nymProof
  eid : OptCommAt r h p.eid v.eid
  rh : OptCommAt r h p.rh v.rh

theorem ParsedAt.mono {p : ParsedPtr} {v : Parsed S} (a : ParsedAt r h p v) (g : Ext r h h') : ParsedAt r h' p v :=
  ⟨a.rev, a.sp.mono g, a.nym.mono g, a.nymProof.mono g, a.eid.mono g, a.rh.mono g⟩

theorem gives_newProof (f : From r h h) (v : ProofG1 S) : Gives r h h (newProof v) (.ok v) (ProofG1At r) := by
  run (gives_new (k := .g1) f v.commitment) with p hp
  run (gives_newZrs f v.responses) with ps hps
  exact Gives.done fun _ e => ⟨hp.mono e, AtAll.mono hps e⟩

theorem gives_newProofOpt (f : From r h h) (v : Option (ProofG1 S)) :
    Gives r h h (newProofOpt v) (.ok v) (OptProofAt r) := by
  cases v with
  | none => exact Gives.done fun _ _ => trivial
  | some v =>
    run (gives_newProof f v) with p hp
    exact Gives.done fun _ e => hp.mono e

theorem gives_newCommOpt (f : From r h h) (v : Option (ProofG1 S × S.G1)) :
    Gives r h h (newCommOpt v) (.ok v) (OptCommAt r) := by
  cases v with
  | none => exact Gives.done fun _ _ => trivial
  | some v =>
    run (gives_newProof f v.1) with p hp
    run (gives_new (k := .g1) f v.2) with q hq
    exact Gives.done fun _ e => ⟨hp.mono e, hq.mono e⟩

theorem gives_parseParts (f : From r h h) (sig : Signature) (v : VerType) (n : Nat) :
    Gives r h h (parseParts sig v n) (Idemix.Aries.parseParts S sig v n) (ParsedAt r) := by
  rw [← bind_pure (Idemix.Aries.parseParts S sig v n)]
  pure_run p
  run (gives_new (k := .g1) f p.sp.aPrime) with p1 h1
  run (gives_new (k := .g1) f p.sp.aBar) with p2 h2
  run (gives_new (k := .g1) f p.sp.d) with p3 h3
  run (gives_newProof f p.sp.vc1) with p4 h4
  run (gives_newProof f p.sp.vc2) with p5 h5
  run (gives_new (k := .g1) f p.nym) with p6 h6
  run (gives_newProofOpt f p.nymProof) with p7 h7
  run (gives_newCommOpt f p.eid) with p8 h8
  run (gives_newCommOpt f p.rh) with p9 h9
  exact Gives.done fun _ e => ⟨rfl, ⟨h1.mono e, h2.mono e, h3.mono e, h4.mono e, h5.mono e⟩, h6.mono e, h7.mono e,
    h8.mono e, h9.mono e⟩

/-! ## Verification -/

theorem gives_commHash (f : From r h h) (raw : Bytes) {p : Option (ProofG1Ptr × Ptr .g1)} {v : Option (ProofG1 S × S.G1)}
    (a : OptCommAt r h p v) :
    Gives r h h (commHash raw p) (.ok (Idemix.Aries.commBytes raw v)) fun _ a b => a = b := by
  cases p <;> cases v <;> simp only [OptCommAt] at a
  · exact Gives.done fun _ _ => rfl
  · get (gives_load a.proof.commitment)
    exact Gives.done fun _ _ => rfl

theorem gives_nymProofHash (f : From r h h) {p : Option ProofG1Ptr} {v : Option (ProofG1 S)} (a : OptProofAt r h p v) :
    Gives r h h (nymProofHash p) (.ok (Idemix.Aries.nymProofBytes v)) fun _ a b => a = b := by
  cases p <;> cases v <;> simp only [OptProofAt] at a
  · exact Gives.done fun _ _ => rfl
  · get (gives_load a.commitment)
    exact Gives.done fun _ _ => rfl

theorem gives_verChallenge (f : From r h h) (hc : ConstsAt r h c) {pk : PKGPtr} {pkv : PKG S} (hp : PKGAt r h pk pkv)
    (sig : Signature) (v : VerType) (msg : Bytes) {p : ParsedPtr} {pv : Parsed S} (hq : ParsedAt r h p pv) :
    Gives r h h (verChallenge L c pk sig v msg p) (Idemix.Aries.verChallenge L pkv sig v msg pv) (At (k := .zr) r) := by
  unfold verChallenge
  rw [hq.rev]
  get_try (gives_bytesForChallenge f hq.sp _ hp)
  get (gives_nymProofHash f hq.nymProof)
  get (gives_commHash f sig.nymEid hq.eid)
  get (gives_commHash f sig.nymRh hq.rh)
  get (gives_nonceBytes (L := L) f hc msg)
  run (gives_frFromOKM (L := L) f hc _) with ch hch
  exact gives_withNonce f hc hch _

theorem gives_auditData (f : From r h h) {pk : PKGPtr} {pkv : PKG S} (hp : PKGAt r h pk pkv) (idx : Int) {comm : Ptr .g1}
    {cv : S.G1} (hq : At r h comm cv) {a : Option AuditPtr} {av : Option (AuditData S)} (ha : OptAuditAt r h a av) :
    Gives r h h (auditData pk idx comm a) (Idemix.Aries.auditData pkv idx cv av) fun _ a b => a = b := by
  cases a with
  | none =>
    cases av with
    | none => exact Gives.done fun _ _ => rfl
    | some _ => exact ha.elim
  | some a =>
    cases av with
    | none => exact ha.elim
    | some av =>
      replace ha : AuditAt r h a av := ha
      try_run (gives_index hp.hs _) with q1 v1 h1
      run (gives_g1Mul2 f h1 ha.attr hp.h0 ha.rand) with ne hne
      get (gives_load hne)
      get (gives_load hq)
      pure_run u
      have hn := ha.nym
      revert hn
      cases a.nym with
      | none =>
        cases av.nym with
        | none => exact fun _ => Gives.done fun _ _ => rfl
        | some _ => exact fun hn => hn.elim
      | some n =>
        cases av.nym with
        | none => exact fun hn => hn.elim
        | some nv =>
          intro hn
          replace hn : At r _ n nv := hn
          get (gives_load hq)
          get (gives_load hn)
          exact Gives.lift

theorem gives_auditBytes (f : From r h h) {comm : Ptr .g1} {cv : S.G1} (hq : At r h comm cv) (raw : Bytes) :
    Gives r h h (auditBytes comm raw) (Idemix.Aries.auditBytes S cv raw) fun _ a b => a = b := by
  cases raw with
  | nil => exact Gives.done fun _ _ => rfl
  | cons b bs =>
    pure_run n
    run (gives_new (k := .g1) f n) with p hp
    get (gives_load hp)
    get (gives_load hq)
    exact Gives.lift

theorem gives_audit (f : From r h h) {pk : PKGPtr} {pkv : PKG S} (hp : PKGAt r h pk pkv) (idx : Int)
    {p : Option (ProofG1Ptr × Ptr .g1)} {v : Option (ProofG1 S × S.G1)} (hq : OptCommAt r h p v) {md : Option MetaPtr}
    {mdv : Option (SignerMetadata S)} (hm : OptMetaAt r h md mdv) {data : MetaPtr → Option AuditPtr}
    {datav : SignerMetadata S → Option (AuditData S)} {raw : MetaPtr → Bytes} {rawv : SignerMetadata S → Bytes}
    (hd : ∀ m mv, MetaAt r h m mv → OptAuditAt r h (data m) (datav mv))
    (hr : ∀ m mv, MetaAt r h m mv → raw m = rawv mv) :
    Gives r h h (audit pk idx p md data raw) (Idemix.Aries.audit pkv idx v mdv datav rawv) fun _ a b => a = b := by
  cases p <;> cases v <;> simp only [OptCommAt] at hq
  · exact Gives.done fun _ _ => rfl
  · cases md <;> cases mdv <;> simp only [OptMetaAt] at hm
    · exact Gives.done fun _ _ => rfl
    · rename_i p v m mv
      have hd' := hd m mv hm
      have e := hr m mv hm
      get_try (gives_auditData f hp idx hq.comm hd')
      rw [e]
      exact gives_auditBytes f hq.comm _

theorem gives_checkComm (f : From r h h) {pk : PKGPtr} {pkv : PKG S} (hk : PKGAt r h pk pkv) {sp : SigProofPtr}
    {spv : SigProof S} (hs : SigProofAt r h sp spv) {p : ProofG1Ptr} {v : ProofG1 S} (hp : ProofG1At r h p v)
    {comm : Ptr .g1} {cv : S.G1} (hq : At r h comm cv) (idx resp : Int) {ch : Ptr .zr} {chv : S.F} (hc : At r h ch chv) :
    Gives r h h (checkComm pk sp p comm idx resp ch) (Idemix.Aries.checkComm pkv spv v cv idx resp chv)
      fun _ a b => a = b := by
  try_run (gives_index hp.responses _) with q1 v1 h1
  try_run (gives_index hs.vc2.responses _) with q2 v2 h2
  get (gives_load h1)
  get (gives_load h2)
  pure_run u
  try_run (gives_index hk.hs _) with q3 v3 h3
  exact gives_verifyProofG1 f hp (.cons hk.h0 (.cons h3 .nil)) hq hc

theorem gives_checkAttrComm (f : From r h h) {pk : PKGPtr} {pkv : PKG S} (hk : PKGAt r h pk pkv) {sp : SigProofPtr}
    {spv : SigProof S} (hs : SigProofAt r h sp spv) {p : Option (ProofG1Ptr × Ptr .g1)} {v : Option (ProofG1 S × S.G1)}
    (hp : OptCommAt r h p v) (idx resp : Int) {ch : Ptr .zr} {chv : S.F} (hc : At r h ch chv) :
    Gives r h h (checkAttrComm pk sp p idx resp ch) (Idemix.Aries.checkAttrComm pkv spv v idx resp chv)
      fun _ a b => a = b := by
  cases p <;> cases v <;> simp only [OptCommAt] at hp
  · exact Gives.done fun _ _ => rfl
  · exact gives_checkComm f hk hs hp.proof hp.comm idx resp hc

theorem gives_checkNymProof (f : From r h h) {pk : PKGPtr} {pkv : PKG S} (hk : PKGAt r h pk pkv) {sp : SigProofPtr}
    {spv : SigProof S} (hs : SigProofAt r h sp spv) {p : Option ProofG1Ptr} {v : Option (ProofG1 S)}
    (hp : OptProofAt r h p v) {nym : Ptr .g1} {nv : S.G1} (hn : At r h nym nv) (skIndex : Int) {ch : Ptr .zr} {chv : S.F}
    (hc : At r h ch chv) :
    Gives r h h (checkNymProof pk sp p nym skIndex ch) (Idemix.Aries.checkNymProof pkv spv v nv skIndex chv)
      fun _ a b => a = b := by
  cases p <;> cases v <;> simp only [OptProofAt] at hp
  · exact Gives.done fun _ _ => rfl
  · exact gives_checkComm f hk hs hp hn _ _ hc

theorem smartcardVC2Verify_ok (hc : ConstsAt r h₀ c) {nym : Ptr .g1} {nv : S.G1} (hn : At r h₀ nym nv) {h : Heap S}
    (g : Ext r h₀ h) {ch : Ptr .zr} {chv : S.F} {pk : PKGPtr}
    {pkv : PKG S} (rev : List Nat) {ms : List MsgPtr} {msv : List (SigMsg S)} {p : ProofG1Ptr} {v : ProofG1 S}
    {d : Ptr .g1} {dv : S.G1} (f : From r h h) (hch : At r h ch chv) (hpk : PKGAt r h pk pkv) (hm : MsgsAt r h ms msv)
    (hp : ProofG1At r h p v) (hd : At r h d dv) :
    Gives r h h (smartcardVC2Verify c nym ch pk rev ms p d) (Idemix.Aries.smartcardVC2Verify nv chv pkv rev msv v dv)
      fun _ a b => a = b := by
  unfold smartcardVC2Verify Idemix.Aries.smartcardVC2Verify
  rw [hpk.count]
  refine Gives.bind f Gives.lift fun _ _ h₁ _ f₁ _ => ?_
  refine Gives.seq f₁.self (gives_new (k := .zr) f₁.self (S.zrOfInt 1)) fun one h₂ f₂ ho => ?_
  have F₂ := f₁.trans f₂
  refine Gives.bind f₂.self (Agree.gives (R := fun h' a b =>
      List.Forall₂ (fun (p : Ptr .g1 × Ptr .zr) (q : S.G1 × S.F) => At r h' p.1 q.1 ∧ At r h' p.2 q.2) a.1 b.1 ∧
      AtAll (k := .g1) r h' a.2 b.2) ((agree_splitGens rev pk.h.tail 1 pkv.h.tail ms msv
        (by simpa using AtAll.mono (List.forall₂_drop 1 hpk.hs) F₂.ext)
        (hm.mono F₂.ext)).imp fun _ _ x _ g => ⟨List.Forall₂.imp (fun _ _ y => ⟨y.1.mono g, y.2.mono g⟩) x.1,
          AtAll.mono x.2 g⟩)) fun sp spv h₃ _ f₃ hsp => ?_
  obtain ⟨dis, hid⟩ := sp
  obtain ⟨disv, hidv⟩ := spv
  have F₃ := F₂.trans f₃
  refine Gives.seq f₃.self (gives_new (k := .zr) f₃.self (S.zrOfInt 1)) fun one' h₃' f₃' ho' => ?_
  have F₃' := F₃.trans f₃'
  have hg := hc.genG1.mono (g.trans F₃'.ext)
  have hn' := hn.mono (g.trans F₃'.ext)
  refine Gives.call f₃'.self (gives_copy f₃'.self hg) fun pr h₄ f₄ n => ?_
  refine Gives.seq₀ f₄ (gives_g1Sub n (hg.mono f₄.ext)) fun _ h₅ f₅ n => ?_
  have hds : List.Forall₂ (fun (p : Ptr .g1 × Ptr .zr) (q : S.G1 × S.F) => At r h₃' p.1 q.1 ∧ At r h₃' p.2 q.2)
      ((c.genG1, one) :: dis ++ [(nym, one')]) ((S.genG1, S.zrOfInt 1) :: disv ++ [(nv, S.zrOfInt 1)]) := by
    refine List.rel_append (.cons ⟨hg, (ho.1.mono f₃.ext).mono f₃'.ext⟩ ?_) (.cons ⟨hn', ho'.1⟩ .nil)
    exact List.Forall₂.imp (fun _ _ y => ⟨y.1.mono f₃'.ext, y.2.mono f₃'.ext⟩) hsp.1
  refine Gives.seq₀ f₅ (gives_sumDisclosed _ h₅ _ _ f₅ n hds) fun _ h₆ f₆ n => ?_
  refine Gives.seq₀ f₆ (gives_g1Neg n) fun _ h₇ f₇ n => ?_
  refine Gives.base f₇ ?_
  have F₇ := F₃'.trans f₇
  have n := n.1
  simp only [sub_self, zero_add, List.cons_append, List.map_cons, List.sum_cons, List.map_append, List.sum_append,
    List.map_nil, List.sum_nil, add_zero, ← add_assoc] at n
  exact gives_badSignature (gives_verifyProofG1 f₇.self (hp.mono F₇.ext)
    (.cons (hd.mono F₇.ext) (.cons (hpk.h0.mono F₇.ext) (AtAll.mono hsp.2 (f₃'.trans f₇).ext))) n (hch.mono F₇.ext))

/-- `Signer.Verify`. -/
theorem gives_verify (f : From r h h) (hc : ConstsAt r h c) {key : Dyn IpkPtr} {keyv : Dyn (IPK S)}
    (hk : DynIpkAt r h key keyv) (signature msg : Bytes) (as : List IdemixAttribute) (rhIndex eidIndex skIndex : Int)
    (v : VerType) {md : Option MetaPtr} {mdv : Option (SignerMetadata S)} (hmd : OptMetaAt r h md mdv) :
    Gives r h h (verify L c key signature msg as rhIndex eidIndex skIndex v md)
      (Idemix.Aries.verify L keyv signature msg as rhIndex eidIndex skIndex v mdv) fun _ a b => a = b := by
  try_run (gives_ipk hk _) with ipk ipkv hi
  have hp := hi.pkg
  pure_run sig
  pure_run u
  pure_run u
  try_run (gives_attributesToSignatureMessage (L := L) f hc as skIndex) with ms msv hm
  rw [List.Forall₂.length_eq hm]
  try_run (gives_parseParts f sig v _) with p pv hq
  try_run (gives_verChallenge (L := L) f hc hp sig v msg hq) with ch chv hch
  get_try (gives_audit f hp _ hq.eid hmd (fun _ _ x => x.eid) (fun _ _ x => x.eidNym))
  get_try (gives_audit f hp _ hq.rh hmd (fun _ _ x => x.rh) (fun _ _ x => x.rhNym))
  get_try (gives_checkNymProof f hp hq.sp hq.nymProof hq.nym skIndex hch)
  get_try (gives_checkAttrComm f hp hq.sp hq.eid _ _ hch)
  get_try (gives_checkAttrComm f hp hq.sp hq.rh _ _ hch)
  rw [hq.rev]
  have hn := hq.nym
  refine gives_verifySigProof f hc ?_ hq.sp hch hp _ hm
  intro h' ch chv pk pkv rev ms msv p v' d dv g f' a1 a2 a3 a4 a5
  unfold vc2For Idemix.Aries.vc2For
  cases Idemix.Aries.cardVer v with
  | true => exact smartcardVC2Verify_ok hc hn g rev f' a1 a2 a3 a4 a5
  | false => exact defaultVC2Verify_ok hc g rev f' a1 a2 a3 a4 a5

/-! ## Auditing -/

theorem gives_auditOpen (f : From r h h) (hc : ConstsAt r h c) {pk : PKGPtr} {pkv : PKG S} (hp : PKGAt r h pk pkv)
    (index skIndex : Int) (value : Bytes) {rand : Ptr .zr} {rv : S.F} (hr : At r h rand rv) {t : Ptr .g1} {tv : S.G1}
    (ht : At r h t tv) :
    Gives r h h (auditOpen L c pk index skIndex value rand t) (Idemix.Aries.auditOpen L pkv index skIndex value rv tv)
      fun _ a b => a = b := by
  run (gives_frFromOKM (L := L) f hc value) with a ha
  try_run (gives_index hp.hs _) with q1 v1 h1
  run (gives_g1Mul2 f h1 ha hp.h0 hr) with ne hne
  get (gives_load hne)
  get (gives_load ht)
  exact Gives.lift

/-- `AuditNymEid`. -/
theorem gives_auditNymEid (f : From r h h) (hc : ConstsAt r h c) {key : Dyn IpkPtr} {keyv : Dyn (IPK S)}
    (hk : DynIpkAt r h key keyv) (eidIndex skIndex : Int) (signature eid : Bytes) {rand : Ptr .zr} {rv : S.F}
    (hr : At r h rand rv) (t : AuditType) :
    Gives r h h (auditNymEid L c key eidIndex skIndex signature eid rand t)
      (Idemix.Aries.auditNymEid L keyv eidIndex skIndex signature eid rv t) fun _ a b => a = b := by
  try_run (gives_ipk hk _) with ipk ipkv hi
  have hp := hi.pkg
  pure_run t
  run (gives_new (k := .g1) f t) with q hq
  exact gives_auditOpen f hc hp _ _ _ hr hq

/-- `AuditNymRh`. -/
theorem gives_auditNymRh (f : From r h h) (hc : ConstsAt r h c) {key : Dyn IpkPtr} {keyv : Dyn (IPK S)}
    (hk : DynIpkAt r h key keyv) (rhIndex skIndex : Int) (signature handle : Bytes) {rand : Ptr .zr} {rv : S.F}
    (hr : At r h rand rv) (t : AuditType) :
    Gives r h h (auditNymRh L c key rhIndex skIndex signature handle rand t)
      (Idemix.Aries.auditNymRh L keyv rhIndex skIndex signature handle rv t) fun _ a b => a = b := by
  try_run (gives_ipk hk _) with ipk ipkv hi
  have hp := hi.pkg
  pure_run t
  run (gives_new (k := .g1) f t) with q hq
  exact gives_auditOpen f hc hp _ _ _ hr hq

/-! ## The smartcard -/

structure CardAt (r : Nat) (h : Heap S) (p : CardPtr) (v : Card S) : Prop where
  h0 : At r h p.h0 v.h0
  h1 : At r h p.h1 v.h1
  h2 : At r h p.h2 v.h2
  uid : At r h p.uid v.uid
  eid : At r h p.eid v.eid
  k0 : p.k0 = v.k0
  k1 : p.k1 = v.k1
  ctr : At (k := .int) r h p.ctr v.ctr.toInt

def DynCardAt (r : Nat) (h : Heap S) : Dyn CardPtr → Dyn (Card S) → Prop
  | .val p, .val v => CardAt r h p v
  | .nilPtr, .nilPtr => True
  | .other, .other => True
  | _, _ => False

theorem CardAt.mono {p : CardPtr} {v : Card S} (a : CardAt r h p v) (g : Ext r h h') : CardAt r h' p v :=
  ⟨a.h0.mono g, a.h1.mono g, a.h2.mono g, a.uid.mono g, a.eid.mono g, a.k0, a.k1, a.ctr.mono g⟩

theorem DynCardAt.mono {p : Dyn CardPtr} {v : Dyn (Card S)} (a : DynCardAt r h p v) (g : Ext r h h') :
    DynCardAt r h' p v := by
  cases p <;> cases v <;> simp only [DynCardAt] at a ⊢
  exact a.mono g

theorem gives_getNymEid (f : From r h h) {p : CardPtr} {v : Card S} (hp : CardAt r h p v) :
    Gives r h h (getNymEid p) (.ok v.getNymEid) fun h' a b => At (k := .zr) r h' a.1 b.1 ∧ At (k := .g1) r h' a.2 b.2 := by
  unfold getNymEid
  get (gives_load hp.ctr)
  rw [hp.k0, Int16.ofInt_toInt]
  run (gives_new (k := .zr) f _) with s hs
  run (gives_g1Mul2 f hp.h0 hs hp.h2 hp.eid) with t ht
  exact Gives.done fun _ e => ⟨hs.mono e, ht.mono e⟩

theorem gives_cardHash (f : From r h h) (sha : Bytes → Bytes) {h0 h1 h2 b b' t : Ptr .g1} {v0 v1 v2 vb vb' vt : S.G1}
    (a0 : At r h h0 v0) (a1 : At r h h1 v1) (a2 : At r h h2 v2) (ab : At r h b vb) (ab' : At r h b' vb') (at' : At r h t vt)
    (msg : Bytes) :
    Gives r h h (cardHash sha h0 h1 h2 b b' t msg)
      (.ok (S.zrOfBytes (sha (Idemix.Aries.cardHashInput v0 v1 v2 vb vb' vt msg)))) (At (k := .zr) r) := by
  get (gives_load a0)
  get (gives_load a1)
  get (gives_load a2)
  get (gives_load ab)
  get (gives_load ab')
  get (gives_load at')
  exact (gives_new (k := .zr) f _).imp fun _ _ _ n => n.1

theorem gives_cardNymSign (f : From r h h) (sha : Bytes → Bytes) {p : CardPtr} {v : Card S} (hp : CardAt r h p v)
    (msg seed : Bytes) (xt rt : S.F) :
    Gives r h h (cardNymSign sha p msg seed xt rt) (.ok (v.nymSign sha msg seed xt rt)) fun _ a b => a = b := by
  unfold cardNymSign
  rw [hp.k1]
  run (gives_new (k := .zr) f _) with r1 hr1
  run (gives_g1Mul2 f hp.h0 hr1 hp.h1 hp.uid) with b hb
  run (gives_new (k := .zr) f xt) with px hx
  run (gives_new (k := .zr) f rt) with pr hr
  run (gives_g1Mul2 f hp.h0 hr hp.h1 hx) with b' hb'
  run (gives_getNymEid f hp) with st hst
  have hst := hst.2
  run (gives_cardHash f sha hp.h0 hp.h1 hp.h2 hb hb' hst msg) with ch hch
  get (gives_load hb)
  get (gives_load hb')
  run (gives_zrMul f hch hp.uid) with cu hcu
  run (gives_zrPlus f hx hcu) with x hx'
  run (gives_zrMul f hch hr1) with cr hcr
  run (gives_zrPlus f hr hcr) with y hy
  get (gives_load hx')
  get (gives_load hy)
  exact Gives.done fun _ _ => rfl

theorem gives_nymVerifyCard (f : From r h h) (sha : Bytes → Bytes) {h0 h1 h2 nym : Ptr .g1} {v0 v1 v2 nv : S.G1}
    (a0 : At r h h0 v0) (a1 : At r h h1 v1) (a2 : At r h h2 v2) (proof : Bytes) (hn : At r h nym nv) (msg : Bytes) :
    Gives r h h (nymVerifyCard sha h0 h1 h2 proof nym msg)
      (Idemix.Aries.nymVerifyCard S sha v0 v1 v2 proof nv msg) fun _ a b => a = b := by
  pure_run bb
  pure_run b
  run (gives_new (k := .g1) f b) with pb hb
  pure_run bb'
  pure_run b'
  run (gives_new (k := .g1) f b') with pb' hb'
  pure_run xb
  run (gives_new (k := .zr) f _) with px hx
  pure_run rb
  run (gives_new (k := .zr) f _) with pr hr
  run (gives_cardHash f sha a0 a1 a2 hb hb' hn msg) with ch hch
  run (gives_g1Mul2 f a0 hr a1 hx) with l hl
  run (gives_new (k := .zr) f _) with one ho
  run (gives_g1Mul2 f hb' ho hb hch) with rhs hrhs
  get (gives_load hl)
  get (gives_load hrhs)
  exact Gives.lift

/-- `SmartcardIdemixBackend.Sign`. -/
theorem gives_cardSign (f : From r h h) (sha : Bytes → Bytes) {key : Dyn CardPtr} {keyv : Dyn (Card S)}
    (hk : DynCardAt r h key keyv) (digest seed : Bytes) (xt rt : S.F) :
    Gives r h h (cardSign sha key digest seed xt rt) (Idemix.Aries.cardSign sha keyv digest seed xt rt)
      fun h' a b => a.1 = b.1 ∧ At (k := .g1) r h' a.2.1 b.2.1 ∧ At (k := .zr) r h' a.2.2 b.2.2 := by
  cases key <;> cases keyv <;> simp only [DynCardAt] at hk
  · rename_i p v
    refine Gives.bind f (Gives.done (fun _ e => hk.mono e) :
      Gives r h h (.lift (.ok p)) (.ok v) fun h' a b => CardAt r h' a b) fun p v h' _ f' hk => ?_
    replace f := f'.self
    get (gives_cardNymSign f sha hk digest seed xt rt)
    pure_run s
    pure_run nb
    pure_run n
    run (gives_new (k := .g1) f n) with q hq
    rw [hk.k1]
    run (gives_new (k := .zr) f _) with z hz
    exact Gives.done fun _ e => ⟨rfl, hq.mono e, hz.mono e⟩
  · exact Gives.panic
  · exact Gives.fail

/-- `SmartcardIdemixBackend.Verify`. -/
theorem gives_cardVerify (f : From r h h) (sha : Bytes → Bytes) {key : Dyn IpkPtr} {keyv : Dyn (IPK S)}
    (hk : DynIpkAt r h key keyv) {nym : Ptr .g1} {nv : S.G1} (hn : At r h nym nv) (signature digest : Bytes) :
    Gives r h h (cardVerify sha key nym signature digest) (Idemix.Aries.cardVerify sha keyv nv signature digest)
      fun _ a b => a = b := by
  cases key <;> cases keyv <;> simp only [DynIpkAt] at hk
  · have hp := hk.pkg
    try_run (gives_index hp.hs _) with q1 v1 h1
    try_run (gives_index hp.hs _) with q2 v2 h2
    exact gives_nymVerifyCard f sha hp.h0 h1 h2 signature hn digest
  · exact Gives.panic
  · exact Gives.panic

end Idemix.Mem.Aries
