import Verif.Mem.DlogSignRefine

/-!
# Verification and audits of the dlog scheme on the heap do what `Verif/Dlog/Sign.lean` says; so do weak Boneh-Boyen signatures
-/

namespace Idemix.Mem.Dlog

open Idemix.Dlog (IssuerPublicKey IssuerKey CredRequest Credential NymSignature Signature AttrNym CRI SigType VerType
  NonRevocationProof NymRand SigRand IpkMarshal AuditData SignerMetadata Prepared AttrNymPart)
open Idemix.Mem.Bbs (Agree Agree.gives Agree.imp agree_index agree_mapM')

variable {S : Suite} {T : Translator S} {c : Consts} {r : Nat} {h₀ h h' : Heap S}

/-! ## Audits -/

theorem gives_auditSigNym (f : From r h h) (an : Option AttrNym) {ipk : Ipk} {ipkv : IssuerPublicKey} (hi : IpkAt r h ipk ipkv)
    {attr : Ptr .zr} {av : S.F} (ha : At r h attr av) (idx : Int) {ρ : Ptr .zr} {ρv : S.F} (hρ : At r h ρ ρv) :
    Gives r h h (auditSigNym T an ipk attr idx ρ) (Idemix.Dlog.auditSigNym T an ipkv av idx ρv) (fun _ a b => a = b) := by
  obtain ⟨hash, rfl, hh⟩ := hi
  pure_run an
  pure_run en
  pure_run _u
  pure_run hE
  try_run (gives_g1FromProto f hE) with hp vh ah
  try_run (gives_g1FromProto f _) with hRand vr ar
  try_run (gives_g1FromProto f _) with nym vn hn
  run (gives_g1Mul2 f ah ha ar hρ) with m hm
  get (gives_load hm)
  get (gives_load hn)
  exact Gives.lift

theorem gives_auditRawNym (f : From r h h) (nymBytes : Bytes) {ipk : Ipk} {ipkv : IssuerPublicKey} (hi : IpkAt r h ipk ipkv)
    {attr : Ptr .zr} {av : S.F} (ha : At r h attr av) (idx : Int) {ρ : Ptr .zr} {ρv : S.F} (hρ : At r h ρ ρv) :
    Gives r h h (auditRawNym T nymBytes ipk attr idx ρ) (Idemix.Dlog.auditRawNym T nymBytes ipkv av idx ρv)
      (fun _ a b => a = b) := by
  obtain ⟨hash, rfl, hh⟩ := hi
  pure_run _u
  pure_run _u
  pure_run hE
  try_run (gives_g1FromProto f hE) with hp vh ah
  try_run (gives_g1FromProto f _) with hRand vr ar
  pure_run n
  run (gives_new (k := .g1) f n) with nym hn
  run (gives_g1Mul2 f ah ha ar hρ) with m hm
  get (gives_load hm)
  get (gives_load hn)
  exact Gives.lift

/-! ## Verification -/

theorem gives_addDisclosed {hs : List (Ptr .g1)} {hv : List S.G1} {vals : List (Option (Ptr .zr))} {vv : List (Option S.F)}
    (ah : AtAll (k := .g1) r h₀ hs hv) (av : OptsAt (k := .zr) r h₀ vals vv) {acc : Ptr .g1} (ds : Bytes) :
    ∀ (h : Heap S) (v : S.G1) (i : Nat), From r h₀ h → New (k := .g1) r h₀ h acc v →
      Gives r h₀ h (addDisclosed hs vals acc i ds) (Idemix.Dlog.addDisclosed hv vv v i ds)
        fun h' _ w => New (k := .g1) r h₀ h' acc w := by
  induction ds with
  | nil => exact fun h v i f a => Gives.done fun _ e => a.mono e
  | cons d ds ih =>
    intro h v i f a
    by_cases hd : d = 0
    · simp only [addDisclosed, Idemix.Dlog.addDisclosed, if_pos hd]
      exact ih h v (i + 1) f a
    · simp only [addDisclosed, Idemix.Dlog.addDisclosed, if_neg hd]
      have g1 := Agree.gives (r := r) (h₀ := h) (R := At (k := .g1) r)
        ((agree_nth (AtAll.mono ah f.ext) i).imp fun _ _ x _ g => x.mono g)
      refine Gives.callBind f g1 fun p w h₁ _ f₁ a₁ => ?_
      have F₁ := f.trans f₁
      have g2 := Agree.gives (r := r) (h₀ := h₁) (R := OptAt (k := .zr) r)
        ((agree_nth (OptsAt.mono av F₁.ext) i).imp fun _ _ x _ g => x.mono g)
      refine Gives.callBind F₁ g2 fun o ov h₂ _ f₂ a₂ => ?_
      have F₂ := F₁.trans f₂
      cases o <;> cases ov <;> simp only [OptAt] at a₂
      · exact Gives.panic
      · show Gives r h₀ h₂ ((g1Mul _ _).bind _) (Idemix.Dlog.addDisclosed _ _ _ _ _) _
        refine Gives.call F₂ (gives_g1Mul f₂.self (a₁.mono f₂.ext) a₂) fun m h₃ f₃ n => ?_
        have F₃ := F₂.trans f₃
        refine Gives.seq₀ F₃ (gives_g1Add (a.mono ((f₁.trans f₂).trans f₃).ext) n.1) fun _ h₄ f₄ n => ?_
        exact ih h₄ _ _ f₄ n

theorem gives_pairInv (f : From r h h) (hc : ConstsAt r h c) {aBar : Ptr .g1} {bv : S.G1} (h2 : At r h aBar bv) :
    Gives r h h (pairInv c aBar) (.ok (-(S.pair S.genG2 bv))) (At (k := .gt) r) := by
  get (gives_load hc.genG2)
  get (gives_load h2)
  refine Gives.seq₀ f (gives_new (k := .gt) f _) fun t h₁ f₁ n => ?_
  refine Gives.seq₀ f₁ (gives_gtInv n) fun _ h₂ f₂ n => ?_
  exact Gives.done fun _ e => n.1.mono e

theorem gives_pairings (f : From r h h) (hc : ConstsAt r h c) {w : Ptr .g2} {wv : S.G2} (hw : At r h w wv)
    {aPrime aBar : Ptr .g1} {av bv : S.G1} (h1 : At r h aPrime av) (h2 : At r h aBar bv) :
    Gives r h h (pairings c w aPrime aBar) (.ok (decide (S.pair wv av + -(S.pair S.genG2 bv) = 0))) (fun _ a b => a = b) := by
  get (gives_load hw)
  get (gives_load h1)
  refine Gives.call f (gives_new (k := .gt) f _) fun t1 h₁ f₁ n => ?_
  refine Gives.call f₁ (gives_pairInv f₁.self (hc.mono f₁.ext) (h2.mono f₁.ext)) fun t2 h₂ f₂ a => ?_
  have F₂ := f₁.trans f₂
  refine Gives.seq₀ F₂ (gives_gtMul (n.mono f₂.ext) a) fun _ h₃ f₃ n => ?_
  refine Gives.seq₀ f₃ (gives_load n.1) fun _ h₄ f₄ e => ?_
  subst e
  exact Gives.done fun _ _ => rfl

theorem gives_verTemp (f : From r h h) {aBar bPrime : Ptr .g1} {av bv : S.G1} {pc : Ptr .zr} {cv : S.F} (h1 : At r h aBar av)
    (h2 : At r h bPrime bv) (h3 : At r h pc cv) :
    Gives r h h (verTemp aBar bPrime pc) (.ok (cv • (av - bv))) (At (k := .g1) r) := by
  refine Gives.seq₀ f (gives_copy f h1) fun t h₁ f₁ n => ?_
  refine Gives.seq₀ f₁ (gives_g1Sub n (h2.mono f₁.ext)) fun _ h₂ f₂ n => ?_
  exact (gives_g1Mul f₂ n.1 (h3.mono f₂.ext)).imp fun _ _ _ n => n.1

theorem gives_verT1 (f : From r h h) {aPrime hRand aBar bPrime : Ptr .g1} {apv rv av bv : S.G1} {sE sR2 pc : Ptr .zr}
    {ev r2v cv : S.F} (h1 : At r h aPrime apv) (h2 : At r h sE ev) (h3 : At r h hRand rv) (h4 : At r h sR2 r2v)
    (h5 : At r h aBar av) (h6 : At r h bPrime bv) (h7 : At r h pc cv) :
    Gives r h h (verT1 aPrime sE hRand sR2 aBar bPrime pc) (.ok (ev • apv + r2v • rv - cv • (av - bv))) (At (k := .g1) r) := by
  refine Gives.call f (gives_g1Mul2 f h1 h2 h3 h4) fun t h₁ f₁ n => ?_
  refine Gives.call f₁ (gives_verTemp f₁.self (h5.mono f₁.ext) (h6.mono f₁.ext) (h7.mono f₁.ext)) fun m h₂ f₂ a => ?_
  refine Gives.seq₀ (f₁.trans f₂) (gives_g1Sub (n.mono f₂.ext) a) fun _ h₃ f₃ n => ?_
  exact Gives.done fun _ e => n.1.mono e

theorem gives_verDisclosed (f : From r h h) (hc : ConstsAt r h c) {hs : List (Ptr .g1)} {hv : List S.G1}
    {vals : List (Option (Ptr .zr))} {vv : List (Option S.F)} (ah : AtAll (k := .g1) r h hs hv)
    (av : OptsAt (k := .zr) r h vals vv) (disclosure : Bytes) {pc : Ptr .zr} {cv : S.F} (h3 : At r h pc cv) :
    Gives r h h (verDisclosed c hs vals disclosure pc)
      (Idemix.Dlog.addDisclosed hv vv S.genG1 0 disclosure) (fun h' p d => At (k := .g1) r h' p (cv • d)) := by
  rw [← Res.bind_ok (Idemix.Dlog.addDisclosed _ _ _ _ _)]
  refine Gives.seq₀ f (gives_copy f hc.genG1) fun t h₁ f₁ n => ?_
  refine Gives.bind₀ f₁ (gives_addDisclosed ah av disclosure h₁ _ 0 f₁ n) fun _ w h₂ _ f₂ n => ?_
  exact (gives_g1Mul f₂ n.1 (h3.mono f₂.ext)).to fun _ _ n => n.1

theorem gives_verT2 (f : From r h h) (hc : ConstsAt r h c) {hRand bPrime hSk : Ptr .g1} {rv bv kv : S.G1}
    {s r3 k pc : Ptr .zr} {sv r3v skv cv : S.F}
    (h1 : At r h hRand rv) (h2 : At r h s sv) (h3 : At r h bPrime bv) (h4 : At r h r3 r3v) (h5 : At r h hSk kv)
    (h6 : At r h k skv) {ss : List (Ptr .zr)} {ssv : List S.F} (h7 : AtAll (k := .zr) r h ss ssv) {bs hs : List (Ptr .g1)}
    {bsv hv : List S.G1} (h8 : AtAll (k := .g1) r h bs bsv) (ah : AtAll (k := .g1) r h hs hv)
    {vals : List (Option (Ptr .zr))} {vv : List (Option S.F)} (av : OptsAt (k := .zr) r h vals vv) (disclosure : Bytes)
    (h9 : At r h pc cv) :
    Gives r h h (verT2 c hRand s bPrime r3 hSk k ss bs hs vals disclosure pc)
      (do
        let t2a ← Idemix.Dlog.addPairs (sv • rv + (r3v • bv + skv • kv)) ssv bsv
        let disc ← Idemix.Dlog.addDisclosed hv vv S.genG1 0 disclosure
        .ok (t2a, disc)) fun h' p v => At (k := .g1) r h' p (v.1 + cv • v.2) := by
  refine Gives.callBind f (gives_t2Block f h1 h2 h3 h4 h5 h6 h7 h8) fun t2 v h₁ _ f₁ n => ?_
  have g := gives_verDisclosed f₁.self (hc.mono f₁.ext) (AtAll.mono ah f₁.ext) (OptsAt.mono av f₁.ext) disclosure
    (h9.mono f₁.ext)
  refine Gives.callBind f₁ g fun m x h₂ _ f₂ a => ?_
  have F₂ := f₁.trans f₂
  refine Gives.seq₀ F₂ (gives_g1Add (n.mono f₂.ext) a) fun _ h₃ f₃ n => ?_
  exact Gives.done fun _ e => n.1.mono e

theorem gives_verV (f : From r h h) (b : Bytes) :
    Gives r h h (verV b) (.ok (S.zrOfBytes b)) (At (k := .zr) r) := by
  refine Gives.seq₀ f (gives_new (k := .zr) f _) fun t h₁ f₁ n => ?_
  refine Gives.seq₀ f₁ (gives_renew n) fun _ h₂ f₂ n => ?_
  exact Gives.done fun _ e => n.1.mono e

/-- A pseudonym and its t-value. -/
def BothAt (r : Nat) (h : Heap S) (p : Ptr .g1 × Ptr .g1) (v : S.G1 × S.G1) : Prop :=
  At (k := .g1) r h p.1 v.1 ∧ At (k := .g1) r h p.2 v.2

theorem pairAt {p : Option (Ptr .g1 × Ptr .g1)} {v : Option (S.G1 × S.G1)} (a : OptRel (BothAt r) h p v) :
    PairAt r h p v := by
  cases p <;> cases v <;> simp only [OptRel] at a <;> exact a

theorem gives_recomputeT4 (f : From r h h) {ipk : Ipk} {ipkv : IssuerPublicKey} (hi : IpkAt r h ipk ipkv) {hRand : Ptr .g1}
    {rv : S.G1} (h1 : At r h hRand rv) {pc : Ptr .zr} {cv : S.F} (h2 : At r h pc cv) {ss : List (Ptr .zr)} {sv : List S.F}
    (h3 : AtAll (k := .zr) r h ss sv) (hidden : List Nat) (idx : Int) (an : Option AttrNym) :
    Gives r h h (recomputeT4 T ipk hRand pc ss hidden idx an)
      (Idemix.Dlog.recomputeT4 T ipkv rv cv sv hidden idx an) (BothAt r) := by
  obtain ⟨hash, rfl, hh⟩ := hi
  pure_run hE
  try_run (gives_g1FromProto f hE) with hp vh ah
  pure_run an
  try_run (gives_nth h3 _) with sA vsA hsA
  run (gives_verV f (an.proofS.getD [])) with v hv
  try_run (gives_g1FromProto f _) with nym vn hn
  run (gives_mul2Sub f ah hsA h1 hv hn h2) with t4 ht4
  exact Gives.done fun h' e => ⟨hn.mono e, ht4.mono e⟩

/-- The rest of `metaAudit` after the check of the audit data. -/
theorem gives_metaRaw (f : From r h h) {nym : Ptr .g1} {nv : S.G1} (hn : At r h nym nv) (raw : Bytes) :
    Gives r h h (if raw.length = 0 then pure () else do
        let n ← .lift (Res.ofOption "failed to unmarshal meta nym" (S.g1OfBytes raw))
        let n ← new .g1 n
        let x ← load n
        let nv ← load nym
        .lift (Res.guardErr (!decide ((x : S.G1) = nv)) "signature nym does not match metadata") : Prog S Unit)
      (if raw.length = 0 then pure () else do
        let n ← Res.ofOption "failed to unmarshal meta nym" (S.g1OfBytes raw)
        Res.guardErr (!decide (n = nv)) "signature nym does not match metadata") (fun _ a b => a = b) := by
  by_cases hr : raw.length = 0
  · rw [if_pos hr, if_pos hr]
    exact Gives.done fun _ _ => rfl
  · rw [if_neg hr, if_neg hr]
    pure_run n
    run (gives_new (k := .g1) f n) with p hp
    get (gives_load hp)
    get (gives_load hn)
    exact Gives.lift

theorem gives_metaAudit (f : From r h h) {ipk : Ipk} {ipkv : IssuerPublicKey} (hi : IpkAt r h ipk ipkv) {hRand nym : Ptr .g1}
    {rv nv : S.G1} (h1 : At r h hRand rv) (hn : At r h nym nv) (idx : Int) {ad : Option AuditPtr} {adv : Option (AuditData S)}
    (ha : OptAuditAt r h ad adv) (raw : Bytes) :
    Gives r h h (metaAudit T ipk hRand nym idx ad raw) (Idemix.Dlog.metaAudit T ipkv rv nv idx adv raw)
      (fun _ a b => a = b) := by
  obtain ⟨hash, rfl, hh⟩ := hi
  cases ad <;> cases adv <;> simp only [OptAuditAt] at ha
  · exact gives_metaRaw f hn raw
  · rename_i ad adv
    obtain ⟨n, ra, at'⟩ := ad
    obtain ⟨nv', rv', av'⟩ := adv
    obtain ⟨g1, g2, g3⟩ := ha
    unfold metaAudit Idemix.Dlog.metaAudit
    dsimp only
    pure_run hE
    try_run (gives_g1FromProto f hE) with hp vh ah
    run (gives_g1Mul2 f ah g3 h1 g2) with m hm
    get (gives_load hm)
    get (gives_load hn)
    pure_run _u
    cases n <;> cases nv' <;> simp only [OptAt] at g1
    · dsimp only
      exact gives_metaRaw f hn raw
    · dsimp only
      get (gives_load hn)
      get (gives_load g1)
      pure_run _u
      exact gives_metaRaw f hn raw

/-- The part of the metadata for one pseudonym. -/
def OptPartAt (r : Nat) (h : Heap S) : Option (Option AuditPtr × Bytes) → Option (Option (AuditData S) × Bytes) → Prop
  | none, none => True
  | some p, some v => OptAuditAt r h p.1 v.1 ∧ p.2 = v.2
  | _, _ => False

theorem OptPartAt.mono {p : Option (Option AuditPtr × Bytes)} {v : Option (Option (AuditData S) × Bytes)}
    (a : OptPartAt r h p v) (g : Ext r h h') : OptPartAt r h' p v := by
  cases p <;> cases v <;> simp only [OptPartAt] at a ⊢
  exact ⟨a.1.mono g, a.2⟩

theorem OptMetaAt.eidPart {p : Option MetaPtr} {v : Option (SignerMetadata S)} (a : OptMetaAt r h p v) :
    OptPartAt r h (p.map fun m => (m.eidNymAuditData, m.eidNym)) (v.map fun m => (m.eidNymAuditData, m.eidNym)) := by
  cases p <;> cases v <;> simp only [OptMetaAt] at a
  · exact trivial
  · exact ⟨a.eid, a.eidNym⟩

theorem OptMetaAt.rhPart {p : Option MetaPtr} {v : Option (SignerMetadata S)} (a : OptMetaAt r h p v) :
    OptPartAt r h (p.map fun m => (m.rhNymAuditData, m.rhNym)) (v.map fun m => (m.rhNymAuditData, m.rhNym)) := by
  cases p <;> cases v <;> simp only [OptMetaAt] at a
  · exact trivial
  · exact ⟨a.rh, a.rhNym⟩

theorem PairAt.fst {p : Option (Ptr .g1 × Ptr .g1)} {v : Option (S.G1 × S.G1)} (a : PairAt r h p v) :
    OptAt (k := .g1) r h (p.map Prod.fst) (v.map Prod.fst) := by
  cases p <;> cases v <;> simp only [PairAt] at a
  · exact trivial
  · exact a.1

theorem gives_metaAuditOpt (f : From r h h) {ipk : Ipk} {ipkv : IssuerPublicKey} (hi : IpkAt r h ipk ipkv) {hRand : Ptr .g1}
    {rv : S.G1} (h1 : At r h hRand rv) (idx : Int) {md : Option (Option AuditPtr × Bytes)}
    {mv : Option (Option (AuditData S) × Bytes)} (hm : OptPartAt r h md mv) {nym : Option (Ptr .g1)} {nv : Option S.G1}
    (hn : OptAt (k := .g1) r h nym nv) :
    Gives r h h (metaAuditOpt T ipk hRand idx md nym) (Idemix.Dlog.metaAuditOpt T ipkv rv idx mv nv)
      (fun _ a b => a = b) := by
  cases md <;> cases mv <;> simp only [OptPartAt] at hm
  · exact Gives.done fun _ _ => rfl
  · rename_i m v
    obtain ⟨m1, m2⟩ := m
    obtain ⟨v1, v2⟩ := v
    obtain ⟨g1, rfl⟩ := hm
    cases nym <;> cases nv <;> simp only [OptAt] at hn
    · exact Gives.done fun _ _ => rfl
    · exact gives_metaAudit f hi h1 hn idx g1 m2

theorem gives_verTail (f : From r h h) (sig : Signature) {ipk : Ipk} {ipkv : IssuerPublicKey} (hi : IpkAt r h ipk ipkv)
    {hRand : Ptr .g1} {rv : S.G1} (h1 : At r h hRand rv) {pc nonce : Ptr .zr} {cv nv : S.F} (h2 : At r h pc cv)
    (h3 : At r h nonce nv) {ss : List (Ptr .zr)} {sv : List S.F} (h4 : AtAll (k := .zr) r h ss sv) (hidden : List Nat)
    {t1 t2 t3 aPrime aBar bPrime nym : Ptr .g1} {t1v t2v t3v apv abv bpv nyv : S.G1} (g1 : At r h t1 t1v) (g2 : At r h t2 t2v)
    (g3 : At r h t3 t3v) (g4 : At r h aPrime apv) (g5 : At r h aBar abv) (g6 : At r h bPrime bpv) (g7 : At r h nym nyv)
    {eid rh : Option (Ptr .g1 × Ptr .g1)} {eidv rhv : Option (S.G1 × S.G1)} (he : PairAt r h eid eidv)
    (hr : PairAt r h rh rhv) (vEid vRh : Bool) (nrp : NonRevocationProof) (disclosure msg : Bytes) (rhIndex eidIndex : Int)
    {md : Option MetaPtr} {mv : Option (SignerMetadata S)} (hm : OptMetaAt r h md mv) :
    Gives r h h (verTail T sig ipk hRand pc nonce ss hidden t1 t2 t3 aPrime aBar bPrime nym eid rh vEid vRh nrp disclosure msg
        rhIndex eidIndex md)
      (Idemix.Dlog.verTail T sig ipkv rv cv nv sv hidden t1v t2v t3v apv abv bpv nyv eidv rhv vEid vRh nrp disclosure msg
        rhIndex eidIndex mv) (fun _ a b => a = b) := by
  have hi' := hi
  obtain ⟨hash, rfl, hh⟩ := hi'
  pure_run _u
  try_run (gives_nth h4 _) with _sRh _v _a
  try_run (gives_g2FromProto f _) with _e _v _b
  pure_run nonRev
  get (gives_load g1)
  get (gives_load g2)
  get (gives_load g3)
  get (gives_load g4)
  get (gives_load g5)
  get (gives_load g6)
  get (gives_load g7)
  get (gives_loadNym f he)
  get (gives_loadNym f hr)
  get (gives_load hh)
  pure_run pd
  run (gives_new (k := .zr) f (S.hashToZr pd)) with c hc
  get (gives_load hc)
  get (gives_load h3)
  pure_run pd2
  try_run (gives_metaAuditOpt (T := T) f hi h1 eidIndex hm.eidPart he.fst) with _u _v _a
  try_run (gives_metaAuditOpt (T := T) f hi h1 rhIndex hm.rhPart hr.fst) with _u _v _a
  get (gives_load h2)
  exact Gives.lift

/-- The key, or nil. -/
def OptIpkAt (r : Nat) (h : Heap S) : Option Ipk → Option IssuerPublicKey → Prop
  | none, none => True
  | some p, some v => IpkAt r h p v
  | _, _ => False

theorem OptIpkAt.mono {p : Option Ipk} {v : Option IssuerPublicKey} (a : OptIpkAt r h p v) (g : Ext r h h') :
    OptIpkAt r h' p v := by
  cases p <;> cases v <;> simp only [OptIpkAt] at a ⊢
  exact a.mono g

theorem gives_verSignature {RevPk : Type} (f : From r h h) (hc : ConstsAt r h c) (sig : Signature) (disclosure : Bytes)
    {ipk : Option Ipk} {ipkv : Option IssuerPublicKey} (hi : OptIpkAt r h ipk ipkv) (msg : Bytes)
    {vals : List (Option (Ptr .zr))} {vv : List (Option S.F)} (hv : OptsAt (k := .zr) r h vals vv) (rhIndex eidIndex : Int)
    (revPk : RevPk) (epoch : Int) (verType : VerType) {md : Option MetaPtr} {mv : Option (SignerMetadata S)}
    (hm : OptMetaAt r h md mv) :
    Gives r h h (verSignature T c sig disclosure ipk msg vals rhIndex eidIndex verType md)
      (sig.ver T disclosure ipkv msg vv rhIndex eidIndex revPk epoch verType mv) (fun _ a b => a = b) := by
  cases ipk <;> cases ipkv <;> simp only [OptIpkAt] at hi
  · exact Gives.fail
  rename_i ipk ipkv
  refine Gives.bind (x := .ok ipkv) (R := fun h' a b => a = ipk ∧ b = ipkv) f (Gives.done fun _ _ => ⟨rfl, rfl⟩)
    fun p v h' _ f' e => ?_
  obtain ⟨rfl, rfl⟩ := e
  carry f'.ext
  replace f := f'.self
  clear f'
  have hi' := hi
  obtain ⟨hash, rfl, hh⟩ := hi'
  pure_run _u
  pure_run nrp
  pure_run dRh
  pure_run _u
  pure_run _u
  try_run (gives_g1FromProto f _) with aPrime vaPrime haPrime
  try_run (gives_g1FromProto f _) with aBar vaBar haBar
  try_run (gives_g1FromProto f _) with bPrime vbPrime hbPrime
  try_run (gives_g1FromProto f _) with nym vnym hnym
  run (gives_new (k := .zr) f (S.zrOfBytes sig.proofC)) with pc hpc
  run (gives_new (k := .zr) f (S.zrOfBytes sig.proofSSk)) with sSk hsSk
  run (gives_new (k := .zr) f (S.zrOfBytes sig.proofSE)) with sE hsE
  run (gives_new (k := .zr) f (S.zrOfBytes sig.proofSR2)) with sR2 hsR2
  run (gives_new (k := .zr) f (S.zrOfBytes sig.proofSR3)) with sR3 hsR3
  run (gives_new (k := .zr) f (S.zrOfBytes sig.proofSSPrime)) with sSPrime hsSPrime
  run (gives_new (k := .zr) f (S.zrOfBytes sig.proofSRNym)) with sRNym hsRNym
  pure_run _u
  run (gives_newZrs f (sig.proofSAttrs.map S.zrOfBytes)) with sAttrs hsAttrs
  run (gives_new (k := .zr) f (S.zrOfBytes sig.nonce)) with nonce hnonce
  try_run (gives_g2FromProto f _) with w vw hw
  try_run (gives_g1FromProto f _) with hRand vRand hRand'
  try_run (gives_g1FromProto f _) with hSk vSk hSk'
  get (gives_load haPrime)
  pure_run _u
  get (gives_pairings f hc hw haPrime haBar)
  pure_run _u
  try_run (gives_parseAttrs f _) with hAttrs vAttrs hAttrs'
  run (gives_verT1 f haPrime hsE hRand' hsR2 haBar hbPrime hpc) with t1 ht1
  try_run (gives_nths hAttrs' _) with hHidden vHidden hHidden'
  refine Gives.bind2 f (gives_verT2 f hc hRand' hsSPrime hbPrime hsR3 hSk' hsSk hsAttrs hHidden' hAttrs' hv disclosure hpc)
    fun t2 va vb h' f' ht2 => ?_
  carry f'.ext
  replace f := f'.self
  clear f'
  run (gives_mul2Sub f hSk' hsSk hRand' hsRNym hnym hpc) with t3 ht3
  try_run (gives_optional (R := BothAt r) f _ (fun _ _ _ _ g a => ⟨a.1.mono g, a.2.mono g⟩) fun _ =>
    gives_recomputeT4 f hi hRand' hpc hsAttrs _ eidIndex sig.eidNym) with eid vEid hEid
  replace hEid := pairAt hEid
  try_run (gives_optional (R := BothAt r) f _ (fun _ _ _ _ g a => ⟨a.1.mono g, a.2.mono g⟩) fun _ =>
    gives_recomputeT4 f hi hRand' hpc hsAttrs _ rhIndex sig.rhNym) with rh vRh hRh
  replace hRh := pairAt hRh
  exact gives_verTail f sig hi hRand' hpc hnonce hsAttrs _ ht1 ht2 ht3 haPrime haBar hbPrime hnym hEid hRh _ _ nrp disclosure
    msg rhIndex eidIndex hm

/-! ## Issuer keys -/

/-- `IssuerPublicKey.Check` before it sets the hash, without heap (`issuerkey.go:140-218`). -/
def keyOk (T : Translator S) (ipk : IssuerPublicKey) : Res Unit := do
  let numAttrs := ipk.attributeNames.length
  let _hSk ← T.g1FromProto ipk.hSk
  let _hRand ← T.g1FromProto ipk.hRand
  let _hAttrs ← Idemix.Dlog.parseAttrs T ipk.hAttrs
  let barG1 ← T.g1FromProto ipk.barG1
  let barG2 ← T.g1FromProto ipk.barG2
  let w ← T.g2FromProto ipk.w
  let proofC := S.zrOfBytes ipk.proofC
  let proofS := S.zrOfBytes ipk.proofS
  Res.guardErr (decide (barG1 = 0) || decide (ipk.hAttrs.length < numAttrs))
    "some part of the public key is undefined"
  Res.guardErr ((ipk.hAttrs.take numAttrs).any Option.isNone)
    "some part of the public key is undefined"
  let t1 := proofS • S.genG2 + (-proofC) • w
  let t2 := proofS • barG1 + (-proofC) • barG2
  let buf ← (Buf.make (3 * S.g1Len + 3 * S.g2Len)).appAll
    [S.g2Bytes t1, S.g1Bytes t2, S.g2Bytes S.genG2, S.g1Bytes barG1, S.g2Bytes w, S.g1Bytes barG2]
  Res.guardErr (!decide (proofC = S.hashToZr buf.data)) "zero knowledge proof in public key invalid"

theorem check_eq (m : IpkMarshal) (ipk : IssuerPublicKey) :
    ipk.check T m = keyOk T ipk >>= fun _ => Idemix.Dlog.setHash (S := S) m ipk := by
  simp only [IssuerPublicKey.check, keyOk, Idemix.Dlog.ipkProofData, bind_assoc, pure_bind]

theorem gives_checkKey (f : From r h h) (hc : ConstsAt r h c) (ipk : Ipk) :
    Gives r h h (checkKey T c ipk) (keyOk T ipk.fields) (fun _ a b => a = b) := by
  try_run (gives_g1FromProto f _) with _p _v _a
  try_run (gives_g1FromProto f _) with _p _v _a
  try_run (gives_parseAttrs f _) with _p _v _a
  try_run (gives_g1FromProto f _) with b1 v1 a1
  try_run (gives_g1FromProto f _) with b2 v2 a2
  try_run (gives_g2FromProto f _) with w vw aw
  run (gives_new (k := .zr) f (S.zrOfBytes ipk.fields.proofC)) with pc hpc
  run (gives_new (k := .zr) f (S.zrOfBytes ipk.fields.proofS)) with ps hps
  get (gives_load a1)
  pure_run _u
  pure_run _u
  run (gives_checkT1 f hc hpc hps aw) with t1 ht1
  run (gives_checkT2 f hpc hps a1 a2) with t2 ht2
  get (gives_load ht1)
  get (gives_load ht2)
  get (gives_load hc.genG2)
  get (gives_load a1)
  get (gives_load aw)
  get (gives_load a2)
  pure_run buf
  get (gives_load hpc)
  exact Gives.lift

/-! ## Weak Boneh-Boyen signatures -/

theorem gives_wbbSign (f : From r h h) (hc : ConstsAt r h c) {sk m : Ptr .zr} {skv mv : S.F} (h1 : At r h sk skv)
    (h2 : At r h m mv) :
    Gives r h h (wbbSign c sk m) (.ok (WeakBB.sign skv mv)) (At (k := .g1) r) := by
  have g : Gives r h h (wbbSign.credentialExpOf sk m) (.ok (skv + mv)⁻¹) (At (k := .zr) r) := by
    refine Gives.seq₀ f (gives_zrPlus f h1 h2) fun p h₁ f₁ n => ?_
    refine Gives.seq₀ f₁ (gives_zrInv n) fun _ h₂ f₂ n => ?_
    exact Gives.done fun h₃ e₃ => n.1.mono e₃
  run g with x hx
  exact (gives_g1Mul f hc.genG1 hx).imp fun _ _ _ n => n.1

theorem gives_wbbP (f : From r h h) (hc : ConstsAt r h c) {pk : Ptr .g2} {pkv : S.G2} {m : Ptr .zr} {mv : S.F}
    (h1 : At r h pk pkv) (h2 : At r h m mv) :
    Gives r h h (wbbP c pk m) (.ok (pkv + mv • S.genG2)) (At (k := .g2) r) := by
  refine Gives.call f (gives_copy f h1) fun p h₁ f₁ n => ?_
  refine Gives.call f₁ (gives_g2Mul f₁.self (hc.genG2.mono f₁.ext) (h2.mono f₁.ext)) fun x h₂ f₂ k => ?_
  refine Gives.seq₀ (f₁.trans f₂) (gives_g2Add (n.mono f₂.ext) k.1) fun _ h₃ f₃ n => ?_
  refine Gives.seq₀ f₃ (gives_renew n) fun _ h₄ f₄ n => ?_
  exact Gives.done fun _ e => n.1.mono e

theorem gives_wbbVerify (f : From r h h) (hc : ConstsAt r h c) {pk : Option (Ptr .g2)} {pkv : Option S.G2}
    {sig : Option (Ptr .g1)} {sigv : Option S.G1} {m : Option (Ptr .zr)} {mv : Option S.F} (h1 : OptAt (k := .g2) r h pk pkv)
    (h2 : OptAt (k := .g1) r h sig sigv) (h3 : OptAt (k := .zr) r h m mv) :
    Gives r h h (wbbVerify c pk sig m) (WeakBB.verify pkv sigv mv) (fun _ a b => a = b) := by
  cases pk <;> cases pkv <;> simp only [OptAt] at h1
  · exact Gives.fail
  cases sig <;> cases sigv <;> simp only [OptAt] at h2
  · exact Gives.fail
  cases m <;> cases mv <;> simp only [OptAt] at h3
  · exact Gives.fail
  run (gives_wbbP f hc h1 h3) with p hp
  get (gives_load hp)
  get (gives_load h2)
  exact Gives.lift

end Idemix.Mem.Dlog
