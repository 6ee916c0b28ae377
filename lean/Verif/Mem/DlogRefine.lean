import Verif.Mem.Dlog
import Verif.Mem.Tactic
import Verif.Mem.BbsRefine

/-!
# The dlog scheme on the heap does what `Verif/Dlog/Issue.lean` and `Verif/Dlog/Sign.lean` say

For every way in which the arguments share objects, and whatever other goroutines do.
-/

namespace Idemix.Mem.Dlog

open Idemix.Dlog (IssuerPublicKey IssuerKey CredRequest Credential NymSignature Signature AttrNym CRI SigType VerType
  NonRevocationProof NymRand SigRand IpkMarshal AuditData SignerMetadata Prepared AttrNymPart)
open Idemix.Mem.Bbs (Agree Agree.gives Agree.imp agree_index agree_mapM')

variable {S : Suite} {T : Translator S} {c : Consts} {r : Nat} {h₀ h h' : Heap S}

/-! ## What pointers denote -/

/-- The constants are what they should be. -/
structure ConstsAt (r : Nat) (h : Heap S) (c : Consts) : Prop where
  genG1 : At r h c.genG1 S.genG1
  genG2 : At r h c.genG2 S.genG2

/-- The key `p` is `v`. -/
def IpkAt (r : Nat) (h : Heap S) (p : Ipk) (v : IssuerPublicKey) : Prop :=
  ∃ b : Bytes, v = { p.fields with hash := b } ∧ At (k := .bytes) r h p.hash b

/-- Nil, or a pointer. -/
def OptAt {k : Kind} (r : Nat) (h : Heap S) : Option (Ptr k) → Option (Val S k) → Prop
  | none, none => True
  | some p, some v => At r h p v
  | _, _ => False

def OptsAt {k : Kind} (r : Nat) (h : Heap S) (ps : List (Option (Ptr k))) (vs : List (Option (Val S k))) : Prop :=
  List.Forall₂ (OptAt r h) ps vs

structure AuditAt (r : Nat) (h : Heap S) (p : AuditPtr) (v : AuditData S) : Prop where
  nym : OptAt (k := .g1) r h p.nym v.nym
  rand : At r h p.rand v.rand
  attr : At r h p.attr v.attr

def OptAuditAt (r : Nat) (h : Heap S) : Option AuditPtr → Option (AuditData S) → Prop
  | none, none => True
  | some p, some v => AuditAt r h p v
  | _, _ => False

structure MetaAt (r : Nat) (h : Heap S) (p : MetaPtr) (v : SignerMetadata S) : Prop where
  eid : OptAuditAt r h p.eidNymAuditData v.eidNymAuditData
  rh : OptAuditAt r h p.rhNymAuditData v.rhNymAuditData
  eidNym : p.eidNym = v.eidNym
  rhNym : p.rhNym = v.rhNym

def OptMetaAt (r : Nat) (h : Heap S) : Option MetaPtr → Option (SignerMetadata S) → Prop
  | none, none => True
  | some p, some v => MetaAt r h p v
  | _, _ => False

theorem ConstsAt.mono (a : ConstsAt r h c) (g : Ext r h h') : ConstsAt r h' c := ⟨a.genG1.mono g, a.genG2.mono g⟩

theorem IpkAt.mono {p : Ipk} {v : IssuerPublicKey} (a : IpkAt r h p v) (g : Ext r h h') : IpkAt r h' p v :=
  a.imp fun _ x => ⟨x.1, x.2.mono g⟩

theorem OptAt.mono {k : Kind} {p : Option (Ptr k)} {v : Option (Val S k)} (a : OptAt r h p v) (g : Ext r h h') :
    OptAt r h' p v := by
  cases p <;> cases v <;> simp only [OptAt] at a ⊢
  exact a.mono g

theorem OptsAt.mono {k : Kind} {p : List (Option (Ptr k))} {v : List (Option (Val S k))} (a : OptsAt r h p v)
    (g : Ext r h h') : OptsAt r h' p v := List.Forall₂.imp (fun _ _ x => x.mono g) a

theorem AuditAt.mono {p : AuditPtr} {v : AuditData S} (a : AuditAt r h p v) (g : Ext r h h') : AuditAt r h' p v :=
  ⟨a.nym.mono g, a.rand.mono g, a.attr.mono g⟩

theorem OptAuditAt.mono {p : Option AuditPtr} {v : Option (AuditData S)} (a : OptAuditAt r h p v) (g : Ext r h h') :
    OptAuditAt r h' p v := by
  cases p <;> cases v <;> simp only [OptAuditAt] at a ⊢
  exact a.mono g

theorem MetaAt.mono {p : MetaPtr} {v : SignerMetadata S} (a : MetaAt r h p v) (g : Ext r h h') : MetaAt r h' p v :=
  ⟨a.eid.mono g, a.rh.mono g, a.eidNym, a.rhNym⟩

theorem OptMetaAt.mono {p : Option MetaPtr} {v : Option (SignerMetadata S)} (a : OptMetaAt r h p v) (g : Ext r h h') :
    OptMetaAt r h' p v := by
  cases p <;> cases v <;> simp only [OptMetaAt] at a ⊢
  exact a.mono g

/-! ## Messages -/

theorem gives_g1FromProto (f : From r h h) (o : Option ECP) :
    Gives r h h (g1FromProto T o) (T.g1FromProto o) (At (k := .g1) r) := by
  rw [← Res.bind_ok (T.g1FromProto o)]
  pure_run v
  exact (gives_new (k := .g1) f v).imp fun _ _ _ n => n.1

theorem gives_g2FromProto (f : From r h h) (o : Option ECP2) :
    Gives r h h (g2FromProto T o) (T.g2FromProto o) (At (k := .g2) r) := by
  rw [← Res.bind_ok (T.g2FromProto o)]
  pure_run v
  exact (gives_new (k := .g2) f v).imp fun _ _ _ n => n.1

theorem gives_g1ToProto (f : From r h h) {p : Ptr .g1} {v : S.G1} (a : At r h p v) :
    Gives r h h (g1ToProto T p) (.ok (T.g1ToProto v)) fun _ a b => a = b := by
  get (gives_load a)
  exact Gives.done fun _ _ => rfl

theorem gives_zrBytes (f : From r h h) {p : Ptr .zr} {v : S.F} (a : At r h p v) :
    Gives r h h (zrBytes p) (.ok (S.zrBytes v)) fun _ a b => a = b := by
  get (gives_load a)
  exact Gives.done fun _ _ => rfl

theorem gives_zrsBytes (f : From r h h) {ps : List (Ptr .zr)} {vs : List S.F} (a : AtAll (k := .zr) r h ps vs) :
    Gives r h h (zrsBytes ps) (.ok (vs.map S.zrBytes)) fun _ a b => a = b := by
  get (gives_loadAll f a)
  exact Gives.done fun _ _ => rfl

theorem gives_newZrs (f : From r h h) (vs : List S.F) : Gives r h h (newZrs vs) (.ok vs) (AtAll (k := .zr) r) := by
  induction vs generalizing h with
  | nil => exact Gives.done fun _ _ => .nil
  | cons v vs ih =>
    run (gives_new (k := .zr) f v) with q a
    run (ih f) with qs b
    exact Gives.done fun h₃ e₃ => .cons (a.mono e₃) (AtAll.mono b e₃)

theorem gives_parseAttrs (f : From r h h) (os : List (Option ECP)) :
    Gives r h h (parseAttrs T os) (Idemix.Dlog.parseAttrs T os) (AtAll (k := .g1) r) := by
  unfold Idemix.Dlog.parseAttrs
  induction os generalizing h with
  | nil => exact Gives.done fun _ _ => .nil
  | cons o os ih =>
    rw [Res.mapM'_cons]
    try_run (gives_g1FromProto f o) with q v a
    try_run (ih f) with qs vs b
    exact Gives.done fun h₃ e₃ => .cons (a.mono e₃) (AtAll.mono b e₃)

theorem gives_addPairs {acc : Ptr .g1} (ss : List (Ptr .zr)) (bs : List (Ptr .g1)) :
    ∀ (h : Heap S) (v : S.G1) (bv : List S.G1) (sv : List S.F), From r h₀ h → New (k := .g1) r h₀ h acc v →
      AtAll (k := .g1) r h₀ bs bv → AtAll (k := .zr) r h₀ ss sv →
      Gives r h₀ h (addPairs acc ss bs) (Idemix.Dlog.addPairs v sv bv) fun h' _ w => New (k := .g1) r h₀ h' acc w := by
  fun_induction addPairs (S := S) acc ss bs with
  | case1 bs =>
    rintro h v bv sv f a _ (_ | _)
    exact Gives.done fun h₃ e₃ => a.mono e₃
  | case2 s p ps =>
    rintro h v bv sv f a (_ | ⟨x, _⟩) (_ | ⟨y, _ | _⟩)
    refine Gives.call f (gives_g1Mul f.self (x.mono f.ext) (y.mono f.ext)) fun g h₁ f₁ n => ?_
    exact (gives_g1Add (a.mono f₁.ext) n.1).to fun _ _ n => n
  | case3 s t ss p q ps ih =>
    rintro h v bv sv f a (_ | ⟨x, _ | ⟨x', xs⟩⟩) (_ | ⟨y, _ | ⟨y', ys⟩⟩)
    rw [Idemix.Dlog.addPairs]
    refine Gives.call f (gives_g1Mul2 f.self (x.mono f.ext) (y.mono f.ext) (x'.mono f.ext) (y'.mono f.ext))
      fun g h₁ f₁ n => ?_
    refine Gives.seq₀ (f.trans f₁) (gives_g1Add (a.mono f₁.ext) n.1) fun _ h₂ f₂ n' => ?_
    exact ih h₂ _ _ _ f₂ n' xs ys
  | case4 ss bs n1 n2 n3 =>
    rintro h v bv sv f a xs ys
    have : Idemix.Dlog.addPairs v sv bv = .panic := by
      rcases ys with _ | ⟨y, _ | ⟨y', ys⟩⟩ <;> rcases xs with _ | ⟨x, _ | ⟨x', xs⟩⟩ <;> 
        first
          | rfl
          | exact absurd rfl (n1 _)
          | exact (n1 rfl).elim
          | exact (n2 _ _ _ rfl rfl).elim
          | exact (n3 _ _ _ _ _ _ rfl rfl).elim
    rw [this]
    exact Gives.panic

/-! ## Blocks -/

theorem gives_respond (f : From r h h) {x pc y : Ptr .zr} {xv cv yv : S.F} (hx : At r h x xv) (hc : At r h pc cv)
    (hy : At r h y yv) : Gives r h h (respond x pc y) (.ok (xv + cv * yv)) (At (k := .zr) r) := by
  run (gives_zrMul f hc hy) with m hm
  exact (gives_zrPlus f hx hm).imp fun _ _ _ n => n.1

theorem gives_respondSub (f : From r h h) {x pc y : Ptr .zr} {xv cv yv : S.F} (hx : At r h x xv) (hc : At r h pc cv)
    (hy : At r h y yv) : Gives r h h (respondSub x pc y) (.ok (xv - cv * yv)) (At (k := .zr) r) := by
  run (gives_zrMul f hc hy) with m hm
  exact (gives_zrMinus f hx hm).imp fun _ _ _ n => n.1

theorem gives_mulSub (f : From r h h) {P Q : Ptr .g1} {x pc : Ptr .zr} {p q : S.G1} {xv cv : S.F} (hP : At r h P p)
    (hx : At r h x xv) (hQ : At r h Q q) (hc : At r h pc cv) :
    Gives r h h (mulSub P x Q pc) (.ok (xv • p - cv • q)) (At (k := .g1) r) := by
  refine Gives.call f (gives_g1Mul f hP hx) fun t h₁ f₁ n => ?_
  refine Gives.call f₁ (gives_g1Mul f₁.self (hQ.mono f₁.ext) (hc.mono f₁.ext)) fun m h₂ f₂ k => ?_
  refine Gives.seq₀ (f₁.trans f₂) (gives_g1Sub (n.mono f₂.ext) k.1) fun _ h₃ f₃ n => ?_
  exact Gives.done fun h₄ e₄ => n.1.mono e₄

theorem gives_mul2Sub (f : From r h h) {P Q R : Ptr .g1} {x y pc : Ptr .zr} {p q s : S.G1} {xv yv cv : S.F}
    (hP : At r h P p) (hx : At r h x xv) (hQ : At r h Q q) (hy : At r h y yv) (hR : At r h R s) (hc : At r h pc cv) :
    Gives r h h (mul2Sub P x Q y R pc) (.ok (xv • p + yv • q - cv • s)) (At (k := .g1) r) := by
  refine Gives.call f (gives_g1Mul2 f hP hx hQ hy) fun t h₁ f₁ n => ?_
  refine Gives.call f₁ (gives_g1Mul f₁.self (hR.mono f₁.ext) (hc.mono f₁.ext)) fun m h₂ f₂ k => ?_
  refine Gives.seq₀ (f₁.trans f₂) (gives_g1Sub (n.mono f₂.ext) k.1) fun _ h₃ f₃ n => ?_
  exact Gives.done fun h₄ e₄ => n.1.mono e₄

/-! ## Issuer keys -/

theorem gives_checkT1 (f : From r h h) (hc : ConstsAt r h c) {pc ps : Ptr .zr} {w : Ptr .g2} {cv sv : S.F} {wv : S.G2}
    (h1 : At r h pc cv) (h2 : At r h ps sv) (h3 : At r h w wv) :
    Gives r h h (checkT1 c pc ps w) (.ok (sv • S.genG2 + (-cv) • wv)) (At (k := .g2) r) := by
  refine Gives.call f (gives_g2Mul f hc.genG2 h2) fun t h₁ f₁ n => ?_
  refine Gives.call f₁ (gives_new (k := .zr) f₁.self _) fun z h₂ f₂ k => ?_
  have F₂ := f₁.trans f₂
  refine Gives.call F₂ (gives_zrMinus f₂.self k.1 (h1.mono F₂.ext)) fun m h₃ f₃ l => ?_
  have F₃ := F₂.trans f₃
  refine Gives.call F₃ (gives_g2Mul f₃.self (h3.mono F₃.ext) l.1) fun m h₄ f₄ l => ?_
  have F₄ := F₃.trans f₄
  refine Gives.seq₀ F₄ (gives_g2Add (n.mono ((f₂.trans f₃).trans f₄).ext) l.1) fun _ h₅ f₅ n => ?_
  rw [zero_sub] at n
  exact Gives.done fun h₆ e₆ => n.1.mono e₆

theorem gives_checkT2 (f : From r h h) {pc ps : Ptr .zr} {b1 b2 : Ptr .g1} {cv sv : S.F} {v1 v2 : S.G1}
    (h1 : At r h pc cv) (h2 : At r h ps sv) (h3 : At r h b1 v1) (h4 : At r h b2 v2) :
    Gives r h h (checkT2 pc ps b1 b2) (.ok (sv • v1 + (-cv) • v2)) (At (k := .g1) r) := by
  refine Gives.call f (gives_g1Mul f h3 h2) fun t h₁ f₁ n => ?_
  refine Gives.call f₁ (gives_new (k := .zr) f₁.self _) fun z h₂ f₂ k => ?_
  have F₂ := f₁.trans f₂
  refine Gives.call F₂ (gives_zrMinus f₂.self k.1 (h1.mono F₂.ext)) fun m h₃ f₃ l => ?_
  have F₃ := F₂.trans f₃
  refine Gives.call F₃ (gives_g1Mul f₃.self (h4.mono F₃.ext) l.1) fun m h₄ f₄ l => ?_
  have F₄ := F₃.trans f₄
  refine Gives.seq₀ F₄ (gives_g1Add (n.mono ((f₂.trans f₃).trans f₄).ext) l.1) fun _ h₅ f₅ n => ?_
  rw [zero_sub] at n
  exact Gives.done fun h₆ e₆ => n.1.mono e₆

/-! ## Pseudonyms, requests, credentials -/

/-- What `makeNym` returns. -/
def NymAt (r : Nat) (h : Heap S) (p : Ptr .g1 × Ptr .zr) (v : S.G1 × S.F) : Prop :=
  At (k := .g1) r h p.1 v.1 ∧ At (k := .zr) r h p.2 v.2

theorem gives_makeNym (f : From r h h) {sk : Ptr .zr} {skv : S.F} (hs : At r h sk skv) {ipk : Ipk} {ipkv : IssuerPublicKey}
    (hi : IpkAt r h ipk ipkv) (ρ : S.F) :
    Gives r h h (makeNym T sk ipk ρ) (Idemix.Dlog.makeNym T skv ipkv ρ) (NymAt r) := by
  obtain ⟨hash, rfl, hh⟩ := hi
  run (gives_new (k := .zr) f ρ) with pr hr
  try_run (gives_g1FromProto f _) with hSk vSk a1
  try_run (gives_g1FromProto f _) with hRand vRand a2
  run (gives_g1Mul2 f a1 hs a2 hr) with nym hn
  exact Gives.done fun h' e => ⟨hn.mono e, hr.mono e⟩

theorem gives_newCredRequest (f : From r h h) {sk : Ptr .zr} {skv : S.F} (hs : At r h sk skv) (nonce : Option Bytes)
    {ipk : Ipk} {ipkv : IssuerPublicKey} (hi : IpkAt r h ipk ipkv) (ρ : S.F) :
    Gives r h h (newCredRequest T sk nonce ipk ρ) (Idemix.Dlog.newCredRequest T skv nonce ipkv ρ) fun _ a b => a = b := by
  obtain ⟨hash, rfl, hh⟩ := hi
  try_run (gives_g1FromProto f _) with hSk vSk a1
  run (gives_g1Mul f a1 hs) with nym hn
  run (gives_new (k := .zr) f ρ) with pr hr
  run (gives_g1Mul f a1 hr) with t ht
  get (gives_load ht)
  get (gives_load a1)
  get (gives_load hn)
  get (gives_load hh)
  pure_run pd
  run (gives_new (k := .zr) f (S.hashToZr pd)) with pc hc
  run (gives_zrMul f hc hs) with m hm
  run (gives_zrPlus f hm hr) with ps hps
  get (gives_g1ToProto (T := T) f hn)
  get (gives_zrBytes f hc)
  get (gives_zrBytes f hps)
  exact Gives.done fun _ _ => rfl

theorem gives_checkRequest (f : From r h h) (req : CredRequest) {ipk : Ipk} {ipkv : IssuerPublicKey}
    (hi : IpkAt r h ipk ipkv) :
    Gives r h h (checkRequest T req ipk) (req.check T ipkv) fun _ a b => a = b := by
  obtain ⟨hash, rfl, hh⟩ := hi
  try_run (gives_g1FromProto f _) with nym vn an
  run (gives_new (k := .zr) f (S.zrOfBytes req.proofC)) with pc hc
  run (gives_new (k := .zr) f (S.zrOfBytes req.proofS)) with ps hps
  try_run (gives_g1FromProto f _) with hSk vSk a1
  pure_run nonce
  run (gives_mulSub f a1 hps an hc) with t ht
  get (gives_load ht)
  get (gives_load a1)
  get (gives_load an)
  get (gives_load hh)
  pure_run pd
  get (gives_load hc)
  exact Gives.lift

theorem gives_credentialB (f : From r h h) (hc : ConstsAt r h c) {nym hRand : Ptr .g1} {nv rv : S.G1} {s : Ptr .zr} {sv : S.F}
    (h1 : At r h nym nv) (h2 : At r h hRand rv) (h3 : At r h s sv) {attrs : List (Ptr .zr)} {av : List S.F}
    (h4 : AtAll (k := .zr) r h attrs av) {bs : List (Ptr .g1)} {bv : List S.G1} (h5 : AtAll (k := .g1) r h bs bv) :
    Gives r h h (credentialB c nym hRand s attrs bs) (Idemix.Dlog.addPairs (S.genG1 + nv + sv • rv) av bv)
      (At (k := .g1) r) := by
  refine Gives.seq₀ f (gives_copy f hc.genG1) fun b h₁ f₁ n => ?_
  refine Gives.seq₀ f₁ (gives_g1Add n (h1.mono f₁.ext)) fun _ h₂ f₂ n => ?_
  refine Gives.call f₂ (gives_g1Mul f₂.self (h2.mono f₂.ext) (h3.mono f₂.ext)) fun m h₃ f₃ k => ?_
  have F₃ := f₂.trans f₃
  refine Gives.seq₀ F₃ (gives_g1Add (n.mono f₃.ext) k.1) fun _ h₄ f₄ n => ?_
  rw [← Res.bind_ok (Idemix.Dlog.addPairs _ _ _)]
  refine Gives.bind₀ f₄ (gives_addPairs attrs bs h₄ _ _ _ f₄ n h5 h4) fun _ w h₅ _ f₅ n => ?_
  exact Gives.done fun h₆ e₆ => n.1.mono e₆

theorem gives_credentialExp (f : From r h h) (isk : Bytes) {e : Ptr .zr} {ev : S.F} (he : At r h e ev) :
    Gives r h h (credentialExp isk e) (.ok (S.zrOfBytes isk + ev)⁻¹) (At (k := .zr) r) := by
  run (gives_new (k := .zr) f (S.zrOfBytes isk)) with x hx
  refine Gives.seq₀ f (gives_zrPlus f hx he) fun p h₁ f₁ n => ?_
  refine Gives.seq₀ f₁ (gives_zrInv n) fun _ h₂ f₂ n => ?_
  exact Gives.done fun h₃ e₃ => n.1.mono e₃

theorem gives_newCredential (f : From r h h) (hc : ConstsAt r h c) (isk : Bytes) {ipk : Ipk} {ipkv : IssuerPublicKey}
    (hi : IpkAt r h ipk ipkv) (req : CredRequest) {attrs : List (Ptr .zr)} {av : List S.F}
    (ha : AtAll (k := .zr) r h attrs av) (e s : S.F) :
    Gives r h h (newCredential T c isk ipk req attrs e s) (Idemix.Dlog.newCredential T ⟨isk, ipkv⟩ req av e s)
      fun _ a b => a = b := by
  try_run (gives_checkRequest f req hi) with _u _v e'
  obtain ⟨hash, rfl, hh⟩ := hi
  rw [show (attrs.length) = av.length from List.Forall₂.length_eq ha]
  pure_run _u
  run (gives_new (k := .zr) f e) with pe he
  run (gives_new (k := .zr) f s) with ps hs
  try_run (gives_g1FromProto f _) with nym vn an
  try_run (gives_g1FromProto f _) with hRand vr ar
  try_run (gives_parseAttrs f _) with hAttrs va aa
  try_run (gives_credentialB f hc an ar hs ha aa) with b vb ab
  run (gives_credentialExp f isk he) with exp hx
  run (gives_g1Mul f ab hx) with a hA
  get (gives_zrsBytes f ha)
  get (gives_g1ToProto (T := T) f hA)
  get (gives_g1ToProto (T := T) f ab)
  get (gives_zrBytes f he)
  get (gives_zrBytes f hs)
  exact Gives.done fun _ _ => rfl

theorem gives_verB (f : From r h h) (hc : ConstsAt r h c) {hSk hRand : Ptr .g1} {kv rv : S.G1} {sk s : Ptr .zr} {skv sv : S.F}
    (h1 : At r h hSk kv) (h0 : At r h sk skv) (h2 : At r h hRand rv) (h3 : At r h s sv) {attrs : List (Ptr .zr)}
    {av : List S.F} (h4 : AtAll (k := .zr) r h attrs av) {bs : List (Ptr .g1)} {bv : List S.G1}
    (h5 : AtAll (k := .g1) r h bs bv) :
    Gives r h h (verB c hSk sk hRand s attrs bs) (Idemix.Dlog.addPairs (S.genG1 + (skv • kv + sv • rv)) av bv)
      (At (k := .g1) r) := by
  refine Gives.seq₀ f (gives_copy f hc.genG1) fun b h₁ f₁ n => ?_
  refine Gives.call f₁ (gives_g1Mul2 f₁.self (h1.mono f₁.ext) (h0.mono f₁.ext) (h2.mono f₁.ext) (h3.mono f₁.ext))
    fun m h₃ f₃ k => ?_
  have F₃ := f₁.trans f₃
  refine Gives.seq₀ F₃ (gives_g1Add (n.mono f₃.ext) k.1) fun _ h₄ f₄ n => ?_
  rw [← Res.bind_ok (Idemix.Dlog.addPairs _ _ _)]
  refine Gives.bind₀ f₄ (gives_addPairs attrs bs h₄ _ _ _ f₄ n h5 h4) fun _ w h₅ _ f₅ n => ?_
  exact Gives.done fun h₆ e₆ => n.1.mono e₆

theorem gives_verQ (f : From r h h) (hc : ConstsAt r h c) {e : Ptr .zr} {ev : S.F} {w : Ptr .g2} {wv : S.G2}
    (h1 : At r h e ev) (h2 : At r h w wv) :
    Gives r h h (verQ c e w) (.ok (ev • S.genG2 + wv)) (At (k := .g2) r) := by
  refine Gives.seq₀ f (gives_g2Mul f hc.genG2 h1) fun b h₁ f₁ n => ?_
  refine Gives.seq₀ f₁ (gives_g2Add n (h2.mono f₁.ext)) fun _ h₂ f₂ n => ?_
  refine Gives.seq₀ f₂ (gives_renew n) fun _ h₃ f₃ n => ?_
  exact Gives.done fun h₆ e₆ => n.1.mono e₆

theorem gives_verCredential (f : From r h h) (hc : ConstsAt r h c) (cred : Credential) {sk : Ptr .zr} {skv : S.F}
    (hs : At r h sk skv) {ipk : Ipk} {ipkv : IssuerPublicKey} (hi : IpkAt r h ipk ipkv) :
    Gives r h h (verCredential T c cred sk ipk) (cred.ver T skv ipkv) fun _ a b => a = b := by
  obtain ⟨hash, rfl, hh⟩ := hi
  try_run (gives_g1FromProto f _) with a va aa
  try_run (gives_g1FromProto f _) with b vb ab
  run (gives_new (k := .zr) f (S.zrOfBytes cred.e)) with pe he
  run (gives_new (k := .zr) f (S.zrOfBytes cred.s)) with ps hps
  try_run (gives_g1FromProto f _) with hSk vSk aSk
  try_run (gives_g1FromProto f _) with hRand vr ar
  try_run (gives_parseAttrs f _) with hAttrs vA aA
  run (gives_newZrs f (cred.attrs.map S.zrOfBytes)) with attrs hattrs
  try_run (gives_verB f hc aSk hs ar hps hattrs aA) with bp vbp abp
  get (gives_load ab)
  get (gives_load abp)
  pure_run _u
  try_run (gives_g2FromProto f _) with w vw aw
  run (gives_verQ f hc he aw) with q aq
  get (gives_load aq)
  get (gives_load aa)
  get (gives_load hc.genG2)
  get (gives_load ab)
  exact Gives.lift

/-! ## Pseudonym signatures -/

theorem gives_newNymSignature (f : From r h h) {sk : Ptr .zr} {skv : S.F} (hs : At r h sk skv) {nym : Ptr .g1} {nv : S.G1}
    (hn : At r h nym nv) {rNym : Ptr .zr} {rnv : S.F} (hr : At r h rNym rnv) {ipk : Ipk} {ipkv : IssuerPublicKey}
    (hi : IpkAt r h ipk ipkv) (msg : Bytes) (ρ : NymRand S) :
    Gives r h h (newNymSignature T sk nym rNym ipk msg ρ) (Idemix.Dlog.newNymSignature T skv nv rnv ipkv msg ρ)
      fun _ a b => a = b := by
  obtain ⟨hash, rfl, hh⟩ := hi
  run (gives_new (k := .zr) f ρ.nonce) with nonce hnonce
  try_run (gives_g1FromProto f _) with hRand vr ar
  try_run (gives_g1FromProto f _) with hSk vSk aSk
  run (gives_new (k := .zr) f ρ.rSk) with rSk hrSk
  run (gives_new (k := .zr) f ρ.rRNym) with rRNym hrRNym
  run (gives_g1Mul2 f aSk hrSk ar hrRNym) with t ht
  get (gives_load ht)
  get (gives_load hn)
  get (gives_load hh)
  pure_run pd
  run (gives_new (k := .zr) f (S.hashToZr pd)) with c hc
  get (gives_load hc)
  get (gives_load hnonce)
  pure_run pd2
  run (gives_new (k := .zr) f (S.hashToZr pd2)) with pc hpc
  run (gives_respond f hrSk hpc hs) with sSk hsSk
  run (gives_respond f hrRNym hpc hr) with sRNym hsRNym
  get (gives_zrBytes f hpc)
  get (gives_zrBytes f hsSk)
  get (gives_zrBytes f hsRNym)
  get (gives_zrBytes f hnonce)
  exact Gives.done fun _ _ => rfl

theorem gives_verNymSignature (f : From r h h) (sig : NymSignature) {nym : Ptr .g1} {nv : S.G1}
    (hn : At r h nym nv) {ipk : Ipk} {ipkv : IssuerPublicKey} (hi : IpkAt r h ipk ipkv) (msg : Bytes) :
    Gives r h h (verNymSignature T sig nym ipk msg) (sig.ver T nv ipkv msg) fun _ a b => a = b := by
  obtain ⟨hash, rfl, hh⟩ := hi
  run (gives_new (k := .zr) f (S.zrOfBytes sig.proofC)) with pc hpc
  run (gives_new (k := .zr) f (S.zrOfBytes sig.proofSSk)) with sSk hsSk
  run (gives_new (k := .zr) f (S.zrOfBytes sig.proofSRNym)) with sRNym hsRNym
  run (gives_new (k := .zr) f (S.zrOfBytes sig.nonce)) with nonce hnonce
  try_run (gives_g1FromProto f _) with hRand vr ar
  try_run (gives_g1FromProto f _) with hSk vSk aSk
  run (gives_mul2Sub f aSk hsSk ar hsRNym hn hpc) with t ht
  get (gives_load ht)
  get (gives_load hn)
  get (gives_load hh)
  pure_run pd
  run (gives_new (k := .zr) f (S.hashToZr pd)) with c hc
  get (gives_load hc)
  get (gives_load hnonce)
  pure_run pd2
  get (gives_load hpc)
  exact Gives.lift

end Idemix.Mem.Dlog
