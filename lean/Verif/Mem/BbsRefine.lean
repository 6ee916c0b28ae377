import Verif.Mem.Bbs

/-!
# BBS+ on the heap does what `Verif/Bbs/Model.lean` says

For every way in which the arguments share objects, and whatever other goroutines do.
-/

namespace Idemix.Mem.Bbs

open Idemix.Bbs (Lib PKG Sig SigMsg PoK PoKRand Committed ProofG1 SigProof Payload)

variable {S : Suite} {L : Lib S} {c : Consts} {r : Nat} {h h' : Heap S}

/-! ## What pointers denote -/

/-- The constants are what they should be. -/
structure ConstsAt (r : Nat) (h : Heap S) (c : Consts) : Prop where
  genG1 : At r h c.genG1 S.genG1
  genG2 : At r h c.genG2 S.genG2
  f2192 : At r h c.f2192 (S.zrOfBytes Idemix.Bbs.f2192Bytes)

structure MsgAt (r : Nat) (h : Heap S) (m : MsgPtr) (v : SigMsg S) : Prop where
  fr : At r h m.fr v.fr
  idx : m.idx = v.idx

def MsgsAt (r : Nat) (h : Heap S) (ms : List MsgPtr) (vs : List (SigMsg S)) : Prop := List.Forall₂ (MsgAt r h) ms vs

structure PKGAt (r : Nat) (h : Heap S) (p : PKGPtr) (v : PKG S) : Prop where
  h0 : At r h p.h0 v.h0
  hs : AtAll r h p.h v.h
  w : At r h p.w v.w
  count : p.count = v.count

structure SigAt (r : Nat) (h : Heap S) (p : SigPtr) (v : Sig S) : Prop where
  a : At r h p.a v.a
  e : At r h p.e v.e
  s : At r h p.s v.s

structure CommittedAt (r : Nat) (h : Heap S) (p : CommittedPtr) (v : Committed S) : Prop where
  bases : AtAll r h p.bases v.bases
  blind : AtAll r h p.blind v.blind
  commitment : At r h p.commitment v.commitment

structure ProofG1At (r : Nat) (h : Heap S) (p : ProofG1Ptr) (v : ProofG1 S) : Prop where
  commitment : At r h p.commitment v.commitment
  responses : AtAll r h p.responses v.responses

structure PoKAt (r : Nat) (h : Heap S) (p : PoKPtr) (v : PoK S) : Prop where
  aPrime : At r h p.aPrime v.aPrime
  aBar : At r h p.aBar v.aBar
  d : At r h p.d v.d
  vc1 : CommittedAt r h p.vc1 v.vc1
  secrets1 : AtAll r h p.secrets1 v.secrets1
  vc2 : CommittedAt r h p.vc2 v.vc2
  secrets2 : AtAll r h p.secrets2 v.secrets2

structure SigProofAt (r : Nat) (h : Heap S) (p : SigProofPtr) (v : SigProof S) : Prop where
  aPrime : At r h p.aPrime v.aPrime
  aBar : At r h p.aBar v.aBar
  d : At r h p.d v.d
  vc1 : ProofG1At r h p.vc1 v.vc1
  vc2 : ProofG1At r h p.vc2 v.vc2

theorem ConstsAt.mono (a : ConstsAt r h c) (g : Ext r h h') : ConstsAt r h' c :=
  ⟨a.genG1.mono g, a.genG2.mono g, a.f2192.mono g⟩

theorem MsgAt.mono {m : MsgPtr} {v : SigMsg S} (a : MsgAt r h m v) (g : Ext r h h') : MsgAt r h' m v :=
  ⟨a.fr.mono g, a.idx⟩

theorem MsgsAt.mono {ms : List MsgPtr} {vs : List (SigMsg S)} (a : MsgsAt r h ms vs) (g : Ext r h h') :
    MsgsAt r h' ms vs := List.Forall₂.imp (fun _ _ x => x.mono g) a

theorem PKGAt.mono {p : PKGPtr} {v : PKG S} (a : PKGAt r h p v) (g : Ext r h h') : PKGAt r h' p v :=
  ⟨a.h0.mono g, AtAll.mono a.hs g, a.w.mono g, a.count⟩

theorem SigAt.mono {p : SigPtr} {v : Sig S} (a : SigAt r h p v) (g : Ext r h h') : SigAt r h' p v :=
  ⟨a.a.mono g, a.e.mono g, a.s.mono g⟩

theorem CommittedAt.mono {p : CommittedPtr} {v : Committed S} (a : CommittedAt r h p v) (g : Ext r h h') :
    CommittedAt r h' p v := ⟨AtAll.mono a.bases g, AtAll.mono a.blind g, a.commitment.mono g⟩

theorem ProofG1At.mono {p : ProofG1Ptr} {v : ProofG1 S} (a : ProofG1At r h p v) (g : Ext r h h') :
    ProofG1At r h' p v := ⟨a.commitment.mono g, AtAll.mono a.responses g⟩

theorem PoKAt.mono {p : PoKPtr} {v : PoK S} (a : PoKAt r h p v) (g : Ext r h h') : PoKAt r h' p v :=
  ⟨a.aPrime.mono g, a.aBar.mono g, a.d.mono g, a.vc1.mono g, AtAll.mono a.secrets1 g, a.vc2.mono g,
    AtAll.mono a.secrets2 g⟩

theorem SigProofAt.mono {p : SigProofPtr} {v : SigProof S} (a : SigProofAt r h p v) (g : Ext r h h') :
    SigProofAt r h' p v := ⟨a.aPrime.mono g, a.aBar.mono g, a.d.mono g, a.vc1.mono g, a.vc2.mono g⟩

/-! ## Outcomes without heap that agree -/

/-- Two outcomes agree. -/
def Agree {α β : Type} (R : α → β → Prop) (x : Res α) (y : Res β) : Prop :=
  match x, y with
  | .ok a, .ok b => R a b
  | .err m, .err m' => m = m'
  | .panic, .panic => True
  | _, _ => False

theorem Agree.gives {α β : Type} {R : Heap S → α → β → Prop} {x : Res α} {y : Res β} {h₀ : Heap S}
    (a : Agree (fun a b => ∀ h', Ext r h h' → R h' a b) x y) : Gives r h₀ h (.lift x) y R := by
  cases x <;> cases y <;> simp only [Agree] at a
  · exact Gives.done a
  · subst a; exact Gives.fail
  · exact Gives.panic

theorem agree_index {α β : Type} {R : α → β → Prop} {as : List α} {bs : List β} (a : List.Forall₂ R as bs) (i : Int) :
    Agree R (Res.index as i) (Res.index bs i) := by
  unfold Res.index
  by_cases hi : i < 0
  · simp [hi, Agree]
  · simp only [hi, if_false]
    generalize i.toNat = n
    induction a generalizing n with
    | nil => simp [Agree]
    | cons x _ ih =>
      cases n with
      | zero => simpa [Agree] using x
      | succ n => simpa using ih n

theorem agree_mapM' {α β γ δ : Type} {P : α → β → Prop} {R : γ → δ → Prop} {f : α → Res γ} {g : β → Res δ} {as : List α}
    {bs : List β} (a : List.Forall₂ P as bs) (hf : ∀ a b, P a b → Agree R (f a) (g b)) :
    Agree (List.Forall₂ R) (Res.mapM' f as) (Res.mapM' g bs) := by
  induction a with
  | nil => simp [Agree]
  | @cons a b as bs x _ ih =>
    have := hf _ _ x
    simp only [Res.mapM'_cons]
    revert this ih
    cases f a <;> cases g b <;> simp [Agree]
    cases Res.mapM' f as <;> cases Res.mapM' g bs <;> simp <;> intro h1 h2
    · exact ⟨h2, h1⟩
    · exact h1

theorem Agree.imp {α β : Type} {R R' : α → β → Prop} {x : Res α} {y : Res β} (a : Agree R x y)
    (hi : ∀ a b, R a b → R' a b) : Agree R' x y := by
  cases x <;> cases y <;> simp only [Agree] at a ⊢
  · exact hi _ _ a
  · exact a

theorem agree_msgBases {pk : PKGPtr} {pkv : PKG S} {ms : List MsgPtr} {msv : List (SigMsg S)} (a : PKGAt r h pk pkv)
    (b : MsgsAt r h ms msv) : Agree (AtAll r h) (msgBases pk ms) (Idemix.Bbs.msgBases pkv msv) :=
  agree_mapM' b fun m v e => by rw [e.idx]; exact agree_index a.hs v.idx

theorem gives_msgBases {pk : PKGPtr} {pkv : PKG S} {ms : List MsgPtr} {msv : List (SigMsg S)} (a : PKGAt r h pk pkv)
    (b : MsgsAt r h ms msv) :
    Gives r h h (.lift (msgBases pk ms)) (Idemix.Bbs.msgBases pkv msv) (AtAll (k := .g1) r) :=
  Agree.gives ((agree_msgBases a b).imp fun _ _ x _ g => AtAll.mono x g)

theorem frs_at {ms : List MsgPtr} {msv : List (SigMsg S)} (b : MsgsAt r h ms msv) :
    AtAll (k := .zr) r h (ms.map (·.fr)) (msv.map (·.fr)) := by
  induction b with
  | nil => exact .nil
  | cons x _ ih => exact .cons x.fr ih

/-! ## Generators -/

theorem gives_cacheGet (f : From r h h) (lib : Option Nat) (data : Bytes) :
    Gives r h h (cacheGet lib data) (.ok (Idemix.Bbs.hashToG1 data : S.G1)) (At (k := .g1) r) := by
  cases lib with
  | none => exact (gives_new f _).imp fun _ _ _ n => n.1
  | some l =>
    intro h₁ e₁
    cases hc : h₁.cache l data with
    | some p =>
      refine Gives.done fun h₂ e₂ => ?_
      obtain ⟨a, b⟩ := e₁.ok l data p hc
      exact At.mono ⟨.inr a, b⟩ e₂
    | none =>
      refine ⟨rfl, fun h₂ e₂ => ⟨fun p hp => ?_, fun hn => ?_⟩⟩
      · refine Gives.done fun h₃ e₃ => ?_
        obtain ⟨a, b⟩ := e₂.ok l data p hp
        exact At.mono ⟨.inr a, b⟩ e₃
      · refine Gives.done fun h₃ e₃ => ?_
        refine At.mono ⟨.inr rfl, ?_⟩ e₃
        exact (at_push 0 h₂ (k := .g1) (Idemix.Bbs.hashToG1 data)).get

theorem gives_cacheGets (f : From r h h) (lib : Option Nat) (ds : List Bytes) :
    Gives r h h (cacheGets lib ds) (.ok (ds.map Idemix.Bbs.hashToG1 : List S.G1)) (AtAll (k := .g1) r) := by
  induction ds generalizing h with
  | nil => exact Gives.done fun _ _ => .nil
  | cons d ds ih =>
    refine Gives.seq f (gives_cacheGet f lib d) fun p h₁ f₁ a => ?_
    refine Gives.seq f₁.self (ih f₁.self) fun ps h₂ f₂ b => ?_
    exact Gives.done fun h₃ e₃ => .cons (a.mono (f₂.ext.trans e₃)) (AtAll.mono b e₃)

theorem gives_toPKG (f : From r h h) (lib : Option Nat) {w : Ptr .g2} {wv : S.G2} (hw : At r h w wv) (n : Int) :
    Gives r h h (toPKG lib w n) (Idemix.Bbs.toPKG wv n) (PKGAt r) := by
  refine Gives.seq f (gives_load hw) fun v h₁ f₁ e => ?_
  subst e
  refine Gives.bind f₁.self Gives.lift fun i j h₂ _ f₂ e => ?_
  subst e
  refine Gives.seq f₂.self (gives_cacheGet f₂.self lib i.1) fun p h₃ f₃ a => ?_
  refine Gives.seq f₃.self (gives_cacheGets f₃.self lib i.2) fun ps h₄ f₄ b => ?_
  exact Gives.done fun h₅ e₅ => ⟨a.mono (f₄.ext.trans e₅), AtAll.mono b e₅,
    hw.mono ((((f₁.trans f₂).trans f₃).trans f₄).ext.trans e₅), rfl⟩

/-! ## Scalars -/

theorem gives_frFromOKM (f : From r h h) (hc : ConstsAt r h c) (m : Bytes) :
    Gives r h h (frFromOKM L c m) (.ok (Idemix.Bbs.frFromOKM L m)) (At (k := .zr) r) := by
  refine Gives.seq f (gives_new f _) fun p h₁ f₁ a => ?_
  refine Gives.seq f₁.self (gives_zrMul f₁.self a.1 (hc.f2192.mono f₁.ext)) fun q h₂ f₂ b => ?_
  refine Gives.seq f₂.self (gives_new f₂.self _) fun s h₃ f₃ d => ?_
  exact (gives_zrPlus f₃.self (b.1.mono f₃.ext) d.1).imp fun _ _ _ n => n.1

theorem gives_messagesToFr (f : From r h h) (hc : ConstsAt r h c) (i : Nat) (ms : List Bytes) :
    Gives r h h (messagesToFr L c i ms) (.ok (ms.mapIdx fun j m => ⟨Idemix.Bbs.frFromOKM L m, (i + j : Nat)⟩)) (MsgsAt r) := by
  induction ms generalizing h i with
  | nil => exact Gives.done fun _ _ => .nil
  | cons m ms ih =>
    refine Gives.seq f (gives_frFromOKM f hc m) fun p h₁ f₁ a => ?_
    refine Gives.seq f₁.self (ih f₁.self (hc.mono f₁.ext) (i + 1)) fun ps h₂ f₂ b => ?_
    rw [List.mapIdx_cons]
    refine Gives.done fun h₃ e₃ => .cons ⟨a.mono (f₂.ext.trans e₃), rfl⟩ ?_
    have := MsgsAt.mono b e₃
    simp only [Nat.add_right_comm i 1, Nat.add_assoc i] at this ⊢
    exact this

theorem gives_messages (f : From r h h) (hc : ConstsAt r h c) (ms : List Bytes) :
    Gives r h h (messagesToFr L c 0 ms) (.ok (Idemix.Bbs.messagesToFr L ms)) (MsgsAt r) := by
  have := gives_messagesToFr (L := L) f hc 0 ms
  simpa only [Nat.zero_add, Idemix.Bbs.messagesToFr] using this

/-! ## Multi-exponentiation -/

/-- The running sum: nil, or a new object. -/
def SumAt (r : Nat) (h₀ h : Heap S) : Option (Ptr .g1) → Option S.G1 → Prop
  | none, none => True
  | some p, some v => New (k := .g1) r h₀ h p v
  | _, _ => False

theorem gives_addTo {h₀ : Heap S} (f : From r h₀ h) {res : Option (Ptr .g1)} {v : Option S.G1} (a : SumAt r h₀ h res v)
    {g : Ptr .g1} {w : S.G1} (b : New (k := .g1) r h₀ h g w) :
    Gives r h₀ h (addTo res g) (.ok (Idemix.Bbs.addTo v w)) (New (k := .g1) r h₀) := by
  cases res <;> cases v <;> simp only [SumAt] at a
  · exact Gives.done fun h' e => b.mono e
  · refine Gives.seq₀ f (gives_g1Add a b.1) fun _ h₁ f₁ n => ?_
    exact Gives.done fun h' e => n.mono e

theorem SumAt.mono {h₀ : Heap S} {res : Option (Ptr .g1)} {v : Option S.G1} (a : SumAt r h₀ h res v) (g : Ext r h h') :
    SumAt r h₀ h' res v := by
  cases res <;> cases v <;> simp only [SumAt] at a ⊢
  exact a.mono g

theorem gives_sumLoop {h₀ : Heap S} (res : Option (Ptr .g1)) (bs : List (Ptr .g1)) (ss : List (Ptr .zr)) :
    ∀ (h : Heap S) (v : Option S.G1) (bv : List S.G1) (sv : List S.F), From r h₀ h → SumAt r h₀ h res v →
      AtAll (k := .g1) r h₀ bs bv → AtAll (k := .zr) r h₀ ss sv →
      Gives r h₀ h (sumLoop res bs ss) (Idemix.Bbs.sumLoop v bv sv) (SumAt r h₀) := by
  fun_induction sumLoop (S := S) res bs ss with
  | case1 res b1 b2 bs s1 s2 ss ih =>
    rintro h v bv sv f a (_ | ⟨x1, _ | ⟨x2, xs⟩⟩) (_ | ⟨y1, _ | ⟨y2, ys⟩⟩)
    rw [Idemix.Bbs.sumLoop]
    refine Gives.call f (gives_g1Mul2 f.self (x1.mono f.ext) (y1.mono f.ext) (x2.mono f.ext) (y2.mono f.ext))
      fun g h₁ f₁ n => ?_
    refine Gives.seq₀ (f.trans f₁) (gives_addTo (f.trans f₁) (a.mono f₁.ext) (n.base f.ext)) fun p h₂ f₂ n' => ?_
    exact ih p h₂ (some _) _ _ f₂ n' xs ys
  | case2 res b s ss =>
    rintro h v bv sv f a (_ | ⟨x1, _ | _⟩) (_ | ⟨y1, ys⟩)
    rw [Idemix.Bbs.sumLoop]
    refine Gives.call f (gives_g1Mul f.self (x1.mono f.ext) (y1.mono f.ext)) fun g h₁ f₁ n => ?_
    refine Gives.seq₀ (f.trans f₁) (gives_addTo (f.trans f₁) (a.mono f₁.ext) (n.base f.ext)) fun p h₂ f₂ n' => ?_
    exact Gives.done fun h₃ e₃ => n'.mono e₃
  | case3 res ss =>
    rintro h v bv sv f a (_ | _) -
    rw [Idemix.Bbs.sumLoop]
    exact Gives.done fun h₃ e₃ => a.mono e₃
  | case4 res bs ss n1 n2 n3 =>
    rintro h v bv sv f a xs ys
    have : Idemix.Bbs.sumLoop v bv sv = .panic := by
      cases xs with
      | nil => exact (n3 rfl).elim
      | cons x xs =>
        cases ys with
        | nil => cases xs <;> rw [Idemix.Bbs.sumLoop] <;> simp
        | cons y ys =>
          cases xs with
          | nil => exact (n2 _ _ _ rfl rfl).elim
          | cons x' xs =>
            cases ys with
            | nil => rw [Idemix.Bbs.sumLoop] <;> simp
            | cons y' ys => exact (n1 _ _ _ _ _ _ rfl rfl).elim
    rw [this]
    exact Gives.panic

theorem gives_build (f : From r h h) {bs : List (Ptr .g1)} {bv : List S.G1} {ss : List (Ptr .zr)} {sv : List S.F}
    (hb : AtAll (k := .g1) r h bs bv) (hs : AtAll (k := .zr) r h ss sv) :
    Gives r h h (build bs ss) (Idemix.Bbs.build bv sv) (New (k := .g1) r h) := by
  refine Gives.bind₀ f (gives_sumLoop none bs ss h none bv sv f trivial hb hs) fun p v h₁ _ f₁ a => ?_
  cases p <;> cases v <;> simp only [SumAt] at a
  · exact Gives.panic
  · exact Gives.done fun h₂ e₂ => a.mono e₂

theorem gives_pairings (f : From r h h) {p1 p2 : Ptr .g1} {q1 q2 : Ptr .g2} {v1 v2 : S.G1} {w1 w2 : S.G2}
    (a1 : At r h p1 v1) (b1 : At r h q1 w1) (a2 : At r h p2 v2) (b2 : At r h q2 w2) :
    Gives r h h (compareTwoPairings p1 q1 p2 q2) (.ok (Idemix.Bbs.compareTwoPairings v1 w1 v2 w2)) fun _ a b => a = b := by
  refine Gives.seq f (gives_load b1) fun x h₁ f₁ e => ?_
  subst e
  refine Gives.seq f₁.self (gives_load (a1.mono f₁.ext)) fun x h₂ f₂ e => ?_
  subst e
  refine Gives.seq f₂.self (gives_load (b2.mono (f₁.trans f₂).ext)) fun x h₃ f₃ e => ?_
  subst e
  refine Gives.seq f₃.self (gives_load (a2.mono ((f₁.trans f₂).trans f₃).ext)) fun x h₄ f₄ e => ?_
  subst e
  exact Gives.done fun _ _ => rfl

/-! ## Signatures -/

theorem gives_parseSignature (f : From r h h) (raw : Bytes) :
    Gives r h h (parseSignature raw) (Idemix.Bbs.parseSignature S raw) (SigAt r) := by
  have : Idemix.Bbs.parseSignature S raw = Idemix.Bbs.parseSignature S raw >>= .ok := (Res.bind_ok _).symm
  rw [this]
  refine Gives.bind f Gives.lift fun σ σ' h₁ _ f₁ e => ?_
  subst e
  refine Gives.seq f₁.self (gives_new f₁.self _) fun p h₂ f₂ a => ?_
  refine Gives.seq f₂.self (gives_new f₂.self _) fun q h₃ f₃ b => ?_
  refine Gives.seq f₃.self (gives_new f₃.self _) fun s h₄ f₄ d => ?_
  exact Gives.done fun h₅ e₅ => ⟨a.1.mono ((f₃.trans f₄).ext.trans e₅), b.1.mono (f₄.ext.trans e₅), d.1.mono e₅⟩

theorem gives_sigBytes (f : From r h h) {p : SigPtr} {σ : Sig S} (a : SigAt r h p σ) :
    Gives r h h (sigBytes p) (Sig.toBytes σ) fun _ a b => a = b := by
  refine Gives.seq f (gives_load a.a) fun x h₁ f₁ e => ?_
  subst e
  refine Gives.seq f₁.self (gives_load (a.e.mono f₁.ext)) fun x h₂ f₂ e => ?_
  subst e
  refine Gives.seq f₂.self (gives_load (a.s.mono (f₁.trans f₂).ext)) fun x h₃ f₃ e => ?_
  subst e
  exact Gives.lift

theorem gives_computeB (f : From r h h) (hc : ConstsAt r h c) {s : Ptr .zr} {sv : S.F} (hs : At r h s sv)
    {ms : List MsgPtr} {msv : List (SigMsg S)} (hm : MsgsAt r h ms msv) {pk : PKGPtr} {pkv : PKG S} (hp : PKGAt r h pk pkv) :
    Gives r h h (computeB c s ms pk) (Idemix.Bbs.computeB sv msv pkv) (New (k := .g1) r h) := by
  refine Gives.seq f (gives_new f _) fun one h₁ f₁ a => ?_
  refine Gives.bind f₁.self (gives_msgBases (hp.mono f₁.ext) (hm.mono f₁.ext)) fun hs' hv h₂ _ f₂ b => ?_
  have F := (f₁.trans f₂).ext
  exact (gives_build f₂.self (.cons (hc.genG1.mono F) (.cons (hp.h0.mono F) b))
    (.cons (a.1.mono f₂.ext) (.cons (hs.mono F) (AtAll.mono (frs_at hm) F)))).imp fun _ _ _ n => n.base F

theorem gives_verifyWithB (f : From r h h) (hc : ConstsAt r h c) {p : SigPtr} {σ : Sig S} (hσ : SigAt r h p σ)
    {pk : PKGPtr} {pkv : PKG S} (hp : PKGAt r h pk pkv) {b : Ptr .g1} {bv : S.G1} (hb : At r h b bv) :
    Gives r h h (verifyWithB c p pk b) (σ.verifyWithB pkv bv) fun _ a b => a = b := by
  refine Gives.call f (gives_g2Mul f hc.genG2 hσ.e) fun q1 h₁ f₁ a => ?_
  refine Gives.seq₀ f₁ (gives_g2Add a (hp.w.mono f₁.ext)) fun _ h₂ f₂ a => ?_
  refine Gives.base f₂ ?_
  refine Gives.call f₂.self (gives_copy f₂.self (hb.mono f₂.ext)) fun p2 h₃ f₃ d => ?_
  refine Gives.seq₀ f₃ (gives_g1Neg d) fun _ h₄ f₄ d => ?_
  refine Gives.base f₄ ?_
  have F := (f₂.trans f₄).ext
  refine Gives.seq f₄.self (gives_pairings f₄.self (hσ.a.mono F) (a.1.mono f₄.ext) d.1 (hc.genG2.mono F)) fun ok h₅ f₅ e => ?_
  subst e
  exact Gives.lift

theorem gives_verifySig (f : From r h h) (hc : ConstsAt r h c) {p : SigPtr} {σ : Sig S} (hσ : SigAt r h p σ)
    {ms : List MsgPtr} {msv : List (SigMsg S)} (hm : MsgsAt r h ms msv) {pk : PKGPtr} {pkv : PKG S} (hp : PKGAt r h pk pkv) :
    Gives r h h (verifySig c p ms pk) (σ.verify msv pkv) fun _ a b => a = b := by
  refine Gives.bind f (gives_computeB f hc hσ.s hm hp) fun b bv h₁ _ f₁ n => ?_
  exact gives_verifyWithB f₁.self (hc.mono f₁.ext) (hσ.mono f₁.ext) (hp.mono f₁.ext) n.1

theorem gives_publicKey (f : From r h h) (hc : ConstsAt r h c) {sk : Ptr .zr} {skv : S.F} (hs : At r h sk skv) :
    Gives r h h (publicKey c sk) (.ok (Idemix.Bbs.publicKey skv)) (At (k := .g2) r) :=
  (gives_g2Mul f hc.genG2 hs).imp fun _ _ _ n => n.1

theorem gives_signWithKeyB (f : From r h h) (hc : ConstsAt r h c) (lib : Option Nat) {b : Ptr .g1} {bv : S.G1}
    (hb : At r h b bv) (n : Int) {sk : Ptr .zr} {skv : S.F} (hs : At r h sk skv) (e s : S.F) :
    Gives r h h (signWithKeyB c lib b n sk e s) (Idemix.Bbs.signWithKeyB bv n skv e s) fun _ a b => a = b := by
  refine Gives.seq f (gives_publicKey f hc hs) fun w h₁ f₁ a => ?_
  refine Gives.bind f₁.self (gives_toPKG f₁.self lib a n) fun pk pkv h₂ _ f₂ hp => ?_
  have F₂ := f₁.trans f₂
  refine Gives.seq f₂.self (gives_new (k := .zr) f₂.self e) fun pe h₃ f₃ he => ?_
  refine Gives.seq f₃.self (gives_new (k := .zr) f₃.self s) fun ps h₄ f₄ hs' => ?_
  have F₄ := (F₂.trans f₃).trans f₄
  refine Gives.seq f₄.self (gives_copy f₄.self (hs.mono F₄.ext)) fun ex h₅ f₅ hx => ?_
  have F₅ := F₄.trans f₅
  refine Gives.call f₅.self (gives_zrPlus f₅.self hx.1 (he.1.mono (f₄.trans f₅).ext)) fun ex h₆ f₆ hx => ?_
  refine Gives.seq₀ f₆ (gives_zrInv hx) fun _ h₇ f₇ hx => ?_
  refine Gives.base f₇ ?_
  have F₇ := F₅.trans f₇
  refine Gives.call f₇.self (gives_copy f₇.self (hb.mono F₇.ext)) fun b' h₈ f₈ hb' => ?_
  have G₈ := (((f₃.trans f₄).trans f₅).trans f₇).trans f₈
  refine Gives.call f₈ (gives_g1Mul f₈.self (hp.h0.mono G₈.ext) (hs'.1.mono ((f₅.trans f₇).trans f₈).ext))
    fun g h₉ f₉ hg => ?_
  refine Gives.seq₀ (f₈.trans f₉) (gives_g1Add (hb'.mono f₉.ext) hg.1) fun _ h₁₀ f₁₀ hb' => ?_
  refine Gives.base f₁₀ ?_
  refine Gives.seq f₁₀.self (gives_g1Mul f₁₀.self hb'.1 (hx.1.mono f₁₀.ext)) fun pa h₁₁ f₁₁ ha => ?_
  exact gives_sigBytes f₁₁.self ⟨ha.1, he.1.mono ((((f₄.trans f₅).trans f₇).trans f₁₀).trans f₁₁).ext,
    hs'.1.mono (((f₅.trans f₇).trans f₁₀).trans f₁₁).ext⟩

theorem gives_signWithKeyFr (f : From r h h) (hc : ConstsAt r h c) (lib : Option Nat) {ms : List MsgPtr}
    {msv : List (SigMsg S)} (hm : MsgsAt r h ms msv) (n : Int) {sk : Ptr .zr} {skv : S.F} (hs : At r h sk skv) (e s : S.F) :
    Gives r h h (signWithKeyFr c lib ms n sk e s) (Idemix.Bbs.signWithKeyFr msv n skv e s) fun _ a b => a = b := by
  refine Gives.seq f (gives_publicKey f hc hs) fun w h₁ f₁ a => ?_
  refine Gives.bind f₁.self (gives_toPKG f₁.self lib a n) fun pk pkv h₂ _ f₂ hp => ?_
  refine Gives.seq f₂.self (gives_new f₂.self _) fun one h₃ f₃ ho => ?_
  have F₃ := ((f₁.trans f₂).trans f₃).ext
  refine Gives.bind f₃.self (gives_msgBases (hp.mono f₃.ext) (hm.mono F₃)) fun hs' hv h₄ _ f₄ hh => ?_
  have F₄ := F₃.trans f₄.ext
  refine Gives.bind f₄.self (gives_build f₄.self (.cons (hc.genG1.mono F₄) hh)
    (.cons (ho.1.mono f₄.ext) (AtAll.mono (frs_at hm) F₄))) fun b bv h₅ _ f₅ hb => ?_
  rw [List.Forall₂.length_eq hm]
  exact gives_signWithKeyB f₅.self (hc.mono (F₄.trans f₅.ext)) lib hb.1 _ (hs.mono (F₄.trans f₅.ext)) e s

/-- `Sign`. -/
theorem gives_sign (f : From r h h) (hc : ConstsAt r h c) (lib : Option Nat) (messages : List Bytes) (rawSk : Bytes)
    (e s : S.F) :
    Gives r h h (sign L c lib messages rawSk e s) (Idemix.Bbs.sign L messages rawSk e s) fun _ a b => a = b := by
  refine Gives.bind f Gives.lift fun sk sk' h₁ _ f₁ x => ?_
  subst x
  refine Gives.seq f₁.self (gives_new f₁.self _) fun sk h₂ f₂ hs => ?_
  refine Gives.bind f₂.self Gives.lift fun _ _ h₃ _ f₃ _ => ?_
  have F₃ := ((f₁.trans f₂).trans f₃).ext
  refine Gives.seq f₃.self (gives_messages f₃.self (hc.mono F₃) messages) fun ms h₄ f₄ hm => ?_
  exact gives_signWithKeyFr f₄.self (hc.mono (F₃.trans f₄.ext)) lib hm _ (hs.1.mono (f₃.trans f₄).ext) e s

/-- `Verify`. -/
theorem gives_verify (f : From r h h) (hc : ConstsAt r h c) (lib : Option Nat) (messages : List Bytes)
    (rawSig rawPk : Bytes) :
    Gives r h h (verify L c lib messages rawSig rawPk) (Idemix.Bbs.verify L messages rawSig rawPk) fun _ a b => a = b := by
  refine Gives.bind f (gives_parseSignature f rawSig) fun p σ h₁ _ f₁ hσ => ?_
  refine Gives.bind f₁.self Gives.lift fun w w' h₂ _ f₂ x => ?_
  subst x
  refine Gives.seq f₂.self (gives_new f₂.self _) fun w h₃ f₃ hw => ?_
  refine Gives.bind f₃.self (gives_toPKG f₃.self lib hw.1 _) fun pk pkv h₄ _ f₄ hp => ?_
  have G₄ := (f₂.trans f₃).trans f₄
  have F₄ := (f₁.trans G₄).ext
  refine Gives.seq f₄.self (gives_messages f₄.self (hc.mono F₄) messages) fun ms h₅ f₅ hm => ?_
  exact gives_verifySig f₅.self (hc.mono (F₄.trans f₅.ext)) (hσ.mono (G₄.trans f₅).ext) hm (hp.mono f₅.ext)

end Idemix.Mem.Bbs
