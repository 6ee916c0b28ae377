import Verif.Mem.Aries

/-!
# Issuance, pseudonyms and pseudonym signatures of the aries scheme on the heap do what `Verif/Aries/Model.lean` says

For every way in which the arguments share objects, and whatever other goroutines do.
-/

namespace Idemix.Mem.Aries

open Idemix.Bbs (Lib PKG Sig SigMsg PoK PoKRand Committed ProofG1 SigProof Payload)
open Idemix.Aries (IPK ISK Credential Blinded)
open Idemix.Mem.Bbs

variable {S : Suite} {L : Lib S} {c : Consts} {r : Nat} {h₀ h h' : Heap S}

/-! ## What pointers denote -/

structure IpkAt (r : Nat) (h : Heap S) (p : IpkPtr) (v : IPK S) : Prop where
  w : At r h p.w v.w
  pkg : PKGAt r h p.pkg v.pkg
  n : p.n = v.n

structure IskAt (r : Nat) (h : Heap S) (p : IskPtr) (v : ISK S) : Prop where
  pk : IpkAt r h p.pk v.pk
  sk : At r h p.sk v.sk

/-- The value of an interface. -/
def DynIpkAt (r : Nat) (h : Heap S) : Dyn IpkPtr → Dyn (IPK S) → Prop
  | .val p, .val v => IpkAt r h p v
  | .nilPtr, .nilPtr => True
  | .other, .other => True
  | _, _ => False

/-- The value of an interface. -/
def DynIskAt (r : Nat) (h : Heap S) : Dyn IskPtr → Dyn (ISK S) → Prop
  | .val p, .val v => IskAt r h p v
  | .nilPtr, .nilPtr => True
  | .other, .other => True
  | _, _ => False

structure BlindedAt (r : Nat) (h : Heap S) (p : BlindedPtr) (v : Blinded S) : Prop where
  c : At r h p.c v.c
  pokC : At r h p.pokC v.pokC
  proof : ProofG1At r h p.proof v.proof

theorem IpkAt.mono {p : IpkPtr} {v : IPK S} (a : IpkAt r h p v) (g : Ext r h h') : IpkAt r h' p v :=
  ⟨a.w.mono g, a.pkg.mono g, a.n⟩

theorem IskAt.mono {p : IskPtr} {v : ISK S} (a : IskAt r h p v) (g : Ext r h h') : IskAt r h' p v :=
  ⟨a.pk.mono g, a.sk.mono g⟩

theorem DynIpkAt.mono {p : Dyn IpkPtr} {v : Dyn (IPK S)} (a : DynIpkAt r h p v) (g : Ext r h h') : DynIpkAt r h' p v := by
  cases p <;> cases v <;> simp only [DynIpkAt] at a ⊢
  exact a.mono g

theorem DynIskAt.mono {p : Dyn IskPtr} {v : Dyn (ISK S)} (a : DynIskAt r h p v) (g : Ext r h h') : DynIskAt r h' p v := by
  cases p <;> cases v <;> simp only [DynIskAt] at a ⊢
  exact a.mono g

theorem BlindedAt.mono {p : BlindedPtr} {v : Blinded S} (a : BlindedAt r h p v) (g : Ext r h h') : BlindedAt r h' p v :=
  ⟨a.c.mono g, a.pokC.mono g, a.proof.mono g⟩

theorem gives_ipk {p : Dyn IpkPtr} {v : Dyn (IPK S)} (a : DynIpkAt r h p v) (m : String) :
    Gives r h₀ h (.lift (p.get m)) (v.get m) (IpkAt r) := by
  cases p <;> cases v <;> simp only [DynIpkAt] at a
  · exact Gives.done fun _ e => a.mono e
  · exact Gives.panic
  · exact Gives.fail

theorem gives_isk {p : Dyn IskPtr} {v : Dyn (ISK S)} (a : DynIskAt r h p v) (m : String) :
    Gives r h₀ h (.lift (p.get m)) (v.get m) (IskAt r) := by
  cases p <;> cases v <;> simp only [DynIskAt] at a
  · exact Gives.done fun _ e => a.mono e
  · exact Gives.panic
  · exact Gives.fail

theorem gives_index {k : Kind} {ps : List (Ptr k)} {vs : List (Val S k)} (a : AtAll r h ps vs) (i : Int) :
    Gives r h₀ h (.lift (Res.index ps i)) (Res.index vs i) (At (k := k) r) :=
  Agree.gives ((agree_index a i).imp fun _ _ x _ g => x.mono g)

/-! ## Keys -/

theorem gives_newKey (f : From r h h) (lib : Option Nat) (names : List Bytes) (seed : Bytes) :
    Gives r h h (newKey L lib names seed) (Idemix.Aries.newKey L names seed) (IskAt r) := by
  pure_run ws
  obtain ⟨w, sk⟩ := ws
  run (gives_new (k := .g2) f w) with pw hw
  run (gives_new (k := .zr) f sk) with ps hs
  try_run (gives_toPKG f lib hw _) with pk pkv hp
  exact Gives.done fun _ e => ⟨⟨hw.mono e, hp.mono e, rfl⟩, hs.mono e⟩

theorem gives_newKeyFromBytes (f : From r h h) (hc : ConstsAt r h c) (lib : Option Nat) (raw : Bytes) (names : List Bytes) :
    Gives r h h (newKeyFromBytes c lib raw names) (Idemix.Aries.newKeyFromBytes S raw names) (IskAt r) := by
  pure_run sk
  run (gives_new (k := .zr) f sk) with ps hs
  run (gives_publicKey f hc hs) with pw hw
  try_run (gives_toPKG f lib hw _) with pk pkv hp
  exact Gives.done fun _ e => ⟨⟨hw.mono e, hp.mono e, rfl⟩, hs.mono e⟩

theorem gives_newPublicKeyFromBytes (f : From r h h) (lib : Option Nat) (raw : Bytes) (names : List Bytes) :
    Gives r h h (newPublicKeyFromBytes lib raw names) (Idemix.Aries.newPublicKeyFromBytes S raw names) (IpkAt r) := by
  pure_run w
  run (gives_new (k := .g2) f w) with pw hw
  try_run (gives_toPKG f lib hw _) with pk pkv hp
  exact Gives.done fun _ e => ⟨hw.mono e, hp.mono e, rfl⟩

theorem gives_issuerBases (f : From r h h) {key : Dyn IpkPtr} {keyv : Dyn (IPK S)} (hk : DynIpkAt r h key keyv)
    (isDlog : Bool) (rhIndex eidIndex skIndex : Int) :
    Gives r h h (issuerBases key isDlog rhIndex eidIndex skIndex)
      (Idemix.Aries.issuerBases keyv isDlog rhIndex eidIndex skIndex) fun h' a b => AtAll (k := .g1) r h' a.1 b.1 ∧
        AtAll (k := .g1) r h' a.2.1 b.2.1 ∧ AtAll (k := .g1) r h' a.2.2 b.2.2 := by
  pure_run u
  try_run (gives_ipk hk _) with ipk ipkv hi
  rw [hi.n]
  pure_run u
  try_run (gives_index hi.pkg.hs _) with q1 v1 h1
  try_run (gives_index hi.pkg.hs _) with q2 v2 h2
  try_run (gives_index hi.pkg.hs _) with q3 v3 h3
  exact Gives.done fun _ e => ⟨.cons (hi.pkg.h0.mono e) (.cons (h1.mono e) .nil),
    .cons (hi.pkg.h0.mono e) (.cons (h2.mono e) .nil), .cons (hi.pkg.h0.mono e) (.cons (h3.mono e) .nil)⟩

theorem gives_makeNym (f : From r h h) {sk : Ptr .zr} {skv : S.F} (hs : At r h sk skv) {key : Dyn IpkPtr}
    {keyv : Dyn (IPK S)} (hk : DynIpkAt r h key keyv) (skIdx : Int) (rNym : S.F) :
    Gives r h h (makeNym sk key skIdx rNym) (Idemix.Aries.makeNym skv keyv skIdx rNym)
      fun h' a b => At (k := .g1) r h' a.1 b.1 ∧ At (k := .zr) r h' a.2 b.2 := by
  try_run (gives_ipk hk _) with ipk ipkv hi
  run (gives_new (k := .zr) f rNym) with pr hr
  try_run (gives_index hi.pkg.hs _) with q1 v1 h1
  try_run (gives_build f (.cons hi.pkg.h0 (.cons h1 .nil)) (.cons hr (.cons hs .nil))) with q2 v2 h2
  exact Gives.done fun _ e => ⟨h2.mono e, hr.mono e⟩

/-! ## Attributes -/

/-- Nil, or a pointer to a scalar. -/
def OptZrAt (r : Nat) (h : Heap S) : Option (Ptr .zr) → Option S.F → Prop
  | none, none => True
  | some p, some v => At r h p v
  | _, _ => False

theorem OptZrAt.mono {p : Option (Ptr .zr)} {v : Option S.F} (a : OptZrAt r h p v) (g : Ext r h h') : OptZrAt r h' p v := by
  cases p <;> cases v <;> simp only [OptZrAt] at a ⊢
  exact a.mono g

theorem gives_attrFr (f : From r h h) (hc : ConstsAt r h c) (a : IdemixAttribute) :
    Gives r h h (attrFr L c a) (Idemix.Aries.attrFr L a) (OptZrAt r) := by
  unfold attrFr Idemix.Aries.attrFr
  split
  · cases a.value with
    | bytes b =>
      run (gives_frFromOKM (L := L) f hc b) with q hq
      exact Gives.done fun _ e => hq.mono e
    | _ => exact Gives.panic
  · split
    · cases a.value with
      | int i =>
        run (gives_new (k := .zr) f (S.zrOfInt i)) with q hq
        exact Gives.done fun _ e => hq.mono e
      | _ => exact Gives.panic
    · exact Gives.done fun _ _ => trivial

theorem gives_attrMsgs (f : From r h h) (hc : ConstsAt r h c) (i : Nat) (as : List IdemixAttribute) :
    Gives r h h (attrMsgs L c i as) (Idemix.Aries.attrMsgs L i as) (MsgsAt r) := by
  induction as generalizing h i with
  | nil => exact Gives.done fun _ _ => .nil
  | cons a as ih =>
    try_run (gives_attrFr f hc a) with q v hq
    try_run (ih f hc (i + 1)) with ms vs hm
    cases q <;> cases v <;> simp only [OptZrAt] at hq
    · exact Gives.done fun _ e => hm.mono e
    · exact Gives.done fun _ e => .cons ⟨hq.mono e, rfl⟩ (hm.mono e)

theorem gives_attributesToSignatureMessage (f : From r h h) (hc : ConstsAt r h c) (as : List IdemixAttribute) (skPos : Int) :
    Gives r h h (attributesToSignatureMessage L c as skPos) (Idemix.Aries.attributesToSignatureMessage L as skPos)
      (MsgsAt r) := by
  pure_run u
  exact gives_attrMsgs f hc 0 _

theorem gives_credMsgs (f : From r h h) {sk : Ptr .zr} {skv : S.F} (hs : At r h sk skv) (skPos : Int) (todo i : Nat)
    (attrs : List Bytes) :
    Gives r h h (credMsgs sk skPos todo i attrs) (Idemix.Aries.credMsgs S skv skPos todo i attrs) (MsgsAt r) := by
  induction todo generalizing h i attrs with
  | zero => exact Gives.done fun _ _ => .nil
  | succ n ih =>
    simp only [credMsgs, Idemix.Aries.credMsgs]
    split
    · try_run (ih f hs (i + 1) attrs) with ms vs hm
      exact Gives.done fun _ e => .cons ⟨hs.mono e, rfl⟩ (hm.mono e)
    · cases attrs with
      | nil => exact Gives.panic
      | cons a attrs =>
        run (gives_new (k := .zr) f (S.zrOfBytes a)) with q hq
        try_run (ih f hs (i + 1) attrs) with ms vs hm
        exact Gives.done fun _ e => .cons ⟨hq.mono e, rfl⟩ (hm.mono e)

theorem gives_toSignatureMessage (f : From r h h) (cred : Credential) {sk : Ptr .zr} {skv : S.F} (hs : At r h sk skv) :
    Gives r h h (toSignatureMessage cred sk) (cred.toSignatureMessage skv) (MsgsAt r) :=
  gives_credMsgs f hs _ _ _ _

/-! ## Blind signatures -/

theorem gives_parseProofG1 (f : From r h h) (raw : Bytes) :
    Gives r h h (parseProofG1 raw) (Idemix.Bbs.parseProofG1 S raw) (ProofG1At r) := by
  rw [← bind_pure (Idemix.Bbs.parseProofG1 S raw)]
  pure_run p
  run (gives_new (k := .g1) f p.commitment) with q hq
  run (gives_newZrs f p.responses) with rs hr
  exact Gives.done fun _ e => ⟨hq.mono e, AtAll.mono hr e⟩

theorem gives_proofG1Bytes (f : From r h h) {p : ProofG1Ptr} {v : ProofG1 S} (hp : ProofG1At r h p v) :
    Gives r h h (proofG1Bytes p) v.toBytes fun _ a b => a = b := by
  get (gives_load hp.commitment)
  get (gives_loadAll f hp.responses)
  exact Gives.lift

theorem gives_blindedBytes (f : From r h h) {p : BlindedPtr} {v : Blinded S} (hp : BlindedAt r h p v) :
    Gives r h h (blindedBytes p) v.bytes fun _ a b => a = b := by
  get (gives_load hp.c)
  get (gives_load hp.pokC)
  refine Gives.bind f (gives_proofG1Bytes f hp.proof) fun _ _ h' _ f' e' => ?_
  subst e'
  exact Gives.done fun _ _ => rfl

theorem gives_parseBlindedMessages (f : From r h h) (raw : Bytes) :
    Gives r h h (parseBlindedMessages raw) (Idemix.Aries.parseBlindedMessages S raw) (BlindedAt r) := by
  rw [← bind_pure (Idemix.Aries.parseBlindedMessages S raw)]
  pure_run b
  run (gives_new (k := .g1) f b.c) with q1 h1
  run (gives_new (k := .g1) f b.pokC) with q2 h2
  run (gives_new (k := .g1) f b.proof.commitment) with q3 h3
  run (gives_newZrs f b.proof.responses) with rs hr
  exact Gives.done fun _ e => ⟨h1.mono e, h2.mono e, ⟨h3.mono e, AtAll.mono hr e⟩⟩

theorem gives_selectGens {pk : PKGPtr} {pkv : PKG S} (hp : PKGAt r h pk pkv) (is : List Nat) :
    Gives r h h (.lift (selectGens pk is)) (Idemix.Aries.selectGens pkv is) (AtAll (k := .g1) r) :=
  Agree.gives ((agree_mapM' (P := fun a b => a = b) (List.forall₂_refl is) fun a b e => by
    subst e; exact agree_index hp.hs _).imp fun _ _ x _ g => AtAll.mono x g)

theorem gives_blindChallenge (f : From r h h) (hc : ConstsAt r h c) {p q : Ptr .g1} {v w : S.G1} (hp : At r h p v)
    (hq : At r h q w) (nonce : Bytes) :
    Gives r h h (blindChallenge L c p q nonce) (.ok (Idemix.Aries.blindChallenge L v w nonce)) (At (k := .zr) r) := by
  get (gives_load hp)
  get (gives_load hq)
  exact gives_frFromOKM f hc _

theorem gives_verifyBlindedProof (f : From r h h) (lib : Option Nat) {b : BlindedPtr} {bv : Blinded S} (hb : BlindedAt r h b bv)
    (messages : List Bool) {p : Ptr .g1} {v : S.G1} (hp : At r h p v) {ch : Ptr .zr} {chv : S.F} (hch : At r h ch chv)
    {w : Ptr .g2} {wv : S.G2} (hw : At r h w wv) :
    Gives r h h (verifyBlindedProof lib b messages p ch w) (bv.verifyProof messages v chv wv) fun _ a b => a = b := by
  unfold verifyBlindedProof Blinded.verifyProof
  try_run (gives_toPKG f lib hw _) with pk pkv hpk
  try_run (gives_selectGens hpk _) with hs hv hh
  have := (gives_verifyProofG1 f hb.proof (.cons hpk.h0 hh) hp hch).mapErr (f := fun _ => "invalid proof")
  revert this
  cases bv.proof.verify (pkv.h0 :: hv) v chv <;> exact fun a => a

theorem gives_verifyBlinding (f : From r h h) (hc : ConstsAt r h c) (lib : Option Nat) (bitmap : List Bool) {b : BlindedPtr}
    {bv : Blinded S} (hb : BlindedAt r h b bv) {w : Ptr .g2} {wv : S.G2} (hw : At r h w wv) (nonce : Bytes) :
    Gives r h h (verifyBlinding L c lib bitmap b w nonce) (Idemix.Aries.verifyBlinding L bitmap bv wv nonce)
      fun _ a b => a = b := by
  run (gives_blindChallenge (L := L) f hc hb.c hb.pokC nonce) with ch hch
  exact gives_verifyBlindedProof f lib hb bitmap hb.c hch hw

/-- Nil, or pointers to scalars. -/
def OptZrsAt (r : Nat) (h : Heap S) (ps : List (Option (Ptr .zr))) (vs : List (Option S.F)) : Prop :=
  List.Forall₂ (OptZrAt r h) ps vs

theorem OptZrsAt.mono {p : List (Option (Ptr .zr))} {v : List (Option S.F)} (a : OptZrsAt r h p v) (g : Ext r h h') :
    OptZrsAt r h' p v := List.Forall₂.imp (fun _ _ x => x.mono g) a

theorem present_at {p : List (Option (Ptr .zr))} {v : List (Option S.F)} (a : OptZrsAt r h p v) (i : Nat) :
    (present i p).map (·.1) = (Idemix.Aries.present i v).map (·.1) ∧
      AtAll (k := .zr) r h ((present i p).map (·.2)) ((Idemix.Aries.present i v).map (·.2)) := by
  induction a generalizing i with
  | nil => exact ⟨rfl, .nil⟩
  | @cons q w _ _ x _ ih =>
    cases q <;> cases w <;> simp only [OptZrAt] at x
    · exact ih (i + 1)
    · exact ⟨by simp only [present, Idemix.Aries.present, List.map_cons, (ih (i + 1)).1], .cons x (ih (i + 1)).2⟩

theorem gives_blindMessagesZr (f : From r h h) (hc : ConstsAt r h c) (lib : Option Nat) {zs : List (Option (Ptr .zr))}
    {zv : List (Option S.F)} (hz : OptZrsAt r h zs zv) {w : Ptr .g2} {wv : S.G2} (hw : At r h w wv) (nonce : Bytes) (s : S.F)
    (ρ : Nat → S.F) :
    Gives r h h (blindMessagesZr L c lib zs w nonce s ρ) (Idemix.Aries.blindMessagesZr L zv wv nonce s ρ)
      fun h' a b => BlindedAt r h' a.1 b ∧ At (k := .zr) r h' a.2 s := by
  unfold blindMessagesZr Idemix.Aries.blindMessagesZr
  rw [List.Forall₂.length_eq hz, (present_at hz 0).1]
  have hsec := (present_at hz 0).2
  generalize (present 0 zs).map (·.2) = secs at hsec
  try_run (gives_toPKG f lib hw _) with pk pkv hpk
  run (gives_new (k := .zr) f s) with ps hs
  try_run (gives_selectGens hpk _) with gs gv hg
  try_run (gives_build f (.cons hpk.h0 hg) (.cons hs hsec)) with com cv hcom
  rw [show (pk.h0 :: gs).length = (pkv.h0 :: gv).length by rw [List.length_cons, List.length_cons, List.Forall₂.length_eq hg]]
  run (gives_blindings f _ ρ) with bl hbl
  try_run (gives_finish f (.cons hpk.h0 hg) hbl) with u uv hu
  run (gives_blindChallenge (L := L) f hc hcom hu.commitment nonce) with ch hch
  try_run (gives_generateProofG1 f hu hch (.cons hs hsec)) with pf pfv hpf
  exact Gives.done fun _ e => ⟨⟨hcom.mono e, hu.commitment.mono e, hpf.mono e⟩, hs.mono e⟩

theorem gives_blindSign (f : From r h h) (hc : ConstsAt r h c) (lib : Option Nat) {ms : List MsgPtr} {msv : List (SigMsg S)}
    (hm : MsgsAt r h ms msv) (n : Int) {p : Ptr .g1} {v : S.G1} (hp : At r h p v) (rawSk : Bytes) (e s : S.F) :
    Gives r h h (blindSign c lib ms n p rawSk e s) (Idemix.Aries.blindSign msv n v rawSk e s) fun _ a b => a = b := by
  unfold blindSign Idemix.Aries.blindSign
  rw [List.Forall₂.length_eq hm]
  pure_run sk
  run (gives_new (k := .zr) f sk) with ps hs
  run (gives_publicKey f hc hs) with w hw
  try_run (gives_toPKG f lib hw _) with pk pkv hpk
  pure_run u
  try_run (gives_msgBases hpk hm) with gs gv hg
  run (gives_new (k := .zr) f (S.zrOfInt 1)) with o1 ho1
  run (gives_new (k := .zr) f (S.zrOfInt 1)) with o2 ho2
  try_run (gives_build f (List.rel_append hg (.cons hp (.cons hc.genG1 .nil)))
    (List.rel_append (frs_at hm) (.cons ho1 (.cons ho2 .nil)))) with com cv hcom
  exact gives_signWithKeyB f hc lib hcom _ hs e s

theorem gives_unblindSign (f : From r h h) (raw : Bytes) {s : Ptr .zr} {sv : S.F} (hs : At r h s sv) :
    Gives r h h (unblindSign raw s) (Idemix.Aries.unblindSign S raw sv) fun _ a b => a = b := by
  try_run (gives_parseSignature f raw) with σ σv hσ
  run (gives_zrPlus f hσ.s hs) with q hq
  exact gives_sigBytes f ⟨hσ.a, hσ.e, hq⟩

/-! ## Requests -/

theorem forall₂_replicate {α β : Type} {R : α → β → Prop} {a : α} {b : β} (x : R a b) (n : Nat) :
    List.Forall₂ R (List.replicate n a) (List.replicate n b) := by
  induction n with
  | zero => exact .nil
  | succ n ih => rw [List.replicate_succ, List.replicate_succ]; exact .cons x ih

theorem forall₂_set {α β : Type} {R : α → β → Prop} {as : List α} {bs : List β} (l : List.Forall₂ R as bs) (i : Nat)
    {a : α} {b : β} (x : R a b) : List.Forall₂ R (as.set i a) (bs.set i b) := by
  induction l generalizing i with
  | nil => exact .nil
  | cons y ys ih =>
    cases i with
    | zero => exact .cons x ys
    | succ i => exact .cons y (ih i)

theorem gives_blind (f : From r h h) (hc : ConstsAt r h c) {sk : Ptr .zr} {skv : S.F} (hs : At r h sk skv) {key : Dyn IpkPtr}
    {keyv : Dyn (IPK S)} (hk : DynIpkAt r h key keyv) (nonce : Bytes) (skIdx : Int) (s : S.F) (ρ : Nat → S.F) :
    Gives r h h (blind L c sk key nonce skIdx s ρ) (Idemix.Aries.blind L skv keyv nonce skIdx s ρ) fun _ a b => a = b := by
  try_run (gives_ipk hk _) with ipk ipkv hi
  rw [hi.n]
  pure_run u
  have hz : OptZrsAt r _ ((List.replicate (ipkv.n + 1).toNat none).set skIdx.toNat (some sk))
    ((List.replicate (ipkv.n + 1).toNat none).set skIdx.toNat (some skv)) :=
    forall₂_set (forall₂_replicate (R := OptZrAt r _) (show OptZrAt r _ none none from trivial) _) _
      (show OptZrAt r _ (some sk) (some skv) from hs)
  refine Gives.bind f (gives_blindMessagesZr f hc ipk.lib hz hi.w nonce s ρ) fun b bv h' _ f' hb => ?_
  have hb1 := hb.1
  have hb2 := hb.2
  replace f := f'.self
  refine Gives.bind f (gives_blindedBytes f hb1) fun _ _ h' _ f' e' => ?_
  subst e'
  carry f'.ext
  replace f := f'.self
  get (gives_load hb2)
  exact Gives.done fun _ _ => rfl

theorem gives_blindVerify (f : From r h h) (hc : ConstsAt r h c) (request : Bytes) {key : Dyn IpkPtr} {keyv : Dyn (IPK S)}
    (hk : DynIpkAt r h key keyv) (nonce : Bytes) (skIdx : Int) :
    Gives r h h (blindVerify L c request key nonce skIdx) (Idemix.Aries.blindVerify L request keyv nonce skIdx)
      fun _ a b => a = b := by
  try_run (gives_ipk hk _) with ipk ipkv hi
  rw [hi.n]
  pure_run u
  try_run (gives_parseBlindedMessages f request) with b bv hb
  exact gives_verifyBlinding f hc ipk.lib _ hb hi.w nonce

theorem gives_unblind (f : From r h h) (signature blinding : Bytes) :
    Gives r h h (unblind signature blinding) (Idemix.Aries.unblind S signature blinding) fun _ a b => a = b := by
  pure_run cred
  run (gives_new (k := .zr) f (S.zrOfBytes blinding)) with s hs
  refine Gives.bind f (gives_unblindSign f cred.cred hs) fun _ _ h' _ f' e' => ?_
  subst e'
  exact Gives.lift

/-! ## Credentials -/

theorem gives_credSign (f : From r h h) (hc : ConstsAt r h c) (lib : Option Nat) {key : Dyn IskPtr} {keyv : Dyn (ISK S)}
    (hk : DynIskAt r h key keyv) (request : Bytes) (attributes : List IdemixAttribute) (skIdx : Int) (e s : S.F) :
    Gives r h h (credSign L c lib key request attributes skIdx e s)
      (Idemix.Aries.credSign L keyv request attributes skIdx e s) fun _ a b => a = b := by
  try_run (gives_isk hk _) with isk iskv hi
  try_run (gives_parseBlindedMessages f request) with b bv hb
  try_run (gives_attributesToSignatureMessage (L := L) f hc attributes skIdx) with ms msv hm
  have hsk := hi.sk
  get (gives_load hsk)
  refine Gives.bind f (gives_blindSign f hc lib hm _ hb.c _ e s) fun _ _ h' _ f' e' => ?_
  subst e'
  carry f'.ext
  replace f := f'.self
  get (gives_loadAll f (frs_at hm))
  rw [List.Forall₂.length_eq hm, List.map_map]
  exact Gives.lift

theorem gives_checkAttr (f : From r h h) (hc : ConstsAt r h c) (a : IdemixAttribute) {p : Ptr .zr} {v : S.F}
    (hp : At r h p v) : Gives r h h (checkAttr L c a p) (Idemix.Aries.checkAttr L a v) fun _ a b => a = b := by
  try_run (gives_attrFr f hc a) with q w hq
  cases q <;> cases w <;> simp only [OptZrAt] at hq
  · exact Gives.done fun _ _ => rfl
  · get (gives_load hq)
    get (gives_load hp)
    exact Gives.lift

theorem gives_verifyLoop (f : From r h h) (hc : ConstsAt r h c) {sk : Ptr .zr} {skv : S.F} (hs : At r h sk skv) (skPos : Int)
    (todo j : Nat) (attrs : List Bytes) (as : List IdemixAttribute) :
    Gives r h h (verifyLoop L c sk skPos todo j attrs as) (Idemix.Aries.verifyLoop L skv skPos todo j attrs as)
      (MsgsAt r) := by
  induction todo generalizing h j attrs as with
  | zero => exact Gives.done fun _ _ => .nil
  | succ n ih =>
    simp only [verifyLoop, Idemix.Aries.verifyLoop]
    split
    · try_run (ih f hc hs (j + 1) attrs as) with ms vs hm
      exact Gives.done fun _ e => .cons ⟨hs.mono e, rfl⟩ (hm.mono e)
    · cases attrs with
      | nil => exact Gives.panic
      | cons a attrs =>
        cases as with
        | nil => exact Gives.panic
        | cons b as =>
          run (gives_new (k := .zr) f (S.zrOfBytes a)) with q hq
          try_run (gives_checkAttr f hc b hq) with u uv hu
          try_run (ih f hc hs (j + 1) attrs as) with ms vs hm
          exact Gives.done fun _ e => .cons ⟨hq.mono e, rfl⟩ (hm.mono e)

theorem gives_credVerify (f : From r h h) (hc : ConstsAt r h c) {sk : Ptr .zr} {skv : S.F} (hs : At r h sk skv)
    {key : Dyn IpkPtr} {keyv : Dyn (IPK S)} (hk : DynIpkAt r h key keyv) (credBytes : Bytes) (as : List IdemixAttribute) :
    Gives r h h (credVerify L c sk key credBytes as) (Idemix.Aries.credVerify L skv keyv credBytes as)
      fun _ a b => a = b := by
  try_run (gives_ipk hk _) with ipk ipkv hi
  pure_run cred
  try_run (gives_parseSignature f cred.cred) with σ σv hσ
  rw [List.Forall₂.length_eq hi.pkg.hs]
  try_run (gives_verifyLoop (L := L) f hc hs _ _ 0 _ as) with ms msv hm
  exact gives_verifySig f hc hσ hm hi.pkg

/-! ## Pseudonym signatures -/

theorem gives_withNonce (f : From r h h) (hc : ConstsAt r h c) {ch : Ptr .zr} {chv : S.F} (hch : At r h ch chv)
    (nonce : Bytes) : Gives r h h (withNonce L c ch nonce) (.ok (Idemix.Aries.withNonce L chv nonce)) (At (k := .zr) r) := by
  get (gives_load hch)
  exact gives_frFromOKM f hc _

theorem gives_nymChallenge (f : From r h h) (hc : ConstsAt r h c) {p1 p2 p3 p4 : Ptr .g1} {v1 v2 v3 v4 : S.G1}
    (h1 : At r h p1 v1) (h2 : At r h p2 v2) (h3 : At r h p3 v3) (h4 : At r h p4 v4) (digest nonce : Bytes) :
    Gives r h h (nymChallenge L c p1 p2 p3 p4 digest nonce) (.ok (Idemix.Aries.nymChallenge L v1 v2 v3 v4 digest nonce))
      (At (k := .zr) r) := by
  get (gives_load h1)
  get (gives_load h2)
  get (gives_load h3)
  get (gives_load h4)
  run (gives_frFromOKM (L := L) f hc _) with ch hch
  exact gives_withNonce f hc hch nonce

theorem gives_nymSign (f : From r h h) (hc : ConstsAt r h c) {sk : Ptr .zr} {skv : S.F} (hs : At r h sk skv) {nym : Ptr .g1}
    {nymv : S.G1} (hn : At r h nym nymv) {rNym : Ptr .zr} {rv : S.F} (hr : At r h rNym rv) {key : Dyn IpkPtr}
    {keyv : Dyn (IPK S)} (hk : DynIpkAt r h key keyv) (digest : Bytes) (skIdx : Int) (nonce : S.F) (ρ : Nat → S.F) :
    Gives r h h (nymSign L c sk nym rNym key digest skIdx nonce ρ)
      (Idemix.Aries.nymSign L skv nymv rv keyv digest skIdx nonce ρ) fun _ a b => a = b := by
  try_run (gives_ipk hk _) with ipk ipkv hi
  have h0 := hi.pkg.h0
  run (gives_new (k := .zr) f nonce) with pn hpn
  try_run (gives_index hi.pkg.hs _) with q1 v1 h1
  run (gives_blindings f 2 ρ) with bl hbl
  try_run (gives_finish f (.cons h0 (.cons h1 .nil)) hbl) with u uv hu
  get (gives_load hpn)
  run (gives_nymChallenge (L := L) f hc hn h0 h1 hu.commitment digest _) with ch hch
  try_run (gives_generateProofG1 f hu hch (.cons hr (.cons hs .nil))) with pf pfv hpf
  refine Gives.bind f (gives_proofG1Bytes f hpf) fun _ _ h' _ f' e' => ?_
  subst e'
  carry f'.ext
  replace f := f'.self
  get (gives_load hpn)
  exact Gives.lift

theorem gives_nymVerify (f : From r h h) (hc : ConstsAt r h c) {key : Dyn IpkPtr} {keyv : Dyn (IPK S)}
    (hk : DynIpkAt r h key keyv) {nym : Ptr .g1} {nymv : S.G1} (hn : At r h nym nymv) (sigBytes digest : Bytes)
    (skIdx : Int) :
    Gives r h h (nymVerify L c key nym sigBytes digest skIdx) (Idemix.Aries.nymVerify L keyv nymv sigBytes digest skIdx)
      fun _ a b => a = b := by
  try_run (gives_ipk hk _) with ipk ipkv hi
  have h0 := hi.pkg.h0
  pure_run sig
  try_run (gives_parseProofG1 f sig.main) with p pv hp
  rw [List.Forall₂.length_eq hp.responses]
  pure_run u
  try_run (gives_index hi.pkg.hs _) with q1 v1 h1
  run (gives_nymChallenge (L := L) f hc hn h0 h1 hp.commitment digest _) with ch hch
  exact gives_verifyProofG1 f hp (.cons h0 (.cons h1 .nil)) hn hch

end Idemix.Mem.Aries
