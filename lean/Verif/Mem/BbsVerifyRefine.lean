import Verif.Mem.BbsDeriveRefine

/-!
# Verification of proofs on the heap
-/

namespace Idemix.Mem.Bbs

open Idemix.Bbs (Lib PKG Sig SigMsg PoK PoKRand Committed ProofG1 SigProof Payload)

variable {S : Suite} {L : Lib S} {c : Consts} {r : Nat} {h h' h₀ : Heap S}

theorem gives_verifyProofG1 (f : From r h h) {p : ProofG1Ptr} {v : ProofG1 S} (hp : ProofG1At r h p v)
    {bs : List (Ptr .g1)} {bv : List S.G1} (hb : AtAll (k := .g1) r h bs bv) {st : Ptr .g1} {stv : S.G1}
    (hs : At r h st stv) {ch : Ptr .zr} {chv : S.F} (hc : At r h ch chv) :
    Gives r h h (verifyProofG1 p bs st ch) (v.verify bv stv chv) fun _ a b => a = b := by
  refine Gives.bind₀ f (gives_build f (List.rel_append hb (.cons hs .nil)) (List.rel_append hp.responses (.cons hc .nil)))
    fun q qv h₁ _ f₁ n => ?_
  refine Gives.seq₀ f₁ (gives_g1Sub n (hp.commitment.mono f₁.ext)) fun _ h₂ f₂ n => ?_
  refine Gives.base f₂ ?_
  refine Gives.seq f₂.self (gives_load n.1) fun x h₃ f₃ e => ?_
  subst e
  exact Gives.lift

theorem gives_badSignature {p : Prog S Unit} {x : Res Unit} (a : Gives r h₀ h p x fun _ a b => a = b) :
    Gives r h₀ h (p.mapErr fun _ => "bad signature") (Idemix.Bbs.badSignature x) fun _ a b => a = b := by
  have := a.mapErr (f := fun _ => "bad signature")
  cases x <;> exact this

theorem agree_splitGens (revealed : List Nat) (hs : List (Ptr .g1)) : ∀ (i : Nat) (hv : List S.G1) (ms : List MsgPtr)
    (msv : List (SigMsg S)), AtAll (k := .g1) r h hs hv → MsgsAt r h ms msv →
    Agree (fun a b => List.Forall₂ (fun (p : Ptr .g1 × Ptr .zr) (q : S.G1 × S.F) => At r h p.1 q.1 ∧ At r h p.2 q.2) a.1 b.1 ∧
      AtAll (k := .g1) r h a.2 b.2) (splitGens revealed i hs ms) (Idemix.Bbs.splitGens revealed i hv msv) := by
  induction hs with
  | nil =>
    rintro i hv ms msv (_ | _) hm
    exact ⟨.nil, .nil⟩
  | cons p hs ih =>
    rintro i hv ms msv (_ | ⟨hp, hps⟩) hm
    simp only [splitGens, Idemix.Bbs.splitGens]
    split
    · rcases hm with _ | ⟨m, hm⟩
      · exact trivial
      · rename_i ms msv
        have := ih (i + 1) _ ms msv hps hm
        simp only
        revert this
        generalize splitGens revealed (i + 1) hs ms = x
        generalize Idemix.Bbs.splitGens revealed (i + 1) _ msv = y
        cases x <;> cases y <;> intro a <;> simp only [Agree] at a
        · exact ⟨.cons ⟨hp, m.fr⟩ a.1, a.2⟩
        · exact a
        · exact trivial
    · have := ih (i + 1) _ ms msv hps hm
      revert this
      generalize splitGens revealed (i + 1) hs ms = x
      generalize Idemix.Bbs.splitGens revealed (i + 1) _ msv = y
      cases x <;> cases y <;> intro a <;> simp only [Agree] at a
      · exact ⟨a.1, .cons hp a.2⟩
      · exact a
      · exact trivial

theorem gives_sumDisclosed {pr : Ptr .g1} (ds : List (Ptr .g1 × Ptr .zr)) : ∀ (h : Heap S) (v : S.G1) (dv : List (S.G1 × S.F)),
    From r h₀ h → New (k := .g1) r h₀ h pr v →
    List.Forall₂ (fun (p : Ptr .g1 × Ptr .zr) (q : S.G1 × S.F) => At r h₀ p.1 q.1 ∧ At r h₀ p.2 q.2) ds dv →
    Gives r h₀ h (sumDisclosed pr ds) (.ok ()) fun h' _ _ =>
      New (k := .g1) r h₀ h' pr (v + (dv.map fun p => p.2 • p.1).sum) := by
  induction ds with
  | nil =>
    rintro h v dv f n (_ | _)
    exact Gives.done fun h' e => by simpa using n.mono e
  | cons d ds ih =>
    rintro h v dv f n (_ | ⟨hd, hds⟩)
    refine Gives.call f (gives_g1Mul f.self (hd.1.mono f.ext) (hd.2.mono f.ext)) fun g h₁ f₁ a => ?_
    refine Gives.seq₀ (f.trans f₁) (gives_g1Add (n.mono f₁.ext) a.1) fun _ h₂ f₂ n => ?_
    refine (ih h₂ _ _ f₂ n hds).imp fun h' _ _ n => ?_
    simpa [add_assoc] using n

theorem defaultVC2Verify_ok (hc : ConstsAt r h₀ c) {h : Heap S} (g : Ext r h₀ h) {ch : Ptr .zr} {chv : S.F} {pk : PKGPtr}
    {pkv : PKG S} (rev : List Nat) {ms : List MsgPtr} {msv : List (SigMsg S)} {p : ProofG1Ptr} {v : ProofG1 S}
    {d : Ptr .g1} {dv : S.G1} (f : From r h h) (hch : At r h ch chv) (hpk : PKGAt r h pk pkv) (hm : MsgsAt r h ms msv)
    (hp : ProofG1At r h p v) (hd : At r h d dv) :
    Gives r h h (defaultVC2Verify c ch pk rev ms p d) (Idemix.Bbs.defaultVC2Verify chv pkv rev msv v dv)
      fun _ a b => a = b := by
  unfold defaultVC2Verify Idemix.Bbs.defaultVC2Verify
  rw [hpk.count]
  refine Gives.bind f Gives.lift fun _ _ h₁ _ f₁ _ => ?_
  refine Gives.seq f₁.self (gives_new (k := .zr) f₁.self (S.zrOfInt 1)) fun one h₂ f₂ ho => ?_
  have F₂ := f₁.trans f₂
  refine Gives.bind f₂.self (Agree.gives (R := fun h' a b =>
      List.Forall₂ (fun (p : Ptr .g1 × Ptr .zr) (q : S.G1 × S.F) => At r h' p.1 q.1 ∧ At r h' p.2 q.2) a.1 b.1 ∧
      AtAll (k := .g1) r h' a.2 b.2) ((agree_splitGens rev pk.h 0 pkv.h ms msv (AtAll.mono hpk.hs F₂.ext)
        (hm.mono F₂.ext)).imp fun _ _ x _ g => ⟨List.Forall₂.imp (fun _ _ y => ⟨y.1.mono g, y.2.mono g⟩) x.1,
          AtAll.mono x.2 g⟩)) fun sp spv h₃ _ f₃ hsp => ?_
  have F₃ := F₂.trans f₃
  have hg := hc.genG1.mono (g.trans F₃.ext)
  refine Gives.call f₃.self (gives_copy f₃.self hg) fun pr h₄ f₄ n => ?_
  refine Gives.seq₀ f₄ (gives_g1Sub n (hg.mono f₄.ext)) fun _ h₅ f₅ n => ?_
  refine Gives.seq₀ f₅ (gives_sumDisclosed _ h₅ _ ((S.genG1, S.zrOfInt 1) :: spv.1) f₅ n
    (.cons ⟨hg, ho.1.mono f₃.ext⟩ hsp.1)) fun _ h₆ f₆ n => ?_
  refine Gives.seq₀ f₆ (gives_g1Neg n) fun _ h₇ f₇ n => ?_
  refine Gives.base f₇ ?_
  have F₇ := F₃.trans f₇
  have n := n.1
  simp only [sub_self, zero_add, List.map_cons, List.sum_cons] at n
  exact gives_badSignature (gives_verifyProofG1 f₇.self (hp.mono F₇.ext)
    (.cons (hd.mono F₇.ext) (.cons (hpk.h0.mono F₇.ext) (AtAll.mono hsp.2 f₇.ext))) n (hch.mono F₇.ext))

theorem gives_verifySigProof {V : VC2Verifier S} {Vv : Idemix.Bbs.VC2Verifier S} (f : From r h h) (hc : ConstsAt r h c)
    (hV : ∀ (h' : Heap S) ch chv pk pkv rev ms msv p v d dv, Ext r h h' → From r h' h' → At (k := .zr) r h' ch chv →
      PKGAt r h' pk pkv → MsgsAt r h' ms msv → ProofG1At r h' p v → At (k := .g1) r h' d dv →
      Gives r h' h' (V ch pk rev ms p d) (Vv chv pkv rev msv v dv) fun _ a b => a = b)
    {p : SigProofPtr} {v : SigProof S} (hp : SigProofAt r h p v) {ch : Ptr .zr} {chv : S.F} (hch : At r h ch chv)
    {pk : PKGPtr} {pkv : PKG S} (hpk : PKGAt r h pk pkv) (rev : List Nat) {ms : List MsgPtr} {msv : List (SigMsg S)}
    (hm : MsgsAt r h ms msv) :
    Gives r h h (verifySigProof c V p ch pk rev ms) (v.verify Vv chv pkv rev msv) fun _ a b => a = b := by
  refine Gives.call f (gives_copy f hp.aBar) fun q h₁ f₁ n => ?_
  refine Gives.seq₀ f₁ (gives_g1Neg n) fun _ h₂ f₂ n => ?_
  refine Gives.base f₂ ?_
  refine Gives.seq f₂.self (gives_pairings f₂.self (hp.aPrime.mono f₂.ext) (hpk.w.mono f₂.ext) n.1 (hc.genG2.mono f₂.ext))
    fun ok h₃ f₃ e => ?_
  subst e
  refine Gives.bind f₃.self Gives.lift fun _ _ h₄ _ f₄ _ => ?_
  have F₄ := (f₂.trans f₃).trans f₄
  refine Gives.call f₄.self (gives_copy f₄.self (hp.aBar.mono F₄.ext)) fun q h₅ f₅ n => ?_
  refine Gives.seq₀ f₅ (gives_g1Sub n (hp.d.mono (F₄.trans f₅).ext)) fun _ h₆ f₆ n => ?_
  refine Gives.base f₆ ?_
  have F₆ := F₄.trans f₆
  refine Gives.bind f₆.self (gives_badSignature (gives_verifyProofG1 f₆.self (hp.vc1.mono F₆.ext)
    (.cons (hp.aPrime.mono F₆.ext) (.cons (hpk.h0.mono F₆.ext) .nil)) n.1 (hch.mono F₆.ext))) fun _ _ h₇ _ f₇ _ => ?_
  have F₇ := (F₆.trans f₇)
  exact hV h₇ _ _ _ _ _ _ _ _ _ _ _ F₇.ext f₇.self (hch.mono F₇.ext) (hpk.mono F₇.ext) (hm.mono F₇.ext)
    (hp.vc2.mono F₇.ext) (hp.d.mono F₇.ext)

theorem gives_bytesForChallenge (f : From r h h) {p : SigProofPtr} {v : SigProof S} (hp : SigProofAt r h p v)
    (rev : List Nat) {pk : PKGPtr} {pkv : PKG S} (hpk : PKGAt r h pk pkv) :
    Gives r h h (bytesForChallenge p rev pk) (v.bytesForChallenge rev pkv) fun _ a b => a = b := by
  refine Gives.seq f (gives_load hp.aBar) fun x₁ h₁ f₁ e₁ => ?_
  refine Gives.seq f₁.self (gives_load (hp.aPrime.mono f₁.ext)) fun x₂ h₂ f₂ e₂ => ?_
  have F₂ := f₁.trans f₂
  refine Gives.seq f₂.self (gives_load (hpk.h0.mono F₂.ext)) fun x₃ h₃ f₃ e₃ => ?_
  have F₃ := F₂.trans f₃
  refine Gives.seq f₃.self (gives_load (hp.vc1.commitment.mono F₃.ext)) fun x₄ h₄ f₄ e₄ => ?_
  have F₄ := F₃.trans f₄
  refine Gives.seq f₄.self (gives_load (hp.d.mono F₄.ext)) fun x₅ h₅ f₅ e₅ => ?_
  have F₅ := F₄.trans f₅
  refine Gives.seq f₅.self (gives_loadAll f₅.self (AtAll.mono hpk.hs F₅.ext)) fun x₆ h₆ f₆ e₆ => ?_
  have F₆ := F₅.trans f₆
  refine Gives.seq f₆.self (gives_load (hp.vc2.commitment.mono F₆.ext)) fun x₇ h₇ f₇ e₇ => ?_
  rw [e₁, e₂, e₃, e₄, e₅, e₆, e₇, hpk.count]
  exact Gives.lift

theorem gives_newZrs (f : From r h h) (vs : List S.F) : Gives r h h (newZrs vs) (.ok vs) (AtAll (k := .zr) r) := by
  induction vs generalizing h with
  | nil => exact Gives.done fun _ _ => .nil
  | cons v vs ih =>
    refine Gives.seq f (gives_new (k := .zr) f v) fun q h₁ f₁ a => ?_
    refine Gives.seq f₁.self (ih f₁.self) fun qs h₂ f₂ b => ?_
    exact Gives.done fun h₃ e₃ => .cons (a.1.mono (f₂.ext.trans e₃)) (AtAll.mono b e₃)

theorem gives_parseSignatureProof (f : From r h h) (raw : Bytes) :
    Gives r h h (parseSignatureProof raw) (Idemix.Bbs.parseSignatureProof S raw) (SigProofAt r) := by
  rw [← bind_pure (Idemix.Bbs.parseSignatureProof S raw)]
  refine Gives.bind f Gives.lift fun v v' h₁ _ f₁ e => ?_
  subst e
  refine Gives.seq f₁.self (gives_new (k := .g1) f₁.self v.aPrime) fun q₁ h₂ f₂ n₁ => ?_
  refine Gives.seq f₂.self (gives_new (k := .g1) f₂.self v.aBar) fun q₂ h₃ f₃ n₂ => ?_
  refine Gives.seq f₃.self (gives_new (k := .g1) f₃.self v.d) fun q₃ h₄ f₄ n₃ => ?_
  refine Gives.seq f₄.self (gives_new (k := .g1) f₄.self v.vc1.commitment) fun q₄ h₅ f₅ n₄ => ?_
  refine Gives.seq f₅.self (gives_newZrs f₅.self v.vc1.responses) fun q₅ h₆ f₆ n₅ => ?_
  refine Gives.seq f₆.self (gives_new (k := .g1) f₆.self v.vc2.commitment) fun q₆ h₇ f₇ n₆ => ?_
  refine Gives.seq f₇.self (gives_newZrs f₇.self v.vc2.responses) fun q₇ h₈ f₈ n₇ => ?_
  refine Gives.done fun h₉ e => ?_
  have G₈ := e
  have G₇ := f₈.ext.trans G₈
  have G₆ := f₇.ext.trans G₇
  have G₅ := f₆.ext.trans G₆
  have G₄ := f₅.ext.trans G₅
  have G₃ := f₄.ext.trans G₄
  have G₂ := f₃.ext.trans G₃
  exact ⟨n₁.1.mono G₂, n₂.1.mono G₃, n₃.1.mono G₄, ⟨n₄.1.mono G₅, AtAll.mono n₅ G₆⟩, ⟨n₆.1.mono G₇, AtAll.mono n₇ G₈⟩⟩

theorem gives_verifyProofFr (f : From r h h) (hc : ConstsAt r h c) (lib : Option Nat) {ms : List MsgPtr}
    {msv : List (SigMsg S)} (hm : MsgsAt r h ms msv) (proof nonce rawPk : Bytes) :
    Gives r h h (verifyProofFr L c lib ms proof nonce rawPk) (Idemix.Bbs.verifyProofFr L msv proof nonce rawPk)
      fun _ a b => a = b := by
  refine Gives.bind f Gives.lift fun pl pl' h₁ _ f₁ e => ?_
  subst e
  refine Gives.bind f₁.self Gives.lift fun rest rest' h₂ _ f₂ e => ?_
  subst e
  have F₂ := f₁.trans f₂
  refine Gives.bind f₂.self (gives_parseSignatureProof f₂.self rest) fun sp spv h₃ _ f₃ hsp => ?_
  have F₃ := F₂.trans f₃
  refine Gives.bind f₃.self Gives.lift fun w w' h₄ _ f₄ e => ?_
  subst e
  refine Gives.seq f₄.self (gives_new (k := .g2) f₄.self w) fun w h₅ f₅ hw => ?_
  refine Gives.bind f₅.self (gives_toPKG f₅.self lib hw.1 _) fun pk pkv h₆ _ f₆ hp => ?_
  have F₆ := ((F₃.trans f₄).trans f₅).trans f₆
  rw [List.Forall₂.length_eq hm]
  refine Gives.bind f₆.self Gives.lift fun _ _ h₇ _ f₇ _ => ?_
  have F₇ := F₆.trans f₇
  have S₇ := ((f₄.trans f₅).trans f₆).trans f₇
  refine Gives.bind f₇.self (gives_bytesForChallenge f₇.self (hsp.mono S₇.ext) pl.2 (hp.mono f₇.ext))
    fun cb cb' h₈ _ f₈ e => ?_
  subst e
  have F₈ := F₇.trans f₈
  refine Gives.seq f₈.self (gives_nonceBytes (L := L) f₈.self (hc.mono F₈.ext) nonce) fun nb h₉ f₉ e => ?_
  subst e
  have F₉ := F₈.trans f₉
  refine Gives.seq f₉.self (gives_frFromOKM (L := L) f₉.self (hc.mono F₉.ext) _) fun ch h₁₀ f₁₀ hch => ?_
  have F₁₀ := F₉.trans f₁₀
  have T := (f₈.trans f₉).trans f₁₀
  have hc' := hc.mono F₁₀.ext
  exact gives_verifySigProof f₁₀.self hc'
    (fun h' _ _ _ _ rev _ _ _ _ _ _ g f' a1 a2 a3 a4 a5 => defaultVC2Verify_ok hc' g rev f' a1 a2 a3 a4 a5)
    (hsp.mono (S₇.trans T).ext) hch (hp.mono (f₇.trans T).ext) pl.2 (hm.mono F₁₀.ext)

/-- `VerifyProof` on the heap. -/
theorem gives_verifyProof (f : From r h h) (hc : ConstsAt r h c) (lib : Option Nat) (messages : List Bytes)
    (proof nonce rawPk : Bytes) :
    Gives r h h (verifyProof L c lib messages proof nonce rawPk) (Idemix.Bbs.verifyProof L messages proof nonce rawPk)
      fun _ a b => a = b := by
  refine Gives.seq f (gives_messages (L := L) f hc messages) fun ms h₁ f₁ hm => ?_
  exact gives_verifyProofFr f₁.self (hc.mono f₁.ext) lib hm proof nonce rawPk

/-- `DeriveProof` with a sorted slice of indices. -/
theorem gives_deriveProof_sorted (f : From r h h) (hc : ConstsAt r h c) (lib : Option Nat) (messages : List Bytes)
    (rawSig nonce rawPk : Bytes) {ps : List (Ptr .int)} {is : List Int}
    (hi : AtAll (k := .int) r h ps is) (hs : is.Pairwise (· ≤ ·)) (ρ : PoKRand S) :
    Gives r h h (deriveProof L c lib messages rawSig nonce rawPk ps ρ)
      (Idemix.Bbs.deriveProof L messages rawSig nonce rawPk is ρ) fun _ a b => a = b := by
  refine Gives.seq f (gives_messages (L := L) f hc messages) fun ms h₁ f₁ hm => ?_
  exact gives_deriveProofZr_sorted f₁.self (hc.mono f₁.ext) lib hm rawSig nonce rawPk (AtAll.mono hi f₁.ext) hs ρ

/-- `DeriveProof` with a slice of the goroutine's own: `h₀` is the heap before the slice was made. -/
theorem gives_deriveProof_own (f : From r h₀ h) (hc : ConstsAt r h c) (lib : Option Nat) (messages : List Bytes)
    (rawSig nonce rawPk : Bytes) {ps : List (Ptr .int)} {is : List Int}
    (hi : NewAll (k := .int) r h₀ h ps is) (hd : ps.Nodup) (ρ : PoKRand S) :
    Gives r h₀ h (deriveProof L c lib messages rawSig nonce rawPk ps ρ)
      (Idemix.Bbs.deriveProof L messages rawSig nonce rawPk is ρ) fun _ a b => a = b := by
  refine Gives.call f (gives_messages (L := L) f.self hc messages) fun ms h₁ f₁ hm => ?_
  exact gives_deriveProofZr_own (f.trans f₁) (hc.mono f₁.ext) lib hm rawSig nonce rawPk (hi.mono f₁.ext) hd ρ

end Idemix.Mem.Bbs
