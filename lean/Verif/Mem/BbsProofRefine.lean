import Verif.Mem.BbsRefine

/-!
# Proofs of knowledge on the heap do what `Verif/Bbs/Model.lean` says
-/

namespace Idemix.Mem.Bbs

open Idemix.Bbs (Lib PKG Sig SigMsg PoK PoKRand Committed ProofG1 SigProof Payload)

variable {S : Suite} {L : Lib S} {c : Consts} {r : Nat} {h h' : Heap S}

theorem gives_blindings (f : From r h h) (n : Nat) (ρ : Nat → S.F) :
    Gives r h h (blindings n ρ) (.ok (Idemix.Bbs.blindings n ρ)) (AtAll (k := .zr) r) := by
  induction n generalizing h ρ with
  | zero => exact Gives.done fun _ _ => .nil
  | succ n ih =>
    refine Gives.seq f (gives_new (k := .zr) f (ρ 0)) fun p h₁ f₁ a => ?_
    refine Gives.seq f₁.self (ih f₁.self fun i => ρ (i + 1)) fun ps h₂ f₂ b => ?_
    have : Idemix.Bbs.blindings (n + 1) ρ = ρ 0 :: Idemix.Bbs.blindings n fun i => ρ (i + 1) := by
      simp [Idemix.Bbs.blindings, List.range_succ_eq_map, Function.comp_def]
    rw [this]
    exact Gives.done fun h₃ e₃ => .cons (a.1.mono (f₂.ext.trans e₃)) (AtAll.mono b e₃)

theorem gives_finish (f : From r h h) {bs : List (Ptr .g1)} {bv : List S.G1} {ss : List (Ptr .zr)} {sv : List S.F}
    (hb : AtAll (k := .g1) r h bs bv) (hs : AtAll (k := .zr) r h ss sv) :
    Gives r h h (finish bs ss) (Idemix.Bbs.finish bv sv) (CommittedAt r) := by
  refine Gives.bind f (gives_build f hb hs) fun p v h₁ _ f₁ n => ?_
  exact Gives.done fun h₂ e₂ =>
    ⟨AtAll.mono hb (f₁.ext.trans e₂), AtAll.mono hs (f₁.ext.trans e₂), n.1.mono e₂⟩

theorem gives_responses (f : From r h h) {ch : Ptr .zr} {chv : S.F} (hc : At r h ch chv) {bs ss : List (Ptr .zr)}
    {bv sv : List S.F} (hb : AtAll (k := .zr) r h bs bv) (hs : AtAll (k := .zr) r h ss sv) :
    Gives r h h (responses ch bs ss)
      (if sv.length < bv.length then .panic else .ok (List.zipWith (fun b s => b - chv * s) bv sv))
      (AtAll (k := .zr) r) := by
  induction bs generalizing h ss bv sv with
  | nil => cases hb; exact Gives.done fun _ _ => .nil
  | cons b bs ih =>
    cases hb with
    | @cons _ bv1 _ bv x xs =>
      cases hs with
      | nil => simp only [List.length_nil, List.length_cons, Nat.zero_lt_succ, if_true]; exact Gives.panic
      | @cons s sv1 ss sv y ys =>
        simp only [List.length_cons, Nat.succ_lt_succ_iff, List.zipWith_cons_cons, responses]
        refine Gives.seq f (gives_zrMul f hc y) fun p h₁ f₁ n => ?_
        refine Gives.seq f₁.self (gives_zrMinus f₁.self (x.mono f₁.ext) n.1) fun q h₂ f₂ m => ?_
        have F := (f₁.trans f₂).ext
        have key := ih f₂.self (hc.mono F) (AtAll.mono xs F) (AtAll.mono ys F)
        by_cases hl : sv.length < bv.length
        · rw [if_pos hl] at key ⊢
          exact Gives.bind (x := .panic) (y := fun _ => .panic) f₂.self key fun ps pv h₃ e f₃ a => by cases e
        · rw [if_neg hl] at key ⊢
          exact Gives.seq f₂.self key fun ps h₃ f₃ a => Gives.done fun h₄ e₄ =>
            .cons (m.1.mono (f₃.ext.trans e₄)) (AtAll.mono a e₄)

theorem gives_generateProofG1 (f : From r h h) {p : CommittedPtr} {v : Committed S} (hp : CommittedAt r h p v)
    {ch : Ptr .zr} {chv : S.F} (hc : At r h ch chv) {ss : List (Ptr .zr)} {sv : List S.F} (hs : AtAll (k := .zr) r h ss sv) :
    Gives r h h (generateProofG1 p ch ss) (v.generateProof chv sv) (ProofG1At r) := by
  have key := gives_responses f hc hp.blind hs
  unfold Committed.generateProof
  by_cases hl : sv.length < v.blind.length
  · rw [if_pos hl] at key
    simp only [hl, decide_true, Res.guardPanic_true, Res.panic_bind]
    exact Gives.bind (x := .panic) (y := fun d => .ok ⟨v.commitment, d⟩) f key fun ps pv h₃ e f₃ a => by cases e
  · rw [if_neg hl] at key
    simp only [hl, decide_false, Res.guardPanic_false, Res.ok_bind]
    exact Gives.seq f key fun ps h₁ f₁ a => Gives.done fun h₂ e₂ =>
      ⟨hp.commitment.mono (f₁.ext.trans e₂), AtAll.mono a e₂⟩

theorem gives_generateProof (f : From r h h) {p : PoKPtr} {v : PoK S} (hp : PoKAt r h p v) {ch : Ptr .zr} {chv : S.F}
    (hc : At r h ch chv) : Gives r h h (generateProof p ch) (v.generateProof chv) (SigProofAt r) := by
  refine Gives.bind f (gives_generateProofG1 f hp.vc1 hc hp.secrets1) fun p1 v1 h₁ _ f₁ a => ?_
  refine Gives.bind f₁.self (gives_generateProofG1 f₁.self (hp.vc2.mono f₁.ext) (hc.mono f₁.ext)
    (AtAll.mono hp.secrets2 f₁.ext)) fun p2 v2 h₂ _ f₂ b => ?_
  refine Gives.done fun h₃ e₃ => ?_
  have F := (f₁.trans f₂).ext.trans e₃
  exact ⟨hp.aPrime.mono F, hp.aBar.mono F, hp.d.mono F, a.mono (f₂.ext.trans e₃), b.mono e₃⟩

theorem gives_copies (f : From r h h) {ps : List (Ptr .zr)} {vs : List S.F} (hp : AtAll (k := .zr) r h ps vs) :
    Gives r h h (copies ps) (.ok vs) (AtAll (k := .zr) r) := by
  induction ps generalizing h vs with
  | nil => cases hp; exact Gives.done fun _ _ => .nil
  | cons p ps ih =>
    cases hp with
    | cons x xs =>
      refine Gives.seq f (gives_copy f x) fun q h₁ f₁ a => ?_
      refine Gives.seq f₁.self (ih f₁.self (AtAll.mono xs f₁.ext)) fun qs h₂ f₂ b => ?_
      exact Gives.done fun h₃ e₃ => .cons (a.1.mono (f₂.ext.trans e₃)) (AtAll.mono b e₃)

/-- A provider on the heap does what the one without does, from the heap `h₀` on. -/
def ProviderOk (r : Nat) (h₀ : Heap S) (P : VC2Provider S) (Pv : Idemix.Bbs.VC2Provider S) : Prop :=
  ∀ (h : Heap S) d dv r3 r3v pk pkv s sv ms msv rev, Ext r h₀ h → From r h h → At (k := .g1) r h d dv → At (k := .zr) r h r3 r3v →
    PKGAt r h pk pkv → At (k := .zr) r h s sv → MsgsAt r h ms msv →
    Gives r h h (P d r3 pk s ms rev) (Pv dv r3v pkv sv msv rev)
      fun h' a b => AtAll (k := .g1) r h' a.1 b.1 ∧ AtAll (k := .zr) r h' a.2 b.2

theorem hiddenMsgs_at {ms : List MsgPtr} {msv : List (SigMsg S)} (hm : MsgsAt r h ms msv) (rev : List Int) :
    MsgsAt r h (hiddenMsgs ms rev) (Idemix.Bbs.hiddenMsgs msv rev) := by
  induction hm with
  | nil => exact .nil
  | @cons m v ms vs x _ ih =>
    unfold hiddenMsgs Idemix.Bbs.hiddenMsgs at *
    simp only [List.filter_cons, x.idx]
    split
    · exact .cons x ih
    · exact ih

theorem defaultVC2_ok : ProviderOk r h defaultVC2 (Idemix.Bbs.defaultVC2 (S := S)) := by
  intro h d dv r3 r3v pk pkv s sv ms msv rev _ f hd h3 hp hs hm
  refine Gives.call f (gives_copy f h3) fun q h₁ f₁ a => ?_
  refine Gives.seq₀ f₁ (gives_zrNeg a) fun _ h₂ f₂ a => ?_
  refine Gives.base f₂ ?_
  have hm' := hiddenMsgs_at (hm.mono f₂.ext) rev
  refine Gives.bind f₂.self (gives_msgBases (hp.mono f₂.ext) hm') fun hs' hv h₃ _ f₃ b => ?_
  refine Gives.seq f₃.self (gives_copies f₃.self (AtAll.mono (frs_at hm') f₃.ext)) fun fs h₄ f₄ e => ?_
  refine Gives.done fun h₅ e₅ => ?_
  have F := ((f₂.trans f₃).trans f₄).ext.trans e₅
  exact ⟨.cons (hd.mono F) (.cons (hp.h0.mono F) (AtAll.mono b (f₄.ext.trans e₅))),
    .cons (a.1.mono ((f₃.trans f₄).ext.trans e₅)) (.cons (hs.mono F) (AtAll.mono e e₅))⟩

theorem gives_revealedIdx (f : From r h h) {ms : List MsgPtr} {msv : List (SigMsg S)} (hm : MsgsAt r h ms msv)
    {ps : List (Ptr .int)} {is : List Int} (hp : AtAll (k := .int) r h ps is) :
    Gives r h h (revealedIdx ms ps)
      (Res.mapM' (fun i => do let m ← Res.index msv i; pure m.idx) is) fun _ a b => a = b := by
  induction ps generalizing h is with
  | nil => cases hp; exact Gives.done fun _ _ => rfl
  | cons p ps ih =>
    cases hp with
    | @cons _ i _ is x xs =>
      simp only [Res.mapM'_cons, bind_assoc, pure_bind]
      refine Gives.seq f (gives_load x) fun j h₁ f₁ e => ?_
      subst e
      refine Gives.bind f₁.self (Agree.gives (R := fun _ a b => a.idx = b.idx)
        ((agree_index hm j).imp fun _ _ y _ _ => y.idx)) fun m v h₂ _ f₂ e => ?_
      refine Gives.bind f₂.self (ih f₂.self (hm.mono (f₁.trans f₂).ext) (AtAll.mono xs (f₁.trans f₂).ext))
        fun l l' h₃ _ f₃ e' => ?_
      subst e'
      exact Gives.done fun _ _ => by rw [e]

theorem gives_pokOfSignatureB {P : VC2Provider S} {Pv : Idemix.Bbs.VC2Provider S} (hP : ProviderOk r h P Pv)
    (f : From r h h) (hc : ConstsAt r h c) (vfy : Bool) {p : SigPtr} {σ : Sig S} (hσ : SigAt r h p σ)
    {ms : List MsgPtr} {msv : List (SigMsg S)} (hm : MsgsAt r h ms msv) {ps : List (Ptr .int)} {is : List Int}
    (hi : AtAll (k := .int) r h ps is) {pk : PKGPtr} {pkv : PKG S} (hp : PKGAt r h pk pkv) {b : Ptr .g1} {bv : S.G1}
    (hb : At r h b bv) (ρ : PoKRand S) :
    Gives r h h (pokOfSignatureB c P vfy p ms ps pk b ρ)
      (Idemix.Bbs.pokOfSignatureB Pv vfy σ msv is pkv bv ρ) (PoKAt r) := by
  have start : Gives r h h (if vfy then verifyWithB c p pk b else pure ()) (Idemix.Bbs.checkSig vfy σ pkv bv)
      fun _ a b => a = b := by
    cases vfy with
    | true => exact gives_verifyWithB f hc hσ hp hb
    | false => exact Gives.done fun _ _ => rfl
  refine Gives.bind f start fun _ _ h₁ _ f₁ _ => ?_
  refine Gives.seq f₁.self (gives_new (k := .zr) f₁.self ρ.r1) fun r1 h₂ f₂ hr1 => ?_
  refine Gives.seq f₂.self (gives_new (k := .zr) f₂.self ρ.r2) fun r2 h₃ f₃ hr2 => ?_
  have F₃ := (f₁.trans f₂).trans f₃
  refine Gives.seq f₃.self (gives_g1Mul f₃.self (hσ.a.mono F₃.ext) (hr1.1.mono f₃.ext)) fun aP h₄ f₄ haP => ?_
  have F₄ := F₃.trans f₄
  refine Gives.seq f₄.self (gives_g1Mul f₄.self haP.1 (hσ.e.mono F₄.ext)) fun den h₅ f₅ hden => ?_
  have F₅ := F₄.trans f₅
  have hr1₅ := hr1.1.mono ((f₃.trans f₄).trans f₅).ext
  refine Gives.call f₅.self (gives_g1Mul f₅.self (hb.mono F₅.ext) hr1₅) fun aB h₆ f₆ haB => ?_
  refine Gives.seq₀ f₆ (gives_g1Sub haB (hden.1.mono f₆.ext)) fun _ h₇ f₇ haB => ?_
  refine Gives.base f₇ ?_
  have F₇ := F₅.trans f₇
  have hr1₇ := hr1₅.mono f₇.ext
  have hr2₇ := hr2.1.mono ((f₄.trans f₅).trans f₇).ext
  have haP₇ := haP.1.mono (f₅.trans f₇).ext
  refine Gives.call f₇.self (gives_copy f₇.self hr2₇) fun r2D h₈ f₈ hr2D => ?_
  refine Gives.seq₀ f₈ (gives_zrNeg hr2D) fun _ h₉ f₉ hr2D => ?_
  refine Gives.base f₉ ?_
  have F₉ := F₇.trans f₉
  refine Gives.bind f₉.self (gives_build f₉.self (.cons (hb.mono F₉.ext) (.cons (hp.h0.mono F₉.ext) .nil))
    (.cons (hr1₇.mono f₉.ext) (.cons hr2D.1 .nil))) fun d dv h₁₀ _ f₁₀ hd => ?_
  have F₁₀ := F₉.trans f₁₀
  have G₁₀ := f₉.trans f₁₀
  refine Gives.call f₁₀.self (gives_copy f₁₀.self (hr1₇.mono G₁₀.ext)) fun r3 h₁₁ f₁₁ hr3 => ?_
  refine Gives.seq₀ f₁₁ (gives_zrInv hr3) fun _ h₁₂ f₁₂ hr3 => ?_
  refine Gives.base f₁₂ ?_
  have F₁₂ := F₁₀.trans f₁₂
  have G₁₂ := G₁₀.trans f₁₂
  refine Gives.call f₁₂.self (gives_zrMul f₁₂.self (hr2₇.mono G₁₂.ext) hr3.1) fun sP h₁₃ f₁₃ hsP => ?_
  refine Gives.seq₀ f₁₃ (gives_zrNeg hsP) fun _ h₁₄ f₁₄ hsP => ?_
  refine Gives.base f₁₄ ?_
  have F₁₄ := F₁₂.trans f₁₄
  have G₁₄ := G₁₂.trans f₁₄
  refine Gives.seq f₁₄.self (gives_zrPlus f₁₄.self hsP.1 (hσ.s.mono F₁₄.ext)) fun sP h₁₅ f₁₅ hsP => ?_
  refine Gives.seq f₁₅.self (gives_blindings f₁₅.self 2 ρ.vc1) fun bl1 h₁₆ f₁₆ hbl1 => ?_
  have F₁₆ := (F₁₄.trans f₁₅).trans f₁₆
  have G₁₆ := (G₁₄.trans f₁₅).trans f₁₆
  refine Gives.call f₁₆.self (gives_copy f₁₆.self (hσ.e.mono F₁₆.ext)) fun sE h₁₇ f₁₇ hsE => ?_
  refine Gives.seq₀ f₁₇ (gives_zrNeg hsE) fun _ h₁₈ f₁₈ hsE => ?_
  refine Gives.base f₁₈ ?_
  have F₁₈ := F₁₆.trans f₁₈
  have G₁₈ := G₁₆.trans f₁₈
  refine Gives.bind f₁₈.self (gives_finish f₁₈.self (.cons (haP₇.mono G₁₈.ext) (.cons (hp.h0.mono F₁₈.ext) .nil))
    (AtAll.mono hbl1 f₁₈.ext)) fun vc1 vc1v h₁₉ _ f₁₉ hvc1 => ?_
  rw [List.Forall₂.length_eq hm, List.Forall₂.length_eq hi]
  refine Gives.bind f₁₉.self Gives.lift fun _ _ h₂₀ _ f₂₀ _ => ?_
  have F₂₀ := (F₁₈.trans f₁₉).trans f₂₀
  refine Gives.bind f₂₀.self (gives_revealedIdx f₂₀.self (hm.mono F₂₀.ext) (AtAll.mono hi F₂₀.ext))
    fun rev rev' h₂₁ _ f₂₁ e => ?_
  subst e
  have F₂₁ := F₂₀.trans f₂₁
  have K₂₁ := (f₁₉.trans f₂₀).trans f₂₁
  have H₂₁ := ((((f₁₂.trans f₁₄).trans f₁₅).trans f₁₆).trans f₁₈).trans K₂₁
  have I₂₁ := (((f₁₄.trans f₁₅).trans f₁₆).trans f₁₈).trans K₂₁
  refine Gives.bind f₂₁.self (hP _ _ _ _ _ _ _ _ _ _ _ _ F₂₁.ext f₂₁.self (hd.1.mono H₂₁.ext) (hr3.1.mono I₂₁.ext)
    (hp.mono F₂₁.ext) (hsP.1.mono ((f₁₆.trans f₁₈).trans K₂₁).ext) (hm.mono F₂₁.ext)) fun p2 p2v h₂₂ _ f₂₂ h2 => ?_
  rw [List.Forall₂.length_eq h2.1]
  refine Gives.seq f₂₂.self (gives_blindings f₂₂.self _ ρ.vc2) fun bl2 h₂₃ f₂₃ hbl2 => ?_
  refine Gives.bind f₂₃.self (gives_finish f₂₃.self (AtAll.mono h2.1 f₂₃.ext) hbl2) fun vc2 vc2v h₂₄ _ f₂₄ hvc2 => ?_
  refine Gives.done fun h₂₅ e₂₅ => ?_
  have K := (f₂₂.trans f₂₃).trans f₂₄
  have G := (G₁₈.trans K₂₁).trans K
  exact ⟨haP₇.mono (G.ext.trans e₂₅), haB.1.mono (G.ext.trans e₂₅), hd.1.mono ((H₂₁.trans K).ext.trans e₂₅),
    hvc1.mono (((f₂₀.trans f₂₁).trans K).ext.trans e₂₅),
    .cons (hsE.1.mono ((K₂₁.trans K).ext.trans e₂₅)) (.cons (hr2₇.mono (G.ext.trans e₂₅)) .nil),
    hvc2.mono e₂₅, AtAll.mono h2.2 ((f₂₃.trans f₂₄).ext.trans e₂₅)⟩

end Idemix.Mem.Bbs
