import Verif.Mem.BbsProofRefine
import Mathlib.Data.List.Sort

/-!
# Derivation of proofs on the heap
-/

namespace Idemix.Mem.Bbs

open Idemix.Bbs (Lib PKG Sig SigMsg PoK PoKRand Committed ProofG1 SigProof Payload)

variable {S : Suite} {L : Lib S} {c : Consts} {r : Nat} {h h' h₀ : Heap S}

theorem gives_newPoKOfSignature (f : From r h h) (hc : ConstsAt r h c) {p : SigPtr} {σ : Sig S} (hσ : SigAt r h p σ)
    {ms : List MsgPtr} {msv : List (SigMsg S)} (hm : MsgsAt r h ms msv) {ps : List (Ptr .int)} {is : List Int}
    (hi : AtAll (k := .int) r h ps is) {pk : PKGPtr} {pkv : PKG S} (hp : PKGAt r h pk pkv) (ρ : PoKRand S) :
    Gives r h h (newPoKOfSignature c p ms ps pk ρ) (Idemix.Bbs.newPoKOfSignature σ msv is pkv ρ) (PoKAt r) := by
  refine Gives.bind f (gives_computeB f hc hσ.s hm hp) fun b bv h₁ _ f₁ n => ?_
  exact gives_pokOfSignatureB defaultVC2_ok f₁.self (hc.mono f₁.ext) true (hσ.mono f₁.ext) (hm.mono f₁.ext)
    (AtAll.mono hi f₁.ext) (hp.mono f₁.ext) n.1 ρ

/-! ## Bytes -/

theorem gives_committedBytes (f : From r h h) {p : CommittedPtr} {v : Committed S} (hp : CommittedAt r h p v) :
    Gives r h h (committedBytes p) (.ok v.toBytes) fun _ a b => a = b := by
  refine Gives.seq f (gives_loadAll f hp.bases) fun x h₁ f₁ e => ?_
  subst e
  refine Gives.seq f₁.self (gives_load (hp.commitment.mono f₁.ext)) fun y h₂ f₂ e => ?_
  subst e
  exact Gives.done fun _ _ => rfl

theorem gives_pokBytes (f : From r h h) {p : PoKPtr} {v : PoK S} (hp : PoKAt r h p v) :
    Gives r h h (pokBytes p) (.ok v.toBytes) fun _ a b => a = b := by
  refine Gives.seq f (gives_load hp.aBar) fun x h₁ f₁ e => ?_
  subst e
  refine Gives.seq f₁.self (gives_committedBytes f₁.self (hp.vc1.mono f₁.ext)) fun y h₂ f₂ e => ?_
  subst e
  refine Gives.seq f₂.self (gives_committedBytes f₂.self (hp.vc2.mono (f₁.trans f₂).ext)) fun z h₃ f₃ e => ?_
  subst e
  exact Gives.done fun _ _ => rfl

theorem gives_sigProofBytes (f : From r h h) {p : SigProofPtr} {v : SigProof S} (hp : SigProofAt r h p v) :
    Gives r h h (sigProofBytes p) v.toBytes fun _ a b => a = b := by
  refine Gives.seq f (gives_load hp.aPrime) fun x₁ h₁ f₁ e₁ => ?_
  refine Gives.seq f₁.self (gives_load (hp.aBar.mono f₁.ext)) fun x₂ h₂ f₂ e₂ => ?_
  have F₂ := f₁.trans f₂
  refine Gives.seq f₂.self (gives_load (hp.d.mono F₂.ext)) fun x₃ h₃ f₃ e₃ => ?_
  have F₃ := F₂.trans f₃
  refine Gives.seq f₃.self (gives_load (hp.vc1.commitment.mono F₃.ext)) fun x₄ h₄ f₄ e₄ => ?_
  have F₄ := F₃.trans f₄
  refine Gives.seq f₄.self (gives_loadAll f₄.self (AtAll.mono hp.vc1.responses F₄.ext)) fun x₅ h₅ f₅ e₅ => ?_
  have F₅ := F₄.trans f₅
  refine Gives.seq f₅.self (gives_load (hp.vc2.commitment.mono F₅.ext)) fun x₆ h₆ f₆ e₆ => ?_
  have F₆ := F₅.trans f₆
  refine Gives.seq f₆.self (gives_loadAll f₆.self (AtAll.mono hp.vc2.responses F₆.ext)) fun x₇ h₇ f₇ e₇ => ?_
  rw [e₁, e₂, e₃, e₄, e₅, e₆, e₇]
  exact Gives.lift

theorem gives_nonceBytes (f : From r h h) (hc : ConstsAt r h c) (nonce : Bytes) :
    Gives r h h (nonceBytes L c nonce) (.ok (Idemix.Bbs.nonceBytes L nonce)) fun _ a b => a = b := by
  refine Gives.seq f (gives_frFromOKM f hc nonce) fun p h₁ f₁ a => ?_
  refine Gives.seq f₁.self (gives_load a) fun x h₂ f₂ e => ?_
  subst e
  exact Gives.done fun _ _ => rfl

/-! ## Sorting the indices -/

/-- The effect of `siftDown` on the values. -/
def sift : List Int → List Int
  | y :: x :: rest => if y < x then x :: sift (y :: rest) else y :: x :: rest
  | l => l

theorem gives_siftDown (ps : List (Ptr .int)) : ∀ (h : Heap S) (vs : List Int) (os : List (Ptr .int)) (ws : List Int),
    From r h₀ h → NewAll (k := .int) r h₀ h ps vs → NewAll (k := .int) r h₀ h os ws → (ps ++ os).Nodup →
    Gives r h₀ h (siftDown ps) (.ok ()) fun h' _ _ =>
      NewAll (k := .int) r h₀ h' ps (sift vs) ∧ NewAll (k := .int) r h₀ h' os ws := by
  fun_induction siftDown (S := S) ps with
  | case1 q p ps ih =>
    rintro h vs os ws f (_ | ⟨hq, _ | ⟨hp, hps⟩⟩) hos hd
    rename_i vs
    have hps : NewAll r h₀ h ps vs := hps
    refine Gives.call f (gives_load hq.1) fun y' h₁ f₁ e => ?_
    subst e
    refine Gives.call (f.trans f₁) (gives_load (hp.1.mono f₁.ext)) fun x' h₂ f₂ e => ?_
    subst e
    have G := (f₁.trans f₂).ext
    simp only [sift]
    split
    · refine Gives.call (f.trans (f₁.trans f₂)) (gives_load (hq.1.mono G)) fun y'' h₃ f₃ e => ?_
      subst e
      refine Gives.call (f.trans ((f₁.trans f₂).trans f₃)) (gives_load (hp.1.mono (G.trans f₃.ext))) fun x'' h₄ f₄ e => ?_
      subst e
      have F₄ := f.trans (((f₁.trans f₂).trans f₃).trans f₄)
      have G₄ := (((f₁.trans f₂).trans f₃).trans f₄).ext
      have hqp : q ≠ p := by
        intro e; subst e; simp at hd
      refine Gives.write (hq.1.mono G₄) hq.2 fun h₅ e₅ => ?_
      have G₅ := G₄.trans e₅.ext
      refine Gives.write (w := x'') ((hp.mono G₅).set_other hqp.symm).1 hp.2 fun h₆ e₆ => ?_
      have hd' : (p :: ps ++ q :: os).Nodup := by
        refine List.Perm.nodup ?_ hd
        simp only [List.cons_append]
        exact (List.Perm.swap p q _).trans (List.Perm.cons p List.perm_middle.symm)
      have hqn : q ∉ ps ∧ q ∉ os := by
        simp only [List.cons_append, List.nodup_cons, List.mem_cons, List.mem_append, not_or] at hd
        exact ⟨hd.1.2.1, hd.1.2.2⟩
      have hpn : p ∉ ps ∧ p ∉ os := by
        simp only [List.cons_append, List.nodup_cons, List.mem_append, not_or] at hd
        exact hd.2.1
      refine (ih (h₆.set p y'') (y'' :: vs) (q :: os) (x'' :: ws)
        ((((F₄.env e₅).set hq.2 x'').env e₆).set hp.2 y'') ?_ ?_ hd').imp ?_
      · exact .cons (((hp.mono G₅).set_other hqp.symm).mono e₆.ext).set_self
          ((((hps.mono G₅).set_other hqn.1).mono e₆.ext).set_other hpn.1)
      · exact .cons (((hq.mono G₅).set_self.mono e₆.ext).set_other hqp)
          ((((hos.mono G₅).set_other hqn.2).mono e₆.ext).set_other hpn.2)
      · rintro h' _ _ ⟨a, b⟩
        cases b with
        | cons b1 b2 => exact ⟨.cons b1 a, b2⟩
    · exact Gives.done fun h₃ e₃ => ⟨.cons (hq.mono (G.trans e₃)) (.cons (hp.mono (G.trans e₃)) (hps.mono (G.trans e₃))),
        hos.mono (G.trans e₃)⟩
  | case2 ps hn =>
    rintro h vs os ws f hps hos hd
    have : sift vs = vs := by
      rcases hps with _ | ⟨_, _ | _⟩
      · simp [sift]
      · simp [sift]
      · exact (hn _ _ _ rfl).elim
    rw [this]
    exact Gives.done fun h' e => ⟨hps.mono e, hos.mono e⟩

/-- The effect of `sortFrom` on the values. -/
def sortVals : List Int → List Int → List Int
  | acc, [] => acc
  | acc, v :: vs => sortVals (sift (v :: acc)) vs

theorem forall₂_split {α β : Type} {R : α → β → Prop} {a b : List α} {c d : List β} (hl : a.length = c.length)
    (h : List.Forall₂ R (a ++ b) (c ++ d)) : List.Forall₂ R a c ∧ List.Forall₂ R b d := by
  induction a generalizing c with
  | nil => cases c <;> simp_all
  | cons x a ih =>
    cases c with
    | nil => simp at hl
    | cons y c =>
      cases h with
      | cons h1 h2 =>
        obtain ⟨i, j⟩ := ih (by simpa using hl) h2
        exact ⟨.cons h1 i, j⟩

theorem gives_sortFrom (ps : List (Ptr .int)) : ∀ (h : Heap S) (vs : List Int) (as : List (Ptr .int)) (acc : List Int)
    (os : List (Ptr .int)) (ws : List Int),
    From r h₀ h → NewAll (k := .int) r h₀ h as acc → NewAll (k := .int) r h₀ h ps vs → NewAll (k := .int) r h₀ h os ws →
    (as ++ (ps ++ os)).Nodup →
    Gives r h₀ h (sortFrom as ps) (.ok ()) fun h' _ _ =>
      NewAll (k := .int) r h₀ h' (ps.reverse ++ as) (sortVals acc vs) ∧ NewAll (k := .int) r h₀ h' os ws := by
  induction ps with
  | nil =>
    rintro h vs as acc os ws f ha (_ | _) ho hd
    exact Gives.done fun h' e => ⟨ha.mono e, ho.mono e⟩
  | cons p ps ih =>
    rintro h vs as acc os ws f ha (_ | ⟨hp, hps⟩) ho hd
    have hd' : (p :: as ++ (ps ++ os)).Nodup := List.Perm.nodup List.perm_middle hd
    refine Gives.seq₀ f (gives_siftDown (p :: as) h _ (ps ++ os) _ f (.cons hp ha) (List.rel_append hps ho) hd')
      fun _ h₁ f₁ a => ?_
    obtain ⟨a, b⟩ := a
    obtain ⟨b1, b2⟩ := forall₂_split (List.Forall₂.length_eq hps) b
    have := ih h₁ _ (p :: as) _ os ws f₁ a b1 b2 hd'
    simpa only [List.reverse_cons, List.append_assoc, List.singleton_append, sortVals] using this

theorem sift_perm (l : List Int) : List.Perm (sift l) l := by
  fun_induction sift l with
  | case1 y x rest hlt ih => exact (List.Perm.cons x ih).trans (List.Perm.swap y x rest)
  | case2 => exact .refl _
  | case3 => exact .refl _

theorem sift_sorted (y : Int) (l : List Int) (hl : l.Pairwise (· ≥ ·)) : (sift (y :: l)).Pairwise (· ≥ ·) := by
  induction l with
  | nil => simp [sift]
  | cons x rest ih =>
    simp only [sift]
    split
    · rename_i hlt
      refine List.Pairwise.cons ?_ (ih hl.tail)
      intro z hz
      rcases List.mem_cons.mp ((sift_perm _).mem_iff.mp hz) with rfl | hz
      · exact le_of_lt hlt
      · exact List.rel_of_pairwise_cons hl hz
    · rename_i hge
      refine List.Pairwise.cons ?_ hl
      intro z hz
      rcases List.mem_cons.mp hz with rfl | hz
      · exact not_lt.mp hge
      · exact le_trans (List.rel_of_pairwise_cons hl hz) (not_lt.mp hge)

theorem sortVals_spec (acc vs : List Int) (ha : acc.Pairwise (· ≥ ·)) :
    (sortVals acc vs).Pairwise (· ≥ ·) ∧ List.Perm (sortVals acc vs) (vs.reverse ++ acc) := by
  induction vs generalizing acc with
  | nil => exact ⟨ha, .refl _⟩
  | cons v vs ih =>
    obtain ⟨a, b⟩ := ih (sift (v :: acc)) (sift_sorted v acc ha)
    refine ⟨a, b.trans ?_⟩
    rw [List.reverse_cons, List.append_assoc]
    exact List.Perm.append_left _ (sift_perm _)

theorem sortVals_eq (vs : List Int) : (sortVals [] vs).reverse = vs.insertionSort (· ≤ ·) := by
  obtain ⟨a, b⟩ := sortVals_spec [] vs .nil
  refine List.Perm.eq_of_pairwise (le := (· ≤ ·)) (fun _ _ _ _ h1 h2 => le_antisymm h1 h2) ?_ (List.pairwise_insertionSort _ vs) ?_
  · exact List.pairwise_reverse.mpr a
  · rw [List.append_nil] at b
    exact (((List.reverse_perm _).trans b).trans (List.reverse_perm vs)).trans (List.perm_insertionSort _ vs).symm

/-- `sort.Ints` on a slice that is the goroutine's own. -/
theorem gives_sortInts {ps os : List (Ptr .int)} {vs ws : List Int} (f : From r h₀ h) (hp : NewAll (k := .int) r h₀ h ps vs)
    (ho : NewAll (k := .int) r h₀ h os ws) (hd : (ps ++ os).Nodup) :
    Gives r h₀ h (sortInts ps) (.ok ()) fun h' _ _ =>
      NewAll (k := .int) r h₀ h' ps (vs.insertionSort (· ≤ ·)) ∧ NewAll (k := .int) r h₀ h' os ws := by
  refine (gives_sortFrom ps h vs [] [] os ws f .nil hp ho hd).imp fun h' _ _ a => ⟨?_, a.2⟩
  rw [← sortVals_eq]
  have := a.1
  rw [List.append_nil] at this
  have := List.rel_reverse this
  unfold NewAll; simpa using this

/-- `sort.Ints` on a slice that is sorted: nothing is written. -/
theorem gives_sortFrom_sorted (ps : List (Ptr .int)) : ∀ (h : Heap S) (vs : List Int) (as : List (Ptr .int)) (acc : List Int),
    From r h h → AtAll (k := .int) r h as acc → AtAll (k := .int) r h ps vs →
    (acc.reverse ++ vs).Pairwise (· ≤ ·) → Gives r h h (sortFrom as ps) (.ok ()) fun _ _ _ => True := by
  induction ps with
  | nil => exact fun h vs as acc f ha hp hs => Gives.done fun _ _ => trivial
  | cons p ps ih =>
    rintro h vs as acc f ha (_ | ⟨hp, hps⟩) hs
    rename_i v vs
    have step : Gives r h h (siftDown (p :: as)) (.ok ()) fun _ _ _ => True := by
      rcases ha with _ | ⟨hq, ha⟩
      · exact Gives.done fun _ _ => trivial
      · rename_i q w as acc
        refine Gives.seq f (gives_load hp) fun y h₁ f₁ e => ?_
        subst e
        refine Gives.seq f₁.self (gives_load (hq.mono f₁.ext)) fun x h₂ f₂ e => ?_
        subst e
        have hle : x ≤ y := by
          simp only [List.reverse_cons, List.append_assoc, List.singleton_append] at hs
          have := (List.pairwise_append.mp hs).2.1
          exact List.rel_of_pairwise_cons this (by simp)
        rw [if_neg (not_lt.mpr hle)]
        exact Gives.done fun _ _ => trivial
    refine Gives.seq f step fun _ h₁ f₁ _ => ?_
    refine ih h₁ vs (p :: as) (v :: acc) f₁.self (.cons (hp.mono f₁.ext) (AtAll.mono ha f₁.ext)) (AtAll.mono hps f₁.ext) ?_
    simpa using hs

theorem gives_sortInts_sorted {ps : List (Ptr .int)} {vs : List Int} (f : From r h h) (hp : AtAll (k := .int) r h ps vs)
    (hs : vs.Pairwise (· ≤ ·)) : Gives r h h (sortInts ps) (.ok ()) fun _ _ _ => True :=
  gives_sortFrom_sorted ps h vs [] [] f .nil hp (by simpa using hs)

/-! ## Derivation of proofs -/

/-- `DeriveProofZr` after the indices have been sorted, without heap. -/
def deriveSortedVals (L : Lib S) (messages : List (SigMsg S)) (rawSig nonce rawPk : Bytes) (is : List Int)
    (ρ : PoKRand S) : Res Bytes := do
  let w ← Idemix.Bbs.unmarshalPublicKey S rawPk
  let pk ← Idemix.Bbs.toPKG w messages.length
  let σ ← Idemix.Bbs.parseSignature S rawSig
  let pok ← Idemix.Bbs.newPoKOfSignature σ messages is pk ρ
  let challenge := Idemix.Bbs.frFromOKM L (pok.toBytes ++ Idemix.Bbs.nonceBytes L nonce)
  let proof ← pok.generateProof challenge
  let payload ← Payload.toBytes ⟨messages.length, is⟩
  let pb ← proof.toBytes
  pure (payload ++ pb)

theorem deriveProofZr_eq (messages : List (SigMsg S)) (rawSig nonce rawPk : Bytes) (is : List Int) (ρ : PoKRand S) :
    Idemix.Bbs.deriveProofZr L messages rawSig nonce rawPk is ρ = (do
      Res.guardErr (is.length = 0) "no message to reveal"
      deriveSortedVals L messages rawSig nonce rawPk (is.insertionSort (· ≤ ·)) ρ) := rfl

theorem gives_deriveSorted (f : From r h h) (hc : ConstsAt r h c) (lib : Option Nat) {ms : List MsgPtr}
    {msv : List (SigMsg S)} (hm : MsgsAt r h ms msv) (rawSig nonce rawPk : Bytes) {ps : List (Ptr .int)} {is : List Int}
    (hi : AtAll (k := .int) r h ps is) (ρ : PoKRand S) :
    Gives r h h (deriveSorted L c lib ms rawSig nonce rawPk ps ρ) (deriveSortedVals L msv rawSig nonce rawPk is ρ)
      fun _ a b => a = b := by
  unfold deriveSortedVals
  refine Gives.bind f Gives.lift fun w w' h₁ _ f₁ x => ?_
  subst x
  refine Gives.seq f₁.self (gives_new f₁.self _) fun w h₂ f₂ hw => ?_
  rw [List.Forall₂.length_eq hm]
  refine Gives.bind f₂.self (gives_toPKG f₂.self lib hw.1 _) fun pk pkv h₃ _ f₃ hp => ?_
  refine Gives.bind f₃.self (gives_parseSignature f₃.self rawSig) fun p σ h₄ _ f₄ hσ => ?_
  have F₄ := (((f₁.trans f₂).trans f₃).trans f₄)
  refine Gives.bind f₄.self (gives_newPoKOfSignature f₄.self (hc.mono F₄.ext) hσ (hm.mono F₄.ext) (AtAll.mono hi F₄.ext)
    (hp.mono f₄.ext) ρ) fun pok pokv h₅ _ f₅ hpok => ?_
  have F₅ := F₄.trans f₅
  refine Gives.seq f₅.self (gives_pokBytes f₅.self hpok) fun cb h₆ f₆ e => ?_
  subst e
  have F₆ := F₅.trans f₆
  refine Gives.seq f₆.self (gives_nonceBytes (L := L) f₆.self (hc.mono F₆.ext) nonce) fun nb h₇ f₇ e => ?_
  subst e
  have F₇ := F₆.trans f₇
  refine Gives.seq f₇.self (gives_frFromOKM (L := L) f₇.self (hc.mono F₇.ext) _) fun ch h₈ f₈ hch => ?_
  have F₈ := F₇.trans f₈
  refine Gives.bind f₈.self (gives_generateProof f₈.self (hpok.mono ((f₆.trans f₇).trans f₈).ext) hch)
    fun pr prv h₉ _ f₉ hpr => ?_
  have F₉ := F₈.trans f₉
  refine Gives.seq f₉.self (gives_loadAll f₉.self (AtAll.mono hi F₉.ext)) fun js h₁₀ f₁₀ e => ?_
  subst e
  refine Gives.bind f₁₀.self Gives.lift fun pl pl' h₁₁ _ f₁₁ e => ?_
  subst e
  refine Gives.bind f₁₁.self (gives_sigProofBytes f₁₁.self (hpr.mono (f₁₀.trans f₁₁).ext)) fun pb pb' h₁₂ _ f₁₂ e => ?_
  subst e
  exact Gives.done fun _ _ => rfl

/-- `DeriveProofZr` with a slice of indices that is sorted. -/
theorem gives_deriveProofZr_sorted (f : From r h h) (hc : ConstsAt r h c) (lib : Option Nat) {ms : List MsgPtr}
    {msv : List (SigMsg S)} (hm : MsgsAt r h ms msv) (rawSig nonce rawPk : Bytes) {ps : List (Ptr .int)} {is : List Int}
    (hi : AtAll (k := .int) r h ps is) (hs : is.Pairwise (· ≤ ·)) (ρ : PoKRand S) :
    Gives r h h (deriveProofZr L c lib ms rawSig nonce rawPk ps ρ)
      (Idemix.Bbs.deriveProofZr L msv rawSig nonce rawPk is ρ) fun _ a b => a = b := by
  rw [deriveProofZr_eq, List.Pairwise.insertionSort_eq hs, ← List.Forall₂.length_eq hi]
  refine Gives.bind f Gives.lift fun _ _ h₁ _ f₁ _ => ?_
  refine Gives.seq f₁.self (gives_sortInts_sorted f₁.self (AtAll.mono hi f₁.ext) hs) fun _ h₂ f₂ _ => ?_
  have F := (f₁.trans f₂).ext
  exact gives_deriveSorted f₂.self (hc.mono F) lib (hm.mono F) rawSig nonce rawPk (AtAll.mono hi F) ρ

/-- The heap `h` with only those of the elements of slices of the goroutine `r` that are in `h₀`. -/
def cutInts (r : Nat) (h₀ h : Heap S) : Heap S :=
  ⟨Function.update h.cells r (Function.update (h.cells r) .int (h₀.cells r .int)), h.cache⟩

theorem ext_cut (hr : r ≠ 0) (g : Ext r h₀ h) : Ext r h₀ (cutInts r h₀ h) := by
  refine ⟨fun k => ?_, fun k => ?_, g.cache⟩
  · by_cases hk : k = .int
    · subst hk; simp [cutInts]
    · simpa [cutInts, hk] using g.own k
  · simpa [cutInts, Ne.symm hr] using g.shared k

theorem cut_ext (hr : r ≠ 0) (g : Ext r h₀ h) : Ext r (cutInts r h₀ h) h := by
  refine ⟨fun k => ?_, fun k => ?_, fun _ _ _ e => e⟩
  · by_cases hk : k = .int
    · subst hk; simpa [cutInts] using g.own .int
    · simp [cutInts, hk]
  · simp [cutInts, Ne.symm hr]

theorem at_cut {k : Kind} (hk : k ≠ .int) {p : Ptr k} {v : Val S k} (a : At r h p v) : At r (cutInts r h₀ h) p v := by
  refine ⟨a.visible, ?_⟩
  rw [← a.get]
  unfold Heap.get cutInts
  by_cases hp : p.region = r
  · simp [hp, hk]
  · simp [hp]

theorem consts_cut (a : ConstsAt r h c) : ConstsAt r (cutInts r h₀ h) c :=
  ⟨at_cut (by decide) a.genG1, at_cut (by decide) a.genG2, at_cut (by decide) a.f2192⟩

theorem msgs_cut {ms : List MsgPtr} {msv : List (SigMsg S)} (a : MsgsAt r h ms msv) : MsgsAt r (cutInts r h₀ h) ms msv :=
  List.Forall₂.imp (fun _ _ x => ⟨at_cut (by decide) x.fr, x.idx⟩) a

theorem new_cut {p : Ptr .int} {v : Int} (a : New (k := .int) r h₀ h p v) : New (k := .int) r (cutInts r h₀ h) h p v :=
  ⟨a.1, a.2.region, by simpa [cutInts] using a.2.idx⟩

/-- `DeriveProofZr` with a slice of indices of the goroutine's own: `h₀` is the heap before the slice was made. -/
theorem gives_deriveProofZr_own (f : From r h₀ h) (hc : ConstsAt r h c) (lib : Option Nat) {ms : List MsgPtr}
    {msv : List (SigMsg S)} (hm : MsgsAt r h ms msv) (rawSig nonce rawPk : Bytes) {ps : List (Ptr .int)} {is : List Int}
    (hi : NewAll (k := .int) r h₀ h ps is) (hd : ps.Nodup) (ρ : PoKRand S) :
    Gives r h₀ h (deriveProofZr L c lib ms rawSig nonce rawPk ps ρ)
      (Idemix.Bbs.deriveProofZr L msv rawSig nonce rawPk is ρ) fun _ a b => a = b := by
  refine Safe.base ?_ (ext_cut f.pos f.ext)
  have hc := consts_cut (h₀ := h₀) hc
  have hm := msgs_cut (h₀ := h₀) hm
  have hi : NewAll (k := .int) r (cutInts r h₀ h) h ps is := List.Forall₂.imp (fun _ _ x => new_cut x) hi
  have f : From r (cutInts r h₀ h) h := ⟨f.pos, cut_ext f.pos f.ext, f.ok⟩
  generalize cutInts r h₀ h = h₀ at *
  rw [deriveProofZr_eq, ← List.Forall₂.length_eq hi]
  have guard : Gives r h₀ h (.lift (Res.guardErr (ps.length = 0) "no message to reveal"))
      (Res.guardErr (ps.length = 0) "no message to reveal") fun h' _ _ => NewAll (k := .int) r h₀ h' ps is := by
    by_cases hn : ps.length = 0
    · simp only [hn, decide_true, Res.guardErr_true]; exact Gives.fail
    · simp only [hn, decide_false, Res.guardErr_false]; exact Gives.done fun _ e => hi.mono e
  refine Gives.bind₀ f guard fun _ _ h₁ _ f₁ hi₁ => ?_
  refine Gives.seq₀ f₁ (gives_sortInts (os := []) (ws := []) f₁ hi₁ .nil (by simpa using hd)) fun _ h₂ f₂ hi₂ => ?_
  refine Gives.base f₂ ?_
  exact gives_deriveSorted f₂.self (hc.mono f₂.ext) lib (hm.mono f₂.ext) rawSig nonce rawPk
    (List.Forall₂.imp (fun _ _ x => x.1) hi₂.1) ρ

end Idemix.Mem.Bbs
