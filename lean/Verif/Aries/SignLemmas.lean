import Verif.Aries.Lemmas
import Verif.Aries.Signer
import Verif.Bbs.PropsProof

/-!
# Lemmas about aries signatures: what an honest signer computes
-/

namespace Idemix.Aries

open Bbs
open Dlog (SigType VerType AuditData SignerMetadata)

variable {S : Suite} (L : Lib S)

/-! ## Messages of a credential -/

theorem credMsgs_out (sk : S.F) (skPos : Int) (j : Nat) (attrs : List Bytes) (h : skPos < j) :
    credMsgs S sk skPos attrs.length j attrs = .ok (tag j (attrs.map S.zrOfBytes)) := by
  induction attrs generalizing j with
  | nil => rfl
  | cons a attrs ih =>
    have hne : ¬ ((j : Int) = skPos) := by omega
    simp only [List.length_cons, credMsgs, if_neg hne, ih (j + 1) (by push_cast; omega), Res.ok_bind, Res.pure_def,
      List.map_cons, tag]

theorem credMsgs_in (sk : S.F) (d j : Nat) (attrs : List Bytes) (h : d ≤ attrs.length) :
    credMsgs S sk ((j + d : Nat) : Int) (attrs.length + 1) j attrs =
      .ok (tag j (Spec.withSecret d sk (attrs.map S.zrOfBytes))) := by
  induction d generalizing j attrs with
  | zero =>
    have e : credMsgs S sk (j : Int) (attrs.length + 1) j attrs = (do
        let rest ← credMsgs S sk j attrs.length (j + 1) attrs
        pure (⟨sk, j⟩ :: rest)) := by
      cases attrs <;> simp [credMsgs]
    rw [Nat.add_zero, e, credMsgs_out sk j (j + 1) attrs (by push_cast; omega)]
    rfl
  | succ d ih =>
    cases attrs with
    | nil => simp at h
    | cons a attrs =>
      have hne : ¬ ((j : Int) = ((j + (d + 1) : Nat) : Int)) := by push_cast; omega
      have e : j + (d + 1) = (j + 1) + d := by omega
      have ih' := ih (j + 1) attrs (by simpa using h)
      rw [← e] at ih'
      simp only [List.length_cons] at ih' ⊢
      rw [credMsgs, if_neg hne]
      simp only [ih', Res.ok_bind, Res.pure_def]
      rfl

theorem toSignatureMessage_eq (c : Credential) (sk : S.F) (k : Nat) (hk : c.skPos = k) (hl : k ≤ c.attrs.length) :
    c.toSignatureMessage sk = .ok (tag 0 (Spec.withSecret k sk (c.attrs.map S.zrOfBytes))) := by
  have := credMsgs_in sk k 0 c.attrs hl
  rw [Nat.zero_add] at this
  rw [Credential.toSignatureMessage, hk, this]

/-! ## Disclosed attributes -/

/-- The three defined attribute types. -/
def Known (a : IdemixAttribute) : Prop := a.type = 0 ∨ a.type = 1 ∨ a.type = 2

theorem notHidden_ge (i : Nat) (as : List IdemixAttribute) : ∀ r ∈ notHidden i as, i ≤ r ∧ r < i + as.length := by
  induction as generalizing i with
  | nil => simp [notHidden]
  | cons a as ih =>
    intro r hr
    simp only [notHidden] at hr
    have := ih (i + 1)
    split at hr
    · rw [List.mem_cons] at hr
      rcases hr with rfl | hr
      · simp
      · have := this r hr; simp only [List.length_cons]; omega
    · have := this r hr; simp only [List.length_cons]; omega

theorem notHidden_length (i : Nat) (as : List IdemixAttribute) : (notHidden i as).length ≤ as.length := by
  induction as generalizing i with
  | nil => simp [notHidden]
  | cons a as ih =>
    have := ih (i + 1)
    simp only [notHidden]
    split <;> simp <;> omega

theorem notHidden_mem (i : Nat) (as : List IdemixAttribute) (j : Nat) :
    i + j ∈ notHidden i as ↔ ∃ a, as[j]? = some a ∧ a.type ≠ 0 := by
  induction as generalizing i j with
  | nil => simp [notHidden]
  | cons a as ih =>
    have hge := notHidden_ge (i + 1) as
    cases j with
    | zero =>
      simp only [notHidden, Nat.add_zero, List.getElem?_cons_zero, Option.some.injEq, exists_eq_left']
      split
      · rename_i h; simp [h]
      · rename_i h
        simp only [h, iff_false]
        intro hm
        have := hge i hm
        omega
    | succ j =>
      have e : i + (j + 1) = (i + 1) + j := by omega
      simp only [notHidden, List.getElem?_cons_succ, e]
      rw [← ih (i + 1) j]
      split
      · rw [List.mem_cons]
        constructor
        · rintro (h | h)
          · omega
          · exact h
        · exact .inr
      · rfl

theorem notHidden_append (i : Nat) (as bs : List IdemixAttribute) :
    notHidden i (as ++ bs) = notHidden i as ++ notHidden (i + as.length) bs := by
  induction as generalizing i with
  | nil => rfl
  | cons a as ih =>
    have e : i + 1 + as.length = i + (as.length + 1) := by omega
    simp only [List.cons_append, notHidden, ih, List.length_cons, e]
    split <;> simp

theorem notHidden_hidden (i : Nat) (as : List IdemixAttribute) (h : ∀ a ∈ as, a.type = 0) : notHidden i as = [] := by
  induction as generalizing i with
  | nil => rfl
  | cons a as ih =>
    simp only [notHidden]
    rw [if_neg (by simp [h a (by simp)]), ih _ (fun b hb => h b (by simp [hb]))]

theorem keepShown_ext {α : Type} {rs rs' : List Nat} (i : Nat) (xs : List α)
    (h : ∀ j, i ≤ j → (j ∈ rs ↔ j ∈ rs')) : keepShown rs i xs = keepShown rs' i xs := by
  induction xs generalizing i with
  | nil => rfl
  | cons x xs ih =>
    have e : rs.contains i = rs'.contains i := by
      rw [Bool.eq_iff_iff, List.contains_iff_mem, List.contains_iff_mem, h i (Nat.le_refl i)]
    simp only [keepShown, e, ih (i + 1) (fun j hj => h j (by omega))]

theorem keepHidden_ext {α : Type} {rs rs' : List Nat} (i : Nat) (xs : List α)
    (h : ∀ j, i ≤ j → (j ∈ rs ↔ j ∈ rs')) : keepHidden rs i xs = keepHidden rs' i xs := by
  induction xs generalizing i with
  | nil => rfl
  | cons x xs ih =>
    have e : rs.contains i = rs'.contains i := by
      rw [Bool.eq_iff_iff, List.contains_iff_mem, List.contains_iff_mem, h i (Nat.le_refl i)]
    simp only [keepHidden, e, ih (i + 1) (fun j hj => h j (by omega))]

/-- The messages that stand for a list of attributes are the values of the disclosed ones, in order. -/
theorem attrMsgs_agrees (i : Nat) {as : List IdemixAttribute} {vs : List S.F}
    (h : List.Forall₂ (Spec.Agrees L) as vs) (hk : ∀ a ∈ as, Known a) :
    ∃ ms, attrMsgs L i as = .ok ms ∧ ms.map (·.fr) = keepShown (notHidden i as) i vs := by
  induction h generalizing i with
  | nil => exact ⟨[], rfl, rfl⟩
  | @cons a v as vs hd _ ih =>
    obtain ⟨ms, e1, e2⟩ := ih (i + 1) (fun b hb => hk b (by simp [hb]))
    rcases hk a (by simp) with h0 | h12
    · have hf : attrFr L a = .ok none := (attrFr_none_iff L).mpr (by omega)
      have hn : ¬ i ∈ notHidden (i + 1) as := fun hm => by have := notHidden_ge (i + 1) as i hm; omega
      refine ⟨ms, by simp only [attrMsgs, hf, Res.ok_bind, e1, Res.pure_def], ?_⟩
      simp only [notHidden, h0, ne_eq, not_true_eq_false, if_false, keepShown, List.contains_iff_mem, hn]
      exact e2
    · have hf : attrFr L a = .ok (some v) := (attrFr_some_iff L).mpr (hd h12)
      refine ⟨⟨v, i⟩ :: ms, by simp only [attrMsgs, hf, Res.ok_bind, e1, Res.pure_def], ?_⟩
      have hne : a.type ≠ 0 := by omega
      simp only [notHidden, hne, ne_eq, not_false_eq_true, if_true, keepShown, List.contains_iff_mem, List.mem_cons,
        true_or, List.map_cons, e2]
      congr 1
      apply keepShown_ext
      intro j hj
      simp only [List.mem_cons]
      constructor
      · exact .inr
      · rintro (h | h)
        · omega
        · exact h

/-- Same for what `Verify` passes: the value at the position of the secret key is not among them. -/
theorem attributesToSignatureMessage_agrees {as : List IdemixAttribute} {vs : List S.F} (k : Nat) (sk : S.F)
    (h : List.Forall₂ (Spec.Agrees L) as vs) (hkn : ∀ a ∈ as, Known a) (hk : k ≤ as.length)
    (hid : ∀ a ∈ as.take k, a.type = 0) :
    ∃ ms, attributesToSignatureMessage L as k = .ok ms ∧
      ms.map (·.fr) = keepShown (notHidden 1 as) 0 (Spec.withSecret k sk vs) := by
  have hl := h.length_eq
  have g : (decide ((k : Int) < 0) || decide ((as.length : Int) < (k : Int))) = false := by
    simp; omega
  have h' : List.Forall₂ (Spec.Agrees L) (as.take k ++ [hiddenAttr] ++ as.drop k) (Spec.withSecret k sk vs) := by
    apply List.rel_append
    · apply List.rel_append (List.forall₂_take k h)
      exact .cons (fun ht => by simp [hiddenAttr] at ht) .nil
    · exact List.forall₂_drop k h
  obtain ⟨ms, e1, e2⟩ := attrMsgs_agrees L 0 h' (by
    intro a ha
    simp only [List.mem_append, List.mem_singleton] at ha
    rcases ha with (ha | rfl) | ha
    · exact hkn a (List.mem_of_mem_take ha)
    · exact .inl rfl
    · exact hkn a (List.mem_of_mem_drop ha))
  refine ⟨ms, ?_, ?_⟩
  · rw [attributesToSignatureMessage, g]
    simp only [Res.guardPanic_false, Res.ok_bind, Int.toNat_natCast, e1]
  · rw [e2]
    congr 1
    have : notHidden 1 as = notHidden 1 (as.take k ++ as.drop k) := by rw [List.take_append_drop]
    rw [this, notHidden_append, notHidden_append, notHidden_append, notHidden_hidden _ _ hid,
      notHidden_hidden _ _ hid, notHidden_hidden _ [hiddenAttr] (by simp [hiddenAttr])]
    simp only [List.nil_append, List.length_append, List.length_singleton]
    congr 1
    omega

/-! ## Ranks of hidden positions -/

theorem keepHidden_take {α : Type} (rs : List Nat) (i : Nat) (xs : List α) (e : Nat) (he : e < xs.length)
    (hn : i + e ∉ rs) : (keepHidden rs i xs)[(keepHidden rs i (xs.take e)).length]? = some xs[e] := by
  induction xs generalizing i e with
  | nil => simp at he
  | cons x xs ih =>
    cases e with
    | zero =>
      simp only [Nat.add_zero] at hn
      simp [keepHidden, hn]
    | succ e =>
      have := ih (i + 1) e (by simpa using he) (by rwa [show i + 1 + e = i + (e + 1) by omega])
      simp only [List.take_succ_cons, keepHidden, List.getElem_cons_succ]
      split
      · exact this
      · simpa using this

/-- Number of hidden positions before `e`. -/
def rank (rs : List Nat) (e : Nat) : Nat := (keepHidden rs 0 (List.range e)).length

theorem keepHidden_rank {α : Type} (rs : List Nat) (xs : List α) (e : Nat) (he : e < xs.length) (hn : e ∉ rs) :
    (keepHidden rs 0 xs)[rank rs e]? = some xs[e] := by
  have h := keepHidden_take rs 0 xs e he (by simpa using hn)
  rwa [show (keepHidden rs 0 (xs.take e)).length = rank rs e from
    keepHidden_length_eq rs 0 (by simp; omega)] at h

theorem rank_all (rs : List Nat) (e : Nat) (h : ∀ i < e, i ∉ rs) : rank rs e = e := by
  have key : ∀ (xs : List Nat) i, (∀ j, i ≤ j → j < i + xs.length → j ∉ rs) → keepHidden rs i xs = xs := by
    intro xs
    induction xs with
    | nil => intros; rfl
    | cons x xs ih =>
      intro i hi
      simp only [keepHidden, List.contains_iff_mem, hi i (Nat.le_refl i) (by simp), if_false]
      rw [ih (i + 1) (fun j h1 h2 => hi j (by omega) (by simp only [List.length_cons]; omega))]
  rw [rank, key _ 0 (fun j _ hj => h j (by simpa using hj)), List.length_range]

theorem findIdx_first {α : Type} [DecidableEq α] (l : List α) (b : α) (i : Nat) (h : l[i]? = some b) (hn : l.Nodup) :
    (l.findIdx? fun x => decide (b = x)) = some i := by
  obtain ⟨hi, hb⟩ := List.getElem?_eq_some_iff.mp h
  rw [List.findIdx?_eq_some_iff_getElem]
  refine ⟨hi, by simp [hb], ?_⟩
  intro j hj
  simp only [decide_eq_true_eq]
  intro e
  have := (hn.getElem_inj_iff (hi := hi) (hj := (by omega : j < l.length))).mp (hb.trans e)
  omega

theorem keepHidden_sublist {α : Type} (rs : List Nat) (i : Nat) (xs : List α) : (keepHidden rs i xs).Sublist xs := by
  induction xs generalizing i with
  | nil => exact List.Sublist.refl _
  | cons x xs ih =>
    simp only [keepHidden]
    split
    · exact (ih (i + 1)).cons _
    · exact (ih (i + 1)).cons_cons _

/-! ## The card's proof -/

/-- The proof of knowledge made with a card: the position of the secret key counts as revealed, and the randomness
of the pseudonym is taken off the second secret. -/
def cardHonest (σ : Sig S) (ms : List S.F) (rs : List Nat) (pk : PKG S) (r : S.F) (ρ : PoKRand S) : PoK S :=
  { honestPoK σ ms (0 :: rs) pk ρ with
    secrets2 := -ρ.r1⁻¹ :: (-(ρ.r2 * ρ.r1⁻¹) + σ.s - r) :: keepHidden (0 :: rs) 0 ms }

theorem keepHidden_zero {α : Type} (rs : List Nat) (x : α) (xs : List α) :
    keepHidden (0 :: rs) 0 (x :: xs) = keepHidden rs 1 xs := by
  rw [keepHidden, if_pos (by simp)]
  apply keepHidden_ext
  intro j hj
  simp only [List.mem_cons]
  constructor
  · rintro (h | h)
    · omega
    · exact h
  · exact .inr

theorem cardPoK_eq (hone : S.zrOfInt 1 = 1) (σ : Sig S) (sk : S.F) (vs : List S.F) (as : List IdemixAttribute)
    (pk : PKG S) (rNym : S.F) (ρ : PoKRand S) (hl : vs.length + 1 = pk.h.length) (hal : as.length = vs.length)
    (H : S.G1) (hH : pk.h[0]? = some H) :
    cardPoK σ (tag 0 (sk :: vs)) 0 as pk (rNym • pk.h0 + sk • H) rNym ρ =
      .ok (cardHonest σ (sk :: vs) (notHidden 1 as) pk rNym ρ) := by
  obtain ⟨h0, h, w, count⟩ := pk
  cases h with
  | nil => simp at hH
  | cons g hs =>
    simp only [List.getElem?_cons_zero, Option.some.injEq] at hH
    subst hH
    simp only [List.length_cons, Nat.add_right_cancel_iff] at hl
    have g0 : (decide ((0 : Int) < 0) || decide (((tag 0 (sk :: vs)).length : Int) ≤ 0)) = false := by
      simp only [tag_length, List.length_cons]; simp
    have e0 : (tag 0 (sk :: vs)).take (0 : Int).toNat ++ (tag 0 (sk :: vs)).drop ((0 : Int).toNat + 1) = tag 1 vs := by
      simp [tag]
    have mb := msgBases_tag (⟨h0, g :: hs, w, count⟩ : PKG S) 1 vs (by simp; omega)
    simp only [List.drop_succ_cons, List.drop_zero, hl, List.take_length] at mb
    have cb : computeB σ.s (tag 1 vs) ⟨h0, g :: hs, w, count⟩ =
        .ok (S.genG1 + σ.s • h0 + S.lin vs hs) := by
      rw [computeB, mb, Res.ok_bind, build_eq (by simp [hl]) (by simp)]
      simp [hone, add_assoc]
    have eb : S.genG1 + σ.s • h0 + S.lin vs hs + (rNym • h0 + sk • g - rNym • h0) =
        bValue (⟨h0, g :: hs, w, count⟩ : PKG S) σ.s (sk :: vs) := by
      simp only [bValue, Suite.lin_cons]; module
    have gl : decide ((tag 1 vs).length < (notHidden 0 as).length) = false := by
      have := notHidden_length 0 as
      simp; omega
    have hrev : Res.mapM' (fun i => do let m ← Res.index (tag 1 vs) i; pure m.idx)
        ((notHidden 0 as).map fun i : Nat => (i : Int)) =
        .ok ((notHidden 1 as).map fun i : Nat => (i : Int)) := by
      have h1 : (notHidden 1 as) = (notHidden 0 as).map (· + 1) := by
        have key : ∀ (as : List IdemixAttribute) i, notHidden (i + 1) as = (notHidden i as).map (· + 1) := by
          intro as
          induction as with
          | nil => intro i; rfl
          | cons a as ih => intro i; simp only [notHidden, ih]; split <;> simp
        exact key as 0
      rw [h1, List.map_map, Res.mapM'_eq_ok, List.forall₂_map_left_iff, List.forall₂_map_right_iff,
        List.forall₂_same]
      intro r hr
      have := notHidden_ge 0 as r hr
      have hr' : r < (tag 1 vs).length := by simp; omega
      rw [Res.index_nat, List.getElem?_eq_getElem hr']
      simp only [Res.deref_some, Res.ok_bind, Res.pure_def, tag_idx 1 vs r hr', Function.comp]
      congr 2
      omega
    have hidx : ∀ j (hj : j < (tag 1 vs).length), (tag 1 vs)[j].idx = ((1 + j : Nat) : Int) :=
      fun j hj => tag_idx 1 vs j hj
    have hhid := hiddenMsgs_fr (tag 1 vs) (notHidden 1 as) 1 hidx
    have hmb := msgBases_keepHidden (⟨h0, g :: hs, w, count⟩ : PKG S) (notHidden 1 as) (tag 1 vs) hs 1 hidx
      (by simpa using hl) (fun j hj => by
        simp only [Nat.add_comm 1 j, List.getElem?_cons_succ]
        exact List.getElem?_eq_getElem hj)
    have f1 : finish [ρ.r1 • σ.a, h0] (blindings 2 ρ.vc1) = _ := finish_eq [ρ.r1 • σ.a, h0] ρ.vc1 (by simp)
    simp only [Res.pure_def] at hrev
    rw [cardPoK, g0]
    simp only [Res.guardPanic_false, Res.ok_bind, e0, cb, eb]
    simp only [pokOfSignatureB, checkSig, Bool.false_eq_true, if_false, Res.ok_bind]
    rw [build_eq (by simp) (by simp)]
    simp only [Res.ok_bind, f1, List.length_map, revealedAttributesIndexNoSk, gl, Res.guardErr_false, hrev,
      smartcardVC2, hhid, hmb, Res.pure_def]
    rw [finish_eq _ _ (by simp)]
    simp only [Res.ok_bind, cardHonest, honestPoK, Suite.lin_cons, Suite.lin_nil_left, add_zero, keepHidden_zero,
      ← keepHidden_map, tag_fr]
    rfl

theorem card_generateProof (σ : Sig S) (ms : List S.F) (rs : List Nat) (pk : PKG S) (r : S.F) (ρ : PoKRand S) (c : S.F)
    (hl : ms.length = pk.h.length) :
    (cardHonest σ ms rs pk r ρ).generateProof c = .ok ((cardHonest σ ms rs pk r ρ).respond c) := by
  have e := keepHidden_length_eq (0 :: rs) 0 hl
  have g1' : decide ((cardHonest σ ms rs pk r ρ).secrets1.length < (cardHonest σ ms rs pk r ρ).vc1.blind.length) = false := by
    simp [cardHonest, honestPoK]
  have g2 : decide ((cardHonest σ ms rs pk r ρ).secrets2.length < (cardHonest σ ms rs pk r ρ).vc2.blind.length) = false := by
    simp [cardHonest, honestPoK, e]
  simp only [PoK.generateProof, Committed.generateProof, g1', g2, Res.guardPanic_false, Res.ok_bind, Res.pure_def,
    PoK.respond]

theorem card_toBytes (σ : Sig S) (ms : List S.F) (rs rs' : List Nat) (pk : PKG S) (r : S.F) (ρ : PoKRand S) (c : S.F)
    (he : ∀ i, i ∈ 0 :: rs ↔ i ∈ rs') (hc : (rs'.length : Int) ≤ pk.count) :
    ((cardHonest σ ms rs pk r ρ).respond c).bytesForChallenge rs' pk = .ok (cardHonest σ ms rs pk r ρ).toBytes := by
  have g : decide ((7 + (pk.count - (rs'.length : Int))) * (S.g1CompLen : Int) < 0) = false := by
    simp only [decide_eq_false_iff_not, not_lt]
    apply mul_nonneg <;> omega
  simp only [SigProof.bytesForChallenge, g, Res.guardPanic_false, Res.ok_bind, Res.pure_def, PoK.respond,
    PoK.toBytes, Committed.toBytes, honestPoK, cardHonest, hiddenGens_eq, keepHidden_congr he]
  simp [List.append_assoc]

theorem smartcardVC2Verify_eq (hone : S.zrOfInt 1 = 1) (nym : S.G1) (c : S.F) (pk : PKG S) (rs : List Nat)
    (messages : List (SigMsg S)) (p : ProofG1 S) (d : S.G1) (h1 : (rs.length : Int) ≤ 2 + pk.count)
    (h2 : (keepShown rs 1 pk.h.tail).length ≤ messages.length) :
    smartcardVC2Verify nym c pk rs messages p d =
      badSignature (p.verify (d :: pk.h0 :: keepHidden rs 1 pk.h.tail)
        (-(S.genG1 + S.lin (messages.map (·.fr)) (keepShown rs 1 pk.h.tail) + nym)) c) := by
  have g : decide (2 + pk.count - (rs.length : Int) < 0) = false := by simp; omega
  simp only [smartcardVC2Verify, g, Res.guardPanic_false, Res.ok_bind, splitGens_eq rs 1 pk.h.tail messages h2, zip_sum,
    hone, one_smul]

theorem card_verifies (hone : S.zrOfInt 1 = 1) (σ : Sig S) (sk : S.F) (vs : List S.F) (rs rs' : List Nat) (pk : PKG S)
    (r : S.F) (ρ : PoKRand S) (c : S.F) (messages : List (SigMsg S)) (H : S.G1) (hH : pk.h[0]? = some H)
    (hl : (sk :: vs).length = pk.h.length) (hv : Valid pk σ (sk :: vs)) (hr1 : ρ.r1 ≠ 0)
    (h0 : 0 ∉ rs) (he : ∀ i, i ∈ rs ↔ i ∈ rs') (hc : (rs'.length : Int) ≤ pk.count)
    (hm : messages.map (·.fr) = keepShown rs 0 (sk :: vs)) :
    ((cardHonest σ (sk :: vs) rs pk r ρ).respond c).verify (smartcardVC2Verify (r • pk.h0 + sk • H)) c pk rs' messages =
      .ok () := by
  obtain ⟨h0', h, w, count⟩ := pk
  cases h with
  | nil => simp at hH
  | cons g hs =>
    simp only [List.getElem?_cons_zero, Option.some.injEq] at hH
    subst hH
    have hl' : vs.length = hs.length := by simpa using hl
    have hm' : messages.map (·.fr) = keepShown rs 1 vs := by
      rw [hm, keepShown, if_neg (by simpa using h0)]
    have ks : keepShown rs' 1 hs = keepShown rs 1 hs := (keepShown_congr he 1 hs).symm
    have kh : keepHidden rs' 1 hs = keepHidden rs 1 hs := (keepHidden_congr he 1 hs).symm
    have hlen : messages.length = (keepShown rs 1 hs).length := by
      rw [← keepShown_length_eq rs 1 hl', ← hm', List.length_map]
    have eh := keepHidden_length_eq rs 1 hl'
    rw [sigProof_verify_ok_iff]
    refine ⟨?_, ?_, ?_⟩
    · simp only [PoK.respond, cardHonest, honestPoK, map_sub, map_smul]
      unfold Valid at hv
      rw [map_add, map_smul, LinearMap.add_apply, LinearMap.smul_apply] at hv
      simp only at hv
      have : S.pair w σ.a = S.pair S.genG2 (bValue ⟨h0', g :: hs, w, count⟩ σ.s (sk :: vs)) - σ.e • S.pair S.genG2 σ.a := by
        rw [← hv]; abel
      rw [this]
      module
    · rw [ProofG1.verify_exact _ _ _ _ (by simp [PoK.respond, cardHonest, honestPoK])]
      simp only [PoK.respond, cardHonest, honestPoK]
      rw [lin_response _ _ _ (by simp)]
      simp only [Suite.lin_cons, Suite.lin_nil_left]
      module
    · rw [smartcardVC2Verify_eq hone _ _ _ _ _ _ _ (by simp only at hc ⊢; omega) (by simp [ks, hlen]), badSignature_ok]
      simp only [List.tail_cons, ks, kh, hm']
      rw [ProofG1.verify_exact _ _ _ _ (by simp [PoK.respond, cardHonest, honestPoK, keepHidden_zero, eh])]
      simp only [PoK.respond, cardHonest, honestPoK, keepHidden_zero]
      rw [lin_response _ _ _ (by simp [eh])]
      simp only [Suite.lin_cons]
      have hb : bValue (⟨h0', g :: hs, w, count⟩ : PKG S) σ.s (sk :: vs) = S.genG1 + σ.s • h0' + (sk • g +
          (S.lin (keepShown rs 1 vs) (keepShown rs 1 hs) + S.lin (keepHidden rs 1 vs) (keepHidden rs 1 hs))) := by
        simp only [bValue, Suite.lin_cons]
        rw [lin_keep rs 1 vs hs hl']
      have key : -ρ.r1⁻¹ • (ρ.r1 • bValue (⟨h0', g :: hs, w, count⟩ : PKG S) σ.s (sk :: vs) + -ρ.r2 • h0') =
          -bValue (⟨h0', g :: hs, w, count⟩ : PKG S) σ.s (sk :: vs) + (ρ.r2 * ρ.r1⁻¹) • h0' := by
        rw [smul_add, smul_smul, smul_smul, neg_mul, inv_mul_cancel₀ hr1, neg_one_smul]
        congr 2
        ring
      rw [key, hb]
      module

end Idemix.Aries
