import Verif.Dlog.SigChars
import Verif.Dlog.PropsNym
import Mathlib.Tactic.FieldSimp

/-!
# C10, C11, C13–C15, C19: what an accepted signature means

Accepted signatures are arbitrary (adversarial) wire values.  Knowledge soundness is stated for the two
runs of a forking argument: one signature accepted against oracle `h₁`, one against `h₂`, same first
hash question, different final answers.
-/

namespace Idemix.Dlog

variable {S : Suite} (T : Translator S)

/-- The commitment `P` opens to entry `i` of `attrs` with the randomness `r`. -/
def Spec.CommitsTo (k : Spec.Key S) (attrs : List S.F) (i : Nat) (P : S.G1) (r : S.F) : Prop :=
  ∃ (a : S.F) (h : S.G1), attrs[i]? = some a ∧ k.hAttrs[i]? = some h ∧ P = a • h + r • k.hRand

/-- `attrs` takes the values supplied by the verifier at the disclosed positions. -/
def Spec.Discloses (D : Bytes) (values : List (Option S.F)) (attrs : List S.F) : Prop :=
  attrs.length = D.length ∧
    ∀ (i : Nat) (d : UInt8), D[i]? = some d → d ≠ 0 → ∃ a : S.F, attrs[i]? = some a ∧ values[i]? = some (some a)

theorem nymPart_length (k : Spec.Key S) (D : Bytes) (v : Spec.Sig S) (i : Nat)
    (o : Option (S.G1 × S.F)) :
    (v.nymPart k D i o).length = (if o.isSome then 2 else 0) * S.g1Len := by
  rw [← nymBytes_nymPart, nymBytes_length]; simp

/-- Equal transcripts of signatures with the same attribute pseudonyms have equal components. -/
theorem transcript_inj {k₁ k₂ : Spec.Key S} {hash₁ hash₂ D₁ D₂ msg₁ msg₂ : Bytes} {vs₁ vs₂ : List S.F}
    {e₁ e₂ r₁ r₂ : Nat} {v₁ v₂ : Spec.Sig S} (hD : D₁.length = D₂.length)
    (hpe : v₁.eid.isSome = v₂.eid.isSome) (hpr : v₁.rh.isSome = v₂.rh.isSome)
    (h : v₁.transcript (sigLabelOf v₁) k₁ hash₁ D₁ vs₁ e₁ r₁ msg₁ =
      v₂.transcript (sigLabelOf v₂) k₂ hash₂ D₂ vs₂ e₂ r₂ msg₂) :
    v₁.t1 k₁ = v₂.t1 k₂ ∧ v₁.t2 k₁ D₁ vs₁ = v₂.t2 k₂ D₂ vs₂ ∧ v₁.t3 k₁ = v₂.t3 k₂ ∧
      v₁.aPrime = v₂.aPrime ∧ v₁.aBar = v₂.aBar ∧ v₁.bPrime = v₂.bPrime ∧ v₁.nym = v₂.nym ∧
      v₁.nymPart k₁ D₁ e₁ v₁.eid = v₂.nymPart k₂ D₂ e₂ v₂.eid ∧
      v₁.nymPart k₁ D₁ r₁ v₁.rh = v₂.nymPart k₂ D₂ r₂ v₂.rh ∧
      Buf.padTo S.scalarLen hash₁ = Buf.padTo S.scalarLen hash₂ ∧ D₁ = D₂ ∧ msg₁ = msg₂ := by
  have hl : sigLabelOf v₁ = sigLabelOf v₂ := by simp [sigLabelOf, Spec.Sig.label, hpe, hpr]
  simp only [Spec.Sig.transcript, List.append_assoc, hl] at h
  have h := List.append_cancel_left h
  obtain ⟨q1, h⟩ := List.append_inj h (by simp)
  obtain ⟨q2, h⟩ := List.append_inj h (by simp)
  obtain ⟨q3, h⟩ := List.append_inj h (by simp)
  obtain ⟨q4, h⟩ := List.append_inj h (by simp)
  obtain ⟨q5, h⟩ := List.append_inj h (by simp)
  obtain ⟨q6, h⟩ := List.append_inj h (by simp)
  obtain ⟨q7, h⟩ := List.append_inj h (by simp)
  obtain ⟨q8, h⟩ := List.append_inj h (by rw [nymPart_length, nymPart_length, hpe])
  obtain ⟨q9, h⟩ := List.append_inj h (by rw [nymPart_length, nymPart_length, hpr])
  obtain ⟨q10, h⟩ := List.append_inj h (by simp)
  obtain ⟨q11, h⟩ := List.append_inj h hD
  exact ⟨S.g1Bytes_inj q1, S.g1Bytes_inj q2, S.g1Bytes_inj q3, S.g1Bytes_inj q4, S.g1Bytes_inj q5,
    S.g1Bytes_inj q6, S.g1Bytes_inj q7, q8, q9, q10, q11, h⟩

theorem nymPart_inj {k : Spec.Key S} {D : Bytes} {v₁ v₂ : Spec.Sig S} {i : Nat} {p₁ p₂ : S.G1 × S.F}
    (h : v₁.nymPart k D i (some p₁) = v₂.nymPart k D i (some p₂)) :
    p₁.1 = p₂.1 ∧ v₁.t4 k D i p₁ = v₂.t4 k D i p₂ := by
  simp only [Spec.Sig.nymPart] at h
  obtain ⟨q1, q2⟩ := List.append_inj h (by simp)
  exact ⟨S.g1Bytes_inj q1, S.g1Bytes_inj q2⟩

/-- The algebra of extraction (special soundness). -/
theorem special_soundness {k : Spec.Key S} {D : Bytes} {vs : List S.F} {v₁ v₂ : Spec.Sig S}
    (hb : D.length ≤ k.hAttrs.length) (hl₁ : v₁.sAttrs.length = nHid D)
    (hl₂ : v₂.sAttrs.length = nHid D) (hvs : vs.length = nDis D)
    (hpair : S.pair k.w v₁.aPrime = S.pair S.genG2 v₁.aBar) (ha : v₁.aPrime ≠ 0)
    (h1 : v₁.t1 k = v₂.t1 k) (h2 : v₁.t2 k D vs = v₂.t2 k D vs) (h3 : v₁.t3 k = v₂.t3 k)
    (h4 : v₁.aPrime = v₂.aPrime) (h5 : v₁.aBar = v₂.aBar) (h6 : v₁.bPrime = v₂.bPrime)
    (h7 : v₁.nym = v₂.nym) (hc : v₁.c ≠ v₂.c) :
    ∃ attrs : List S.F, attrs.length = D.length ∧ dis D attrs = vs ∧ hid D attrs = (v₁.extract v₂).hidden ∧
      Spec.IsCredential k (v₁.extract v₂).A (v₁.extract v₂).e (v₁.extract v₂).s (v₁.extract v₂).sk attrs ∧
      ((v₁.extract v₂).A ≠ 0 ∨ Spec.signed k (v₁.extract v₂).sk (v₁.extract v₂).s attrs = 0) ∧
      v₁.nym = Spec.nym k (v₁.extract v₂).sk (v₁.extract v₂).rNym ∧
      ∀ i, D[i]? = some 0 → ∃ (a : S.F) (h : S.G1), attrs[i]? = some a ∧ k.hAttrs[i]? = some h ∧
        a = (v₁.c - v₂.c)⁻¹ * (v₁.sAttrs.getD (Spec.respIdx D i) 0 - v₂.sAttrs.getD (Spec.respIdx D i) 0) := by
  obtain ⟨d, hd⟩ : ∃ d, d = v₁.c - v₂.c := ⟨_, rfl⟩
  have hd0 : d ≠ 0 := by rw [hd]; exact sub_ne_zero.mpr hc
  rw [← hd]
  let hs : List S.F := List.zipWith (fun x y => d⁻¹ * (x - y)) v₁.sAttrs v₂.sAttrs
  have hhs : hs.length = nHid D := by simp [hs, hl₁, hl₂]
  obtain ⟨m1, m2, m3⟩ := merge_spec D hs vs hhs hvs
  let e : S.F := -(d⁻¹ * (v₁.sE - v₂.sE))
  let r2 : S.F := d⁻¹ * (v₁.sR2 - v₂.sR2)
  let r3 : S.F := -(d⁻¹ * (v₁.sR3 - v₂.sR3))
  let s' : S.F := d⁻¹ * (v₁.sSPrime - v₂.sSPrime)
  let sk : S.F := d⁻¹ * (v₁.sSk - v₂.sSk)
  let rN : S.F := d⁻¹ * (v₁.sRNym - v₂.sRNym)
  have hlin : d • S.lin hs (hid D k.hAttrs) =
      S.lin v₁.sAttrs (hid D k.hAttrs) - S.lin v₂.sAttrs (hid D k.hAttrs) := by
    rw [← S.lin_sub (by rw [hl₁, hl₂]), ← S.lin_smul]
    congr 1
    apply List.ext_getElem?
    intro i
    simp only [hs, List.getElem?_map, List.getElem?_zipWith]
    rcases v₁.sAttrs[i]? with _ | x <;> rcases v₂.sAttrs[i]? with _ | y <;> simp
    rw [← mul_assoc, mul_inv_cancel₀ hd0, one_mul]
  -- B' = ABar + e A' - r2 HRand
  have hB : v₁.bPrime = v₁.aBar + e • v₁.aPrime - r2 • k.hRand := by
    simp only [Spec.Sig.t1, ← h4, ← h5, ← h6] at h1
    apply S.smul_right_inj hd0
    have e1 : d * e = -(v₁.sE - v₂.sE) := by simp only [e]; field_simp
    have e2 : d * r2 = v₁.sR2 - v₂.sR2 := by simp only [r2]; field_simp
    rw [smul_sub, smul_add, smul_smul, smul_smul, e1, e2]
    rw [hd]
    linear_combination (norm := module) (1 : S.F) • h1
  -- r3 B' = signed
  have hS : r3 • v₁.bPrime = Spec.signed k sk s' (merge D hs vs) := by
    simp only [Spec.Sig.t2, ← h6] at h2
    apply S.smul_right_inj hd0
    have e1 : d * r3 = -(v₁.sR3 - v₂.sR3) := by simp only [r3]; field_simp
    have e2 : d * sk = v₁.sSk - v₂.sSk := by simp only [sk]; field_simp
    have e3 : d * s' = v₁.sSPrime - v₂.sSPrime := by simp only [s']; field_simp
    rw [Spec.signed, S.lin_split D _ _ m1, m2, m3, smul_add, smul_add, smul_add, smul_add, smul_smul,
      smul_smul, smul_smul, e1, e2, e3, hlin, hd]
    linear_combination (norm := module) (-1 : S.F) • h2
  have hN : v₁.nym = Spec.nym k sk rN := by
    simp only [Spec.Sig.t3, ← h7] at h3
    apply S.smul_right_inj hd0
    have e1 : d * sk = v₁.sSk - v₂.sSk := by simp only [sk]; field_simp
    have e2 : d * rN = v₁.sRNym - v₂.sRNym := by simp only [rN]; field_simp
    rw [Spec.nym, smul_add, smul_smul, smul_smul, e1, e2, hd]
    linear_combination (norm := module) (-1 : S.F) • h3
  have hS' : Spec.signed k sk (s' + r2 * r3) (merge D hs vs) = r3 • (v₁.aBar + e • v₁.aPrime) := by
    have : Spec.signed k sk (s' + r2 * r3) (merge D hs vs) =
        Spec.signed k sk s' (merge D hs vs) + r3 • r2 • k.hRand := by
      simp only [Spec.signed]; module
    rw [this, ← hS, hB]
    module
  have hX : v₁.extract v₂ = ⟨r3 • v₁.aPrime, e, s' + r2 * r3, sk, rN, hs⟩ := by
    simp only [hs, e, r2, r3, s', sk, rN, hd]; rfl
  rw [hX]
  refine ⟨merge D hs vs, m1, m3, m2, ?_, ?_, hN, ?_⟩
  · rw [Spec.IsCredential, hS']
    simp only [map_add, map_smul, LinearMap.add_apply, LinearMap.smul_apply, hpair]
  · by_cases hr : r3 = 0
    · right; rw [hS', hr, zero_smul]
    · left
      intro h0
      simp only at h0
      exact ha (S.smul_right_inj hr (by rw [h0, smul_zero]))
  · intro i hi
    have hiD : i < D.length := (List.getElem?_eq_some_iff.mp hi).1
    have hg := hid_getElem D (merge D hs vs) i hi (by omega)
    rw [m2] at hg
    have hlt : i < (merge D hs vs).length := by omega
    rw [List.getElem?_eq_getElem hlt] at hg
    obtain ⟨hx, hxe⟩ := List.getElem?_eq_some_iff.mp hg
    refine ⟨_, _, List.getElem?_eq_getElem hlt, List.getElem?_eq_getElem (lt_of_lt_of_le hiD hb), ?_⟩
    have hx1 : (D.take i).count 0 < v₁.sAttrs.length := by rw [hl₁, ← hhs]; exact hx
    have hx2 : (D.take i).count 0 < v₂.sAttrs.length := by rw [hl₂, ← hhs]; exact hx
    rw [← hxe]
    simp [hs, Spec.respIdx, hx1, hx2]

/-- C10 and C14 in one statement: what two related accepted signatures prove. -/
theorem extraction (h₁ h₂ : Bytes → S.F) {RevPk : Type} (ipk : IssuerPublicKey) (sig₁ sig₂ : Signature)
    (D msg₁ msg₂ : Bytes) (values : List (Option S.F)) (rhIndex eidIndex : Int) (revPk₁ revPk₂ : RevPk)
    (epoch₁ epoch₂ : Int) (vt : VerType) (md₁ : Option (SignerMetadata (S.withHash h₁)))
    (md₂ : Option (SignerMetadata (S.withHash h₂)))
    (acc₁ : sig₁.ver (T.withHash h₁) D (some ipk) msg₁ values rhIndex eidIndex revPk₁ epoch₁ vt md₁ = .ok ())
    (acc₂ : sig₂.ver (T.withHash h₂) D (some ipk) msg₂ values rhIndex eidIndex revPk₂ epoch₂ vt md₂ = .ok ())
    (k : Spec.Key S) (hk : Reads T ipk k) (v₁ v₂ : Spec.Sig S)
    (hv₁ : Views T sig₁ vt v₁) (hv₂ : Views T sig₂ vt v₂)
    (hpe : v₁.eid.isSome = v₂.eid.isSome) (hpr : v₁.rh.isSome = v₂.rh.isSome)
    (vs : List S.F) (hvs : vs.map some = dis D values) (q₁ q₂ : Bytes)
    (hq₁ : q₁ = v₁.transcript (sigLabelOf v₁) k ipk.hash D vs eidIndex.toNat rhIndex.toNat msg₁)
    (hq₂ : q₂ = v₂.transcript (sigLabelOf v₂) k ipk.hash D vs eidIndex.toNat rhIndex.toNat msg₂)
    (sameQuery : q₁ = q₂)
    (differentAnswers : h₁ (Spec.second (S.withHash h₁) q₁ v₁.nonce) ≠
      h₂ (Spec.second (S.withHash h₂) q₂ v₂.nonce)) :
    ∃ attrs : List S.F, Spec.Discloses D values attrs ∧ hid D attrs = (v₁.extract v₂).hidden ∧
      Spec.IsCredential k (v₁.extract v₂).A (v₁.extract v₂).e (v₁.extract v₂).s (v₁.extract v₂).sk attrs ∧
      ((v₁.extract v₂).A ≠ 0 ∨ Spec.signed k (v₁.extract v₂).sk (v₁.extract v₂).s attrs = 0) ∧
      v₁.nym = Spec.nym k (v₁.extract v₂).sk (v₁.extract v₂).rNym ∧
      (∀ p₁ p₂, v₁.eid = some p₁ → v₂.eid = some p₂ → D[eidIndex.toNat]? = some 0 →
        Spec.CommitsTo k attrs eidIndex.toNat p₁.1 (Spec.witness v₁.c v₂.c p₁.2 p₂.2)) ∧
      (∀ p₁ p₂, v₁.rh = some p₁ → v₂.rh = some p₂ → D[rhIndex.toNat]? = some 0 →
        Spec.CommitsTo k attrs rhIndex.toNat p₁.1 (Spec.witness v₁.c v₂.c p₁.2 p₂.2)) := by
  obtain ⟨k₁, v₁', vs₁, a1, a2, a3, a4, a5, a6, a7, a8, a9, a10⟩ := ver_withHash acc₁
  obtain ⟨k₂, v₂', vs₂, b1, b2, b3, b4, b5, b6, b7, b8, b9, b10⟩ := ver_withHash acc₂
  obtain rfl := a1.unique hk
  obtain rfl := b1.unique a1
  obtain rfl := a2.unique hv₁
  obtain rfl := b2.unique hv₂
  have hmap : ∀ l l' : List S.F, l.map some = l'.map some → l = l' := fun l l' h =>
    List.map_injective_iff.mpr (Option.some_injective _) h
  obtain rfl := hmap _ _ (a5.trans hvs.symm)
  obtain rfl := hmap _ _ (b5.trans hvs.symm)
  rw [← hq₁] at a10
  rw [← hq₂] at b10
  have hne : v₁'.c ≠ v₂'.c := by rw [a10, b10]; exact differentAnswers
  rw [hq₁, hq₂] at sameQuery
  obtain ⟨c1, c2, c3, c4, c5, c6, c7, c8, c9, -⟩ := transcript_inj rfl hpe hpr sameQuery
  obtain ⟨attrs, d1, d2, dh, d3, d4, d5, d6⟩ :=
    special_soundness a3 a4 b4 a6 a9 a8 c1 c2 c3 c4 c5 c6 c7 hne
  have commit : ∀ i (p₁ p₂ : S.G1 × S.F), p₁.1 = p₂.1 → v₁'.t4 k₂ D i p₁ = v₂'.t4 k₂ D i p₂ →
      D[i]? = some 0 → Spec.CommitsTo k₂ attrs i p₁.1 (Spec.witness v₁'.c v₂'.c p₁.2 p₂.2) := by
    intro i p₁ p₂ e1 e2 hD
    obtain ⟨a, h, f1, f2, f3⟩ := d6 i hD
    refine ⟨a, h, f1, f2, ?_⟩
    unfold Spec.witness
    have hd0 : v₁'.c - v₂'.c ≠ 0 := sub_ne_zero.mpr hne
    have hget : k₂.hAttrs.getD i 0 = h := by simp [List.getD, f2]
    simp only [Spec.Sig.t4, hget, ← e1] at e2
    apply S.smul_right_inj hd0
    rw [f3, smul_add, smul_smul, smul_smul, ← mul_assoc, ← mul_assoc, mul_inv_cancel₀ hd0, one_mul,
      one_mul]
    linear_combination (norm := module) (-1 : S.F) • e2
  refine ⟨attrs, ⟨d1, ?_⟩, dh, d3, d4, d5, ?_, ?_⟩
  · intro i d hi hd
    have := dis_eq_pos D (attrs.map some) values (by simp [d1]) (by rw [← map_dis, d2, a5]) i d hi hd
    have hlt : i < attrs.length := by rw [d1]; exact (List.getElem?_eq_some_iff.mp hi).1
    refine ⟨attrs[i], List.getElem?_eq_getElem hlt, ?_⟩
    rw [← this]; simp [hlt]
  · intro p p₂ hp hp₂ hD
    rw [hp, hp₂] at c8
    obtain ⟨e1, e2⟩ := nymPart_inj c8
    exact commit _ _ _ e1 e2 hD
  · intro p p₂ hp hp₂ hD
    rw [hp, hp₂] at c9
    obtain ⟨e1, e2⟩ := nymPart_inj c9
    exact commit _ _ _ e1 e2 hD

end Idemix.Dlog
