import Verif.Bbs.Select
import Mathlib.Tactic.Abel
import Mathlib.Tactic.FieldSimp

/-!
# BBS+: proofs of knowledge, prover and verifier
-/

namespace Idemix.Bbs

variable {S : Suite} (L : Lib S)

/-! ## Schnorr proofs over a list of bases -/

theorem ProofG1.verify_ok_iff (p : ProofG1 S) (bases : List S.G1) (st : S.G1) (c : S.F) {u : Unit} :
    p.verify bases st c = .ok u ↔
      bases.length ≤ p.responses.length ∧ S.lin (p.responses ++ [c]) (bases ++ [st]) = p.commitment := by
  simp only [ProofG1.verify, Res.bind_eq_ok, Res.guardErr_eq_ok, build_ok_iff, decide_eq_false_iff_not, not_not,
    List.length_append, List.length_singleton]
  constructor
  · rintro ⟨x, ⟨_, h1, h2⟩, h3⟩
    exact ⟨by omega, by rw [← h2]; exact sub_eq_zero.mp h3⟩
  · rintro ⟨h1, h2⟩
    exact ⟨_, ⟨by simp, by omega, rfl⟩, sub_eq_zero.mpr h2⟩

theorem ProofG1.verify_exact (p : ProofG1 S) (bases : List S.G1) (st : S.G1) (c : S.F) {u : Unit}
    (h : p.responses.length = bases.length) :
    p.verify bases st c = .ok u ↔ S.lin p.responses bases + c • st = p.commitment := by
  rw [ProofG1.verify_ok_iff, S.lin_append h]
  simp [h]

theorem lin_response (c : S.F) (blind secrets : List S.F) (h : blind.length = secrets.length) (bases : List S.G1) :
    S.lin (List.zipWith (fun b s => b - c * s) blind secrets) bases = S.lin blind bases - c • S.lin secrets bases := by
  have e : List.zipWith (fun b s => b - c * s) blind secrets =
      List.zipWith (· - ·) blind (secrets.map (c * ·)) := by
    rw [List.zipWith_map_right]
  rw [e, S.lin_sub (by simpa using h), S.lin_smul]

/-- Special soundness of one Schnorr proof: the witness. -/
theorem schnorr_extract {bases : List S.G1} {st t : S.G1} {c₁ c₂ : S.F} {z₁ z₂ : List S.F}
    (h₁ : S.lin z₁ bases + c₁ • st = t) (h₂ : S.lin z₂ bases + c₂ • st = t)
    (l₁ : z₁.length = bases.length) (l₂ : z₂.length = bases.length) (hc : c₁ ≠ c₂) :
    S.lin ((List.zipWith (· - ·) z₁ z₂).map ((c₂ - c₁)⁻¹ * ·)) bases = st := by
  have hd : c₂ - c₁ ≠ 0 := sub_ne_zero.mpr (Ne.symm hc)
  rw [S.lin_smul, S.lin_sub (by omega)]
  have e : S.lin z₁ bases - S.lin z₂ bases = (c₂ - c₁) • st := by
    have := h₁.trans h₂.symm
    rw [sub_smul, sub_eq_sub_iff_add_eq_add, this]
    abel
  rw [e, smul_smul, inv_mul_cancel₀ hd, one_smul]

/-! ## The verifier -/

/-- The value disclosed messages contribute: `g1 · Π_{disclosed} h_i^{m_i}`. -/
def discValue (pk : PKG S) (rs : List Nat) (ms : List S.F) : S.G1 := S.genG1 + S.lin ms (keepShown rs 0 pk.h)

theorem defaultVC2Verify_eq (hone : S.zrOfInt 1 = 1) (c : S.F) (pk : PKG S) (rs : List Nat)
    (messages : List (SigMsg S)) (p : ProofG1 S) (d : S.G1) (h1 : (rs.length : Int) ≤ 2 + pk.count)
    (h2 : (keepShown rs 0 pk.h).length ≤ messages.length) :
    defaultVC2Verify c pk rs messages p d =
      badSignature (p.verify (d :: pk.h0 :: keepHidden rs 0 pk.h) (-discValue pk rs (messages.map (·.fr))) c) := by
  have g : decide (2 + pk.count - (rs.length : Int) < 0) = false := by simp; omega
  simp only [defaultVC2Verify, g, Res.guardPanic_false, Res.ok_bind, splitGens_eq rs 0 pk.h messages h2, zip_sum,
    hone, one_smul, discValue]

theorem sigProof_verify_ok_iff (sp : SigProof S) (v : VC2Verifier S) (c : S.F) (pk : PKG S) (rs : List Nat)
    (messages : List (SigMsg S)) {u : Unit} :
    sp.verify v c pk rs messages = .ok u ↔
      S.pair pk.w sp.aPrime = S.pair S.genG2 sp.aBar ∧
        sp.vc1.verify [sp.aPrime, pk.h0] (sp.aBar - sp.d) c = .ok () ∧ v c pk rs messages sp.vc2 sp.d = .ok u := by
  have hp : compareTwoPairings sp.aPrime pk.w (-sp.aBar) S.genG2 = true ↔
      S.pair pk.w sp.aPrime = S.pair S.genG2 sp.aBar := by
    simp only [compareTwoPairings, map_neg, decide_eq_true_eq, ← sub_eq_add_neg, sub_eq_zero]
  simp only [SigProof.verify, Res.bind_eq_ok, Res.guardErr_eq_ok, badSignature_ok, Bool.not_eq_false', hp]
  constructor
  · rintro ⟨_, h1, _, h2, h3⟩; exact ⟨h1, h2, h3⟩
  · rintro ⟨h1, h2, h3⟩; exact ⟨(), h1, (), h2, h3⟩

/-! ## The prover -/

/-- The proof of knowledge `PoKOfSignatureB` builds. -/
def honestPoK (σ : Sig S) (ms : List S.F) (rs : List Nat) (pk : PKG S) (ρ : PoKRand S) : PoK S :=
  let b := bValue pk σ.s ms
  let aPrime := ρ.r1 • σ.a
  let d := ρ.r1 • b + -ρ.r2 • pk.h0
  let bases2 := d :: pk.h0 :: keepHidden rs 0 pk.h
  { aPrime := aPrime
    aBar := ρ.r1 • b - σ.e • aPrime
    d := d
    vc1 := ⟨[aPrime, pk.h0], blindings 2 ρ.vc1, S.lin (blindings 2 ρ.vc1) [aPrime, pk.h0]⟩
    secrets1 := [-σ.e, ρ.r2]
    vc2 := ⟨bases2, blindings bases2.length ρ.vc2, S.lin (blindings bases2.length ρ.vc2) bases2⟩
    secrets2 := -ρ.r1⁻¹ :: (-(ρ.r2 * ρ.r1⁻¹) + σ.s) :: keepHidden rs 0 ms }

@[simp] theorem blindings_length (n : Nat) (ρ : Nat → S.F) : (blindings n ρ).length = n := by simp [blindings]

theorem finish_eq (bases : List S.G1) (ρ : Nat → S.F) (h : bases ≠ []) :
    finish bases (blindings bases.length ρ) =
      .ok ⟨bases, blindings bases.length ρ, S.lin (blindings bases.length ρ) bases⟩ := by
  rw [finish, build_eq (by simp) h]
  rfl

theorem defaultVC2_eq (d : S.G1) (r3 : S.F) (pk : PKG S) (sPrime : S.F) (messages : List (SigMsg S)) (rs : List Nat)
    (h : InOrder messages) (hl : messages.length = pk.h.length) :
    defaultVC2 d r3 pk sPrime messages (rs.map fun r : Nat => (r : Int)) =
      .ok (d :: pk.h0 :: keepHidden rs 0 pk.h, -r3 :: sPrime :: keepHidden rs 0 (messages.map (·.fr))) := by
  have h0 : ∀ j (hj : j < messages.length), messages[j].idx = ((0 + j : Nat) : Int) := by
    intro j hj; rw [h j hj]; simp
  simp only [defaultVC2, hiddenMsgs_fr messages rs 0 h0]
  rw [msgBases_keepHidden pk rs messages pk.h 0 h0 hl (fun j hj => by simp)]
  simp only [Res.ok_bind, Res.pure_def, keepHidden_map]

theorem revealed_idx (messages : List (SigMsg S)) (rs : List Nat) (h : InOrder messages)
    (hr : ∀ r ∈ rs, r < messages.length) :
    Res.mapM' (fun i => do let m ← Res.index messages i; pure m.idx) (rs.map fun r : Nat => (r : Int)) =
      .ok (rs.map fun r : Nat => (r : Int)) := by
  apply Res.mapM'_map_ok
  intro r hm
  have := hr r hm
  rw [Res.index_nat, List.getElem?_eq_getElem this]
  simp only [Res.deref_some, Res.ok_bind, Res.pure_def, h r this]

theorem pokOfSignatureB_eq (vs : Bool) (σ : Sig S) (messages : List (SigMsg S)) (rs : List Nat) (pk : PKG S)
    (ρ : PoKRand S) (h : InOrder messages) (hl : messages.length = pk.h.length)
    (hr : ∀ r ∈ rs, r < messages.length) (hn : rs.length ≤ messages.length)
    (hv : Valid pk σ (messages.map (·.fr))) :
    pokOfSignatureB defaultVC2 vs σ messages (rs.map fun r : Nat => (r : Int)) pk
      (bValue pk σ.s (messages.map (·.fr))) ρ = .ok (honestPoK σ (messages.map (·.fr)) rs pk ρ) := by
  have hc : checkSig vs σ pk (bValue pk σ.s (messages.map (·.fr))) = .ok () := by
    cases vs
    · rfl
    · exact (verifyWithB_ok_iff σ pk _).mpr hv
  have g : decide (messages.length < rs.length) = false := by simp; omega
  have f1 : finish [ρ.r1 • σ.a, pk.h0] (blindings 2 ρ.vc1) = _ := finish_eq [ρ.r1 • σ.a, pk.h0] ρ.vc1 (by simp)
  simp only [pokOfSignatureB, hc, Res.ok_bind]
  rw [build_eq (by simp) (by simp)]
  simp only [Res.ok_bind, f1, List.length_map, g, Res.guardErr_false, revealed_idx messages rs h hr,
    defaultVC2_eq _ _ pk _ messages rs h hl]
  rw [finish_eq _ _ (by simp)]
  simp only [Res.ok_bind, Res.pure_def, honestPoK, Suite.lin_cons, Suite.lin_nil_left, add_zero]
  rfl

theorem newPoKOfSignature_eq (hone : S.zrOfInt 1 = 1) (σ : Sig S) (messages : List (SigMsg S)) (rs : List Nat)
    (pk : PKG S) (ρ : PoKRand S) (h : InOrder messages) (hl : messages.length = pk.h.length)
    (hr : ∀ r ∈ rs, r < messages.length) (hn : rs.length ≤ messages.length)
    (hv : Valid pk σ (messages.map (·.fr))) :
    newPoKOfSignature σ messages (rs.map fun r : Nat => (r : Int)) pk ρ =
      .ok (honestPoK σ (messages.map (·.fr)) rs pk ρ) := by
  rw [newPoKOfSignature, computeB_inOrder pk hone σ.s messages h hl, Res.ok_bind]
  exact pokOfSignatureB_eq true σ messages rs pk ρ h hl hr hn hv

/-- The proof `GenerateProof` returns. -/
def PoK.respond (p : PoK S) (c : S.F) : SigProof S :=
  ⟨p.aPrime, p.aBar, p.d,
    ⟨p.vc1.commitment, List.zipWith (fun b s => b - c * s) p.vc1.blind p.secrets1⟩,
    ⟨p.vc2.commitment, List.zipWith (fun b s => b - c * s) p.vc2.blind p.secrets2⟩⟩

theorem honest_generateProof (σ : Sig S) (ms : List S.F) (rs : List Nat) (pk : PKG S) (ρ : PoKRand S) (c : S.F)
    (hl : ms.length = pk.h.length) :
    (honestPoK σ ms rs pk ρ).generateProof c = .ok ((honestPoK σ ms rs pk ρ).respond c) := by
  have e := keepHidden_length_eq rs 0 hl
  have g1 : decide ([-σ.e, ρ.r2].length < (blindings 2 ρ.vc1).length) = false := by simp
  have g2 : decide ((honestPoK σ ms rs pk ρ).secrets2.length < (honestPoK σ ms rs pk ρ).vc2.blind.length) = false := by
    simp [honestPoK, e]
  have g1' : decide ((honestPoK σ ms rs pk ρ).secrets1.length < (honestPoK σ ms rs pk ρ).vc1.blind.length) = false := g1
  simp only [PoK.generateProof, Committed.generateProof, g1', g2, Res.guardPanic_false, Res.ok_bind, Res.pure_def,
    PoK.respond]

theorem honest_toBytes (σ : Sig S) (ms : List S.F) (rs rs' : List Nat) (pk : PKG S) (ρ : PoKRand S) (c : S.F)
    (he : ∀ i, i ∈ rs ↔ i ∈ rs') (hc : (rs'.length : Int) ≤ pk.count) :
    ((honestPoK σ ms rs pk ρ).respond c).bytesForChallenge rs' pk = .ok (honestPoK σ ms rs pk ρ).toBytes := by
  have g : decide ((7 + (pk.count - (rs'.length : Int))) * (S.g1CompLen : Int) < 0) = false := by
    simp only [decide_eq_false_iff_not, not_lt]
    apply mul_nonneg <;> omega
  simp only [SigProof.bytesForChallenge, g, Res.guardPanic_false, Res.ok_bind, Res.pure_def, PoK.respond,
    PoK.toBytes, Committed.toBytes, honestPoK, hiddenGens_eq, keepHidden_congr he]
  simp [List.append_assoc]

theorem honest_verifies (hone : S.zrOfInt 1 = 1) (σ : Sig S) (ms : List S.F) (rs rs' : List Nat) (pk : PKG S)
    (ρ : PoKRand S) (c : S.F) (messages : List (SigMsg S)) (hl : ms.length = pk.h.length) (hv : Valid pk σ ms)
    (hr1 : ρ.r1 ≠ 0) (he : ∀ i, i ∈ rs ↔ i ∈ rs') (hc : (rs'.length : Int) ≤ pk.count)
    (hm : messages.map (·.fr) = keepShown rs 0 ms) :
    ((honestPoK σ ms rs pk ρ).respond c).verify defaultVC2Verify c pk rs' messages = .ok () := by
  have hlen : messages.length = (keepShown rs 0 pk.h).length := by
    rw [← keepShown_length_eq rs 0 hl, ← hm, List.length_map]
  have hlen' : (keepShown rs' 0 pk.h).length ≤ messages.length := by
    rw [hlen, keepShown_congr he]
  have eh := keepHidden_length_eq rs 0 hl
  rw [sigProof_verify_ok_iff]
  refine ⟨?_, ?_, ?_⟩
  · simp only [PoK.respond, honestPoK, map_sub, map_smul]
    unfold Valid at hv
    rw [map_add, map_smul, LinearMap.add_apply, LinearMap.smul_apply] at hv
    have : S.pair pk.w σ.a = S.pair S.genG2 (bValue pk σ.s ms) - σ.e • S.pair S.genG2 σ.a := by
      rw [← hv]; abel
    rw [this]
    module
  · rw [ProofG1.verify_exact _ _ _ _ (by simp [PoK.respond, honestPoK])]
    simp only [PoK.respond, honestPoK]
    rw [lin_response _ _ _ (by simp)]
    simp only [Suite.lin_cons, Suite.lin_nil_left]
    module
  · rw [defaultVC2Verify_eq hone _ _ _ _ _ _ (by omega) hlen', badSignature_ok]
    simp only [← keepHidden_congr he, discValue, ← keepShown_congr he, hm]
    rw [ProofG1.verify_exact _ _ _ _ (by simp [PoK.respond, honestPoK, eh])]
    simp only [PoK.respond, honestPoK]
    rw [lin_response _ _ _ (by simp [eh])]
    simp only [Suite.lin_cons]
    have hb : bValue pk σ.s ms = S.genG1 + σ.s • pk.h0 + (S.lin (keepShown rs 0 ms) (keepShown rs 0 pk.h) +
        S.lin (keepHidden rs 0 ms) (keepHidden rs 0 pk.h)) := by rw [bValue, lin_keep rs 0 ms pk.h hl]
    have key : -ρ.r1⁻¹ • (ρ.r1 • bValue pk σ.s ms + -ρ.r2 • pk.h0) =
        -bValue pk σ.s ms + (ρ.r2 * ρ.r1⁻¹) • pk.h0 := by
      rw [smul_add, smul_smul, smul_smul, neg_mul, inv_mul_cancel₀ hr1, neg_one_smul]
      congr 2
      ring
    rw [key, hb]
    module

end Idemix.Bbs
