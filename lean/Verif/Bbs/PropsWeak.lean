import Verif.Bbs.PropsProof
import Verif.Bbs.PropsCodec

/-!
# C98, violated: the disclosed messages are not hashed

Whoever holds a signature makes a proof that is accepted for other messages than the signed ones, as the messages may be chosen after the
challenge.
-/

namespace Idemix.Bbs

variable {S : Suite} (L : Lib S)

open Ex

/-- A dishonest proof: as `DeriveProofZr`, with `ts` in the second commitment, one scalar for each disclosed message, and no change of the
responses. The second component are the messages for which it is accepted. -/
def Spec.misproof (w : S.G2) (σ : Sig S) (ms : List S.F) (revealed : List Nat) (ρ : PoKRand S) (nonce : Bytes) (ts : List S.F) :
    Res (Bytes × List S.F) := do
  let pk := pkg w ms.length
  let pok := honestPoK σ ms revealed pk ρ
  let pok := { pok with vc2 := { pok.vc2 with commitment := pok.vc2.commitment + S.lin ts (Spec.shown revealed pk.h) } }
  let c := frFromOKM L (pok.toBytes ++ S.zrBytes (frFromOKM L nonce))
  Res.guardErr (c = 0) "try again"
  let payload ← Payload.toBytes ⟨ms.length, revealed.map fun r : Nat => (r : Int)⟩
  pure (payload ++ (pok.respond c).enc, List.zipWith (fun m t => m - c⁻¹ * t) (Spec.shown revealed ms) ts)

/-- **C98 (violated).** Take a signature on some scalars, and any of their positions. The holder of the signature makes proofs for these
positions, with as many responses as there should be, that `VerifyProofFr` accepts for scalars that differ from the signed ones wherever the
holder likes: at the positions where `ts` is not zero. The attempt fails only if the challenge is zero. -/
theorem C98_violated (h32 : S.scalarLen = 32) (hg : S.g1CompLen < 2 ^ 31) (w : S.G2) (rawPk : Bytes)
    (hw : unmarshalPublicKey S rawPk = .ok w) (σ : Sig S) (ms : List S.F) (hn : ms.length ≤ 65535)
    (hv : Spec.Signature w (Spec.generator w ms.length 0) (Spec.generators w ms.length) σ.a σ.e σ.s ms) (revealed : List Nat)
    (hr : ∀ r ∈ revealed, r < ms.length) (ρ : PoKRand S) (hρ : ρ.r1 ≠ 0) (nonce : Bytes) (ts : List S.F)
    (hts : ts.length = (Spec.shown revealed ms).length) :
    Spec.misproof L w σ ms revealed ρ nonce ts = .err "try again" ∨
    ∃ proof claimed, Spec.misproof L w σ ms revealed ρ nonce ts = .ok (proof, claimed) ∧
      verifyProofFr L (claimed.mapIdx fun i m => ⟨m, i⟩) proof nonce rawPk = .ok () ∧
      (∃ rs p, parsePoKPayload proof = .ok (ms.length, rs) ∧ (∀ i, i ∈ rs ↔ i ∈ revealed) ∧
        parseSignatureProof S (proof.drop (2 + ms.length / 8 + 1)) = .ok p ∧ Spec.WellFormed p rs ms.length) ∧
      claimed.length = ts.length ∧
      ∀ (i : Nat) m, (Spec.shown revealed ms)[i]? = some m → (claimed[i]? ≠ some m ↔ ∃ t, ts[i]? = some t ∧ t ≠ 0) := by
  set pk := pkg w ms.length with hpk
  have hl : ms.length = pk.h.length := by simp [hpk]
  have hv' := (valid_iff_signature w ms.length σ ms rfl).mpr hv
  obtain ⟨raw, hraw, hrawl, hparse⟩ := C28_payload_roundtrip ms.length revealed hn hr
  simp only [Spec.misproof, ← hpk, hraw, Res.ok_bind, Res.pure_def]
  set honest := honestPoK σ ms revealed pk ρ with hh
  set pok : PoK S := { honest with vc2 := { honest.vc2 with commitment := honest.vc2.commitment + S.lin ts (Spec.shown revealed pk.h) } }
    with hpok
  set c := frFromOKM L (pok.toBytes ++ S.zrBytes (frFromOKM L nonce)) with hc
  by_cases h0 : c = 0
  · left
    simp [h0]
  right
  simp only [h0, decide_false, Res.guardErr_false, Res.ok_bind]
  set claimed := List.zipWith (fun m t => m - c⁻¹ * t) (Spec.shown revealed ms) ts with hcl
  refine ⟨raw ++ (pok.respond c).enc, claimed, rfl, ?_⟩
  obtain ⟨rs, hrs, hsort, hmem⟩ := hparse (pok.respond c).enc
  have hmem' : ∀ i, i ∈ revealed ↔ i ∈ rs := fun i => (hmem i).symm
  have hlt : ∀ r ∈ rs, r < ms.length := fun r h => hr r ((hmem r).mp h)
  have hk := revealed_length hsort hlt ms rfl
  have hcount : rs.length ≤ ms.length := by
    have := keep_length rs 0 ms
    omega
  have hcountI : (rs.length : Int) ≤ pk.count := by simp only [hpk, pkg_count]; exact_mod_cast hcount
  obtain ⟨s1, s2, s3⟩ := honest_enc_small (show S.scalarLen = frLen from h32) hg σ ms revealed pk ρ c hl (by omega)
  have t1 : (pok.respond c).vc1 = (honest.respond c).vc1 := rfl
  have t2 : (pok.respond c).vc2.responses = (honest.respond c).vc2.responses := rfl
  have hsp := parseSignatureProof_enc (show S.scalarLen = frLen from h32) (pok.respond c) [] (by rw [t1]; exact s1) (by rw [t1]; exact s2)
    (by rw [t2]; exact s3)
  rw [List.append_nil] at hsp
  have hdrop : (raw ++ (pok.respond c).enc).drop (2 + ms.length / 8 + 1) = (pok.respond c).enc := by
    rw [← hrawl, List.drop_left]
  have hshl : (Spec.shown revealed ms).length = rs.length := by
    rw [shown_eq, keepShown_congr hmem', hk]
  have hcll : claimed.length = rs.length := by simp [hcl, hts, hshl]
  have hfr : ∀ xs : List S.F, (xs.mapIdx fun i m => (⟨m, i⟩ : SigMsg S)).map (·.fr) = xs := by
    intro xs; apply List.ext_getElem?; intro i; simp
    cases xs[i]? <;> rfl
  have hgl : (Spec.shown revealed pk.h).length = rs.length := by
    rw [shown_eq, ← keepShown_length_eq revealed 0 hl, ← shown_eq, hshl]
  have eh := keepHidden_length_eq revealed 0 hl
  refine ⟨?_, ⟨rs, pok.respond c, hrs, hmem, by rw [hdrop]; exact hsp, ?_, ?_⟩, by simp [hcl, hts], ?_⟩
  · have hgs := goSlice_mid raw (pok.respond c).enc []
    rw [List.append_nil] at hgs
    have g2 : decide ((claimed.mapIdx fun i m => (⟨m, i⟩ : SigMsg S)).length < rs.length) = false := by simp [hcll]
    have hb : (pok.respond c).bytesForChallenge rs pk = .ok pok.toBytes := by
      have g : decide ((7 + (pk.count - (rs.length : Int))) * (S.g1CompLen : Int) < 0) = false := by
        simp only [decide_eq_false_iff_not, not_lt]
        apply mul_nonneg <;> omega
      simp only [SigProof.bytesForChallenge, g, Res.guardPanic_false, Res.ok_bind, Res.pure_def, PoK.respond,
        PoK.toBytes, Committed.toBytes, hpok, hh, honestPoK, hiddenGens_eq, keepHidden_congr hmem']
      simp [List.append_assoc]
    have hoff : (lenInBytes ((ms.length : Nat) : Int)).toNat = raw.length := by rw [lenInBytes_nat, hrawl]; omega
    simp only [verifyProofFr, hrs, Res.ok_bind, hoff]
    rw [List.length_append, hgs]
    simp only [Res.ok_bind, hsp, hw, toPKG_eq w ms.length (by omega), g2, Res.guardErr_false, ← hpk, hb, nonceBytes, ← hc]
    have H := honest_verifies L.zrOfInt_one σ ms revealed rs pk ρ c ((Spec.shown revealed ms).mapIdx fun i m => ⟨m, i⟩) hl hv' hρ hmem'
      hcountI (by rw [hfr, shown_eq])
    rw [← hh] at H
    have hks : (keepShown rs 0 pk.h).length = rs.length := by rw [← hgl, shown_eq, keepShown_congr hmem']
    have hkh : (keepHidden rs 0 pk.h).length = (keepHidden revealed 0 ms).length := by rw [eh, keepHidden_congr hmem']
    have r2 : (honest.respond c).vc2.responses.length = (keepHidden rs 0 pk.h).length + 1 + 1 := by
      rw [hkh]
      simp [hh, PoK.respond, honestPoK, eh]
    rw [sigProof_verify_ok_iff] at H ⊢
    obtain ⟨H1, H2, H3⟩ := H
    refine ⟨H1, H2, ?_⟩
    rw [defaultVC2Verify_eq L.zrOfInt_one _ _ _ _ _ _ (by omega) (by simp [hks, hshl]), badSignature_ok,
      ProofG1.verify_exact _ _ _ _ (by simp [r2]), hfr] at H3
    rw [defaultVC2Verify_eq L.zrOfInt_one _ _ _ _ _ _ (by omega) (by simp [hks, hcll]), badSignature_ok,
      ProofG1.verify_exact _ _ _ _ (by simp [t2, r2]), hfr]
    have e1 : (pok.respond c).vc2.commitment = (honest.respond c).vc2.commitment + S.lin ts (keepShown rs 0 pk.h) := by
      rw [keepShown_congr (fun i => (hmem' i).symm), ← shown_eq]; rfl
    have e2 : (pok.respond c).d = (honest.respond c).d := rfl
    rw [e1, e2, t2, ← H3]
    have e3 : claimed = List.zipWith (· - ·) (Spec.shown revealed ms) (ts.map (c⁻¹ * ·)) := by
      rw [hcl, List.zipWith_map_right]
    have e4 : S.lin claimed (keepShown rs 0 pk.h) =
        S.lin (Spec.shown revealed ms) (keepShown rs 0 pk.h) - c⁻¹ • S.lin ts (keepShown rs 0 pk.h) := by
      rw [e3, S.lin_sub (by simp [hts]), S.lin_smul]
    simp only [discValue, e4]
    have e5 : S.lin ts (keepShown rs 0 pk.h) = c • c⁻¹ • S.lin ts (keepShown rs 0 pk.h) := by
      rw [smul_smul, mul_inv_cancel₀ h0, one_smul]
    rw [show ∀ x y z : S.G1, x + c • (-(S.genG1 + (y - c⁻¹ • z))) = x + c • (-(S.genG1 + y)) + c • c⁻¹ • z from
      fun x y z => by module, ← e5]
  · rw [t1]
    simp [hh, PoK.respond, honestPoK]
  · have := hidden_count rs ms.length pk.h hl.symm
    rw [t2, ← this]
    rw [keepHidden_congr (fun i => (hmem' i).symm)]
    simp [hh, PoK.respond, honestPoK, eh]
    omega
  · intro i m hm
    have hi : i < ts.length := by rw [hts]; exact (List.getElem?_eq_some_iff.mp hm).1
    rw [hcl, List.getElem?_zipWith, hm, List.getElem?_eq_getElem hi]
    simp [h0, sub_eq_self]

set_option maxRecDepth 40000 in
/-- The holder of the signature of C26 claims another first message. The signature is valid, the claimed scalars differ from the signed ones,
and the proof is accepted for them, and not for the signed ones. -/
example : verify L32 [[1], [2, 3], [4]] ([6] ++ Toy.enc32 2 ++ Toy.enc32 5) (Toy.enc 3) = .ok () ∧
    (match Spec.misproof L32 (3 : Toy.K) ⟨(6 : Toy.K), (2 : Toy.K), (5 : Toy.K)⟩ ([[1], [2, 3], [4]].map (frFromOKM L32)) [2, 0]
        ⟨(3 : Toy.K), (4 : Toy.K), fun i => (i : Nat), fun i => ((i + 2 : Nat) : Toy.K)⟩ [9] [(1 : Toy.K), (0 : Toy.K)] with
      | .ok (proof, claimed) =>
        decide (claimed ≠ Spec.shown [2, 0] ([[1], [2, 3], [4]].map (frFromOKM L32)) ∧
          verifyProofFr L32 (claimed.mapIdx fun i m => ⟨m, i⟩) proof [9] (Toy.enc 3) = .ok () ∧
          verifyProof L32 [[1], [4]] proof [9] (Toy.enc 3) ≠ .ok ())
      | _ => false) = true := by
  refine ⟨by decide, ?_⟩
  decide +kernel

end Idemix.Bbs
