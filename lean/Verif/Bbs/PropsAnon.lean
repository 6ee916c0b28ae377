import Verif.Bbs.PropsProof
import Verif.Dlog.PropsAnon

/-!
# C65: selective-disclosure proofs hide the signature and the messages that are not revealed
-/

namespace Idemix.Bbs

variable {S : Suite} (L : Lib S)

open Ex Dlog

/-! ## The prover's tape for another signature -/

/-- The proof of knowledge with `off` taken off the second secret: `PoKOfSignatureB` (`off = 0`) or the one made with a
card (`off` the randomness of the pseudonym). -/
def runPoK (σ : Sig S) (ms : List S.F) (rs : List Nat) (pk : PKG S) (off : S.F) (ρ : PoKRand S) : PoK S :=
  { honestPoK σ ms rs pk ρ with
    secrets2 := -ρ.r1⁻¹ :: (-(ρ.r2 * ρ.r1⁻¹) + σ.s - off) :: keepHidden rs 0 ms }

theorem runPoK_zero (σ : Sig S) (ms : List S.F) (rs : List Nat) (pk : PKG S) (ρ : PoKRand S) :
    runPoK σ ms rs pk 0 ρ = honestPoK σ ms rs pk ρ := by
  simp [runPoK, honestPoK]

/-- A prover: signature, signed messages, and what is taken off the second secret. -/
structure Prover (S : Suite) where
  σ : Sig S
  ms : List S.F
  off : S.F

/-- The run of a prover. -/
def Prover.run (u : Prover S) (rs : List Nat) (pk : PKG S) (ρ : PoKRand S) : PoK S := runPoK u.σ u.ms rs pk u.off ρ

/-- The tape with which `u'` makes the proof that `u` makes with `ρ`, for the challenge `c`. -/
noncomputable def retape (pk : PKG S) (rs : List Nat) (c : S.F) (u u' : Prover S) (ρ : PoKRand S) : PoKRand S :=
  let r1 := dl u'.σ.a (ρ.r1 • u.σ.a)
  let r2 := dl pk.h0 (r1 • bValue pk u'.σ.s u'.ms - (ρ.r1 • bValue pk u.σ.s u.ms - ρ.r2 • pk.h0))
  let ρ' : PoKRand S := ⟨r1, r2, ρ.vc1, ρ.vc2⟩
  ⟨r1, r2,
    fun i => ρ.vc1 i - c * (u.run rs pk ρ).secrets1.getD i 0 + c * (u'.run rs pk ρ').secrets1.getD i 0,
    fun i => ρ.vc2 i - c * (u.run rs pk ρ).secrets2.getD i 0 + c * (u'.run rs pk ρ').secrets2.getD i 0⟩

/-- Two provers with valid signatures that differ in nothing a verifier sees. -/
structure Alike (pk : PKG S) (rs : List Nat) (u u' : Prover S) : Prop where
  h0 : pk.h0 ≠ 0
  a : u.σ.a ≠ 0
  a' : u'.σ.a ≠ 0
  len : u.ms.length = pk.h.length
  len' : u'.ms.length = pk.h.length
  valid : Valid pk u.σ u.ms
  valid' : Valid pk u'.σ u'.ms
  shown : u.off • pk.h0 + S.lin (keepShown rs 0 u.ms) (keepShown rs 0 pk.h) =
    u'.off • pk.h0 + S.lin (keepShown rs 0 u'.ms) (keepShown rs 0 pk.h)

theorem Alike.symm {pk : PKG S} {rs : List Nat} {u u' : Prover S} (h : Alike pk rs u u') : Alike pk rs u' u :=
  ⟨h.h0, h.a', h.a, h.len', h.len, h.valid', h.valid, h.shown.symm⟩

section

variable {pk : PKG S} {rs : List Nat} {u u' : Prover S} {c : S.F} {ρ : PoKRand S}

theorem retape_r1 (h : Alike pk rs u u') (hr : ρ.r1 ≠ 0) : (retape pk rs c u u' ρ).r1 ≠ 0 := by
  intro h0
  have := dl_spec h.a' (ρ.r1 • u.σ.a)
  change (retape pk rs c u u' ρ).r1 • u'.σ.a = _ at this
  rw [h0, zero_smul] at this
  exact h.a (S.smul_right_inj hr (by rw [smul_zero, ← this]))

theorem run_secrets1 (u : Prover S) (ρ ρ' : PoKRand S) (h2 : ρ.r2 = ρ'.r2) :
    (u.run rs pk ρ).secrets1 = (u.run rs pk ρ').secrets1 := by
  simp [Prover.run, runPoK, honestPoK, h2]

theorem run_secrets2 (u : Prover S) (ρ ρ' : PoKRand S) (h1 : ρ.r1 = ρ'.r1) (h2 : ρ.r2 = ρ'.r2) :
    (u.run rs pk ρ).secrets2 = (u.run rs pk ρ').secrets2 := by
  simp [Prover.run, runPoK, h1, h2]

theorem run_aBar (h : Valid pk u.σ u.ms) :
    S.pair S.genG2 (u.run rs pk ρ).aBar = S.pair pk.w (u.run rs pk ρ).aPrime := by
  unfold Valid at h
  simp only [map_add, map_smul, LinearMap.add_apply, LinearMap.smul_apply] at h
  simp only [Prover.run, runPoK, honestPoK, map_sub, map_smul]
  rw [← h]
  module

theorem run_lin1 (u : Prover S) (ρ : PoKRand S) :
    S.lin (u.run rs pk ρ).secrets1 (u.run rs pk ρ).vc1.bases = (u.run rs pk ρ).aBar - (u.run rs pk ρ).d := by
  simp only [Prover.run, runPoK, honestPoK, Suite.lin_cons, Suite.lin_nil_left]
  module

theorem run_lin2 (hl : u.ms.length = pk.h.length) (hr : ρ.r1 ≠ 0) :
    S.lin (u.run rs pk ρ).secrets2 (u.run rs pk ρ).vc2.bases =
      -(S.genG1 + (u.off • pk.h0 + S.lin (keepShown rs 0 u.ms) (keepShown rs 0 pk.h))) := by
  simp only [Prover.run, runPoK, honestPoK, Suite.lin_cons]
  have hb : bValue pk u.σ.s u.ms = S.genG1 + u.σ.s • pk.h0 + (S.lin (keepShown rs 0 u.ms) (keepShown rs 0 pk.h) +
      S.lin (keepHidden rs 0 u.ms) (keepHidden rs 0 pk.h)) := by rw [bValue, lin_keep rs 0 u.ms pk.h hl]
  have key : -ρ.r1⁻¹ • (ρ.r1 • bValue pk u.σ.s u.ms + -ρ.r2 • pk.h0) =
      -bValue pk u.σ.s u.ms + (ρ.r2 * ρ.r1⁻¹) • pk.h0 := by
    rw [smul_add, smul_smul, smul_smul, neg_mul, inv_mul_cancel₀ hr, neg_one_smul]
    congr 2
    ring
  rw [key, hb]
  module

/-- Shifting the masks by the change of the secrets keeps the responses. -/
theorem shift_responses (n : Nat) (f : Nat → S.F) (s s' : List S.F) (h : s.length = n) (h' : s'.length = n) :
    List.zipWith (fun b x => b - c * x) (blindings n fun i => f i - c * s.getD i 0 + c * s'.getD i 0) s' =
      List.zipWith (fun b x => b - c * x) (blindings n f) s := by
  apply List.ext_getElem
  · simp [h, h']
  · intro i h1 h2
    simp only [List.length_zipWith, blindings_length] at h1 h2
    have l : i < s.length := by omega
    have l' : i < s'.length := by omega
    simp [blindings, List.getD_eq_getElem?_getD, List.getElem?_eq_getElem l, List.getElem?_eq_getElem l']

/-- With the shifted tape the other prover shows the same things. -/
theorem retape_same (h : Alike pk rs u u') (hr : ρ.r1 ≠ 0) :
    let p := u.run rs pk ρ
    let p' := u'.run rs pk (retape pk rs c u u' ρ)
    p'.d = p.d ∧ p'.toBytes = p.toBytes ∧ p'.respond c = p.respond c := by
  intro p p'
  obtain ⟨ρ', hρ'⟩ : ∃ ρ', ρ' = retape pk rs c u u' ρ := ⟨_, rfl⟩
  have hp' : p' = u'.run rs pk ρ' := by rw [hρ']
  have hr' : ρ'.r1 ≠ 0 := by rw [hρ']; exact retape_r1 h hr
  have eA : p'.aPrime = p.aPrime := by
    rw [hp', hρ']; exact dl_spec h.a' _
  have eD : p'.d = p.d := by
    have : ρ'.r2 • pk.h0 = ρ'.r1 • bValue pk u'.σ.s u'.ms - (ρ.r1 • bValue pk u.σ.s u.ms - ρ.r2 • pk.h0) := by
      rw [hρ']; exact dl_spec h.h0 _
    rw [hp']
    change ρ'.r1 • bValue pk u'.σ.s u'.ms + -ρ'.r2 • pk.h0 = ρ.r1 • bValue pk u.σ.s u.ms + -ρ.r2 • pk.h0
    rw [neg_smul, this]
    module
  have eB : p'.aBar = p.aBar := by
    apply S.pair_gen_inj
    rw [hp', run_aBar h.valid', ← hp', eA, run_aBar h.valid]
  have b1 : p'.vc1.bases = p.vc1.bases := by
    rw [hp'] at eA ⊢
    change [(u'.run rs pk ρ').aPrime, pk.h0] = [p.aPrime, pk.h0]
    rw [eA]
  have b2 : p'.vc2.bases = p.vc2.bases := by
    rw [hp'] at eD ⊢
    change (u'.run rs pk ρ').d :: pk.h0 :: keepHidden rs 0 pk.h = p.d :: pk.h0 :: keepHidden rs 0 pk.h
    rw [eD]
  have s1 : p'.secrets1 = (u'.run rs pk ⟨ρ'.r1, ρ'.r2, ρ.vc1, ρ.vc2⟩).secrets1 := by
    rw [hp']; exact run_secrets1 u' _ _ rfl
  have s2 : p'.secrets2 = (u'.run rs pk ⟨ρ'.r1, ρ'.r2, ρ.vc1, ρ.vc2⟩).secrets2 := by
    rw [hp']; exact run_secrets2 u' _ _ rfl rfl
  have k1 : p'.vc1.blind = blindings 2 fun i => ρ.vc1 i - c * p.secrets1.getD i 0 + c * p'.secrets1.getD i 0 := by
    rw [s1, hp', hρ']; rfl
  have hk : keepHidden rs 0 pk.h = keepHidden rs 0 pk.h := rfl
  have k2 : p'.vc2.blind = blindings ((keepHidden rs 0 pk.h).length + 2)
      fun i => ρ.vc2 i - c * p.secrets2.getD i 0 + c * p'.secrets2.getD i 0 := by
    rw [s2, hp', hρ']; rfl
  have l1 : p.secrets1.length = 2 := rfl
  have l1' : p'.secrets1.length = 2 := by rw [hp']; rfl
  have l2 : p.secrets2.length = (keepHidden rs 0 pk.h).length + 2 := by
    change (keepHidden rs 0 u.ms).length + 1 + 1 = _
    rw [keepHidden_length_eq rs 0 h.len]
  have l2' : p'.secrets2.length = (keepHidden rs 0 pk.h).length + 2 := by
    rw [hp']
    change (keepHidden rs 0 u'.ms).length + 1 + 1 = _
    rw [keepHidden_length_eq rs 0 h.len']
  have r1 : List.zipWith (fun b x => b - c * x) p'.vc1.blind p'.secrets1 =
      List.zipWith (fun b x => b - c * x) p.vc1.blind p.secrets1 := by
    rw [k1, shift_responses 2 ρ.vc1 _ _ l1 l1']; rfl
  have r2 : List.zipWith (fun b x => b - c * x) p'.vc2.blind p'.secrets2 =
      List.zipWith (fun b x => b - c * x) p.vc2.blind p.secrets2 := by
    rw [k2, shift_responses _ ρ.vc2 _ _ l2 l2']; rfl
  have n1 : S.lin p'.secrets1 p'.vc1.bases = S.lin p.secrets1 p.vc1.bases := by
    have a := run_lin1 (rs := rs) (pk := pk) u ρ
    have b := run_lin1 (rs := rs) (pk := pk) u' ρ'
    rw [← hp', eB, eD] at b
    rw [b]; exact a.symm
  have n2 : S.lin p'.secrets2 p'.vc2.bases = S.lin p.secrets2 p.vc2.bases := by
    have a := run_lin2 (rs := rs) h.len hr
    have b := run_lin2 (rs := rs) h.len' hr'
    rw [← hp', ← h.shown] at b
    rw [b]; exact a.symm
  have q1 : ∀ (q : PoK S) (bl : q.vc1.blind.length = q.secrets1.length) , S.lin q.vc1.blind q.vc1.bases =
      S.lin (List.zipWith (fun b x => b - c * x) q.vc1.blind q.secrets1) q.vc1.bases +
        c • S.lin q.secrets1 q.vc1.bases := by
    intro q bl; rw [lin_response _ _ _ bl]; abel
  have q2 : ∀ (q : PoK S) (bl : q.vc2.blind.length = q.secrets2.length) , S.lin q.vc2.blind q.vc2.bases =
      S.lin (List.zipWith (fun b x => b - c * x) q.vc2.blind q.secrets2) q.vc2.bases +
        c • S.lin q.secrets2 q.vc2.bases := by
    intro q bl; rw [lin_response _ _ _ bl]; abel
  have c1 : p'.vc1.commitment = p.vc1.commitment := by
    have e : p'.vc1.commitment = S.lin p'.vc1.blind p'.vc1.bases := by rw [hp']; rfl
    rw [e, q1 p' (by rw [k1, l1']; simp), r1, n1, b1, ← q1 p rfl]
    rfl
  have c2 : p'.vc2.commitment = p.vc2.commitment := by
    have e : p'.vc2.commitment = S.lin p'.vc2.blind p'.vc2.bases := by rw [hp']; rfl
    have e' : p.vc2.blind.length = p.secrets2.length := by
      rw [l2]; exact blindings_length _ _
    rw [e, q2 p' (by rw [k2, l2']; simp), r2, n2, b2, ← q2 p e']
    rfl
  refine ⟨eD, ?_, ?_⟩
  · simp only [PoK.toBytes, Committed.toBytes, eB, b1, b2, c1, c2]
  · simp only [PoK.respond, eA, eB, eD, c1, c2, r1, r2]

theorem retape_retape (h : Alike pk rs u u') :
    retape pk rs c u' u (retape pk rs c u u' ρ) = ρ := by
  obtain ⟨ρ', hρ'⟩ : ∃ ρ', ρ' = retape pk rs c u u' ρ := ⟨_, rfl⟩
  have e1 : ρ'.r1 • u'.σ.a = ρ.r1 • u.σ.a := by rw [hρ']; exact dl_spec h.a' _
  have d1 : dl u.σ.a (ρ'.r1 • u'.σ.a) = ρ.r1 := dl_unique h.a e1.symm
  have e2 : ρ'.r2 • pk.h0 = ρ'.r1 • bValue pk u'.σ.s u'.ms - (ρ.r1 • bValue pk u.σ.s u.ms - ρ.r2 • pk.h0) := by
    rw [hρ']; exact dl_spec h.h0 _
  have d2 : dl pk.h0 (ρ.r1 • bValue pk u.σ.s u.ms - (ρ'.r1 • bValue pk u'.σ.s u'.ms - ρ'.r2 • pk.h0)) = ρ.r2 := by
    apply dl_unique h.h0; rw [e2]; abel
  have v1 : ∀ i, ρ'.vc1 i = ρ.vc1 i - c * (u.run rs pk ρ).secrets1.getD i 0 +
      c * (u'.run rs pk ρ').secrets1.getD i 0 := by
    intro i
    rw [run_secrets1 u' ρ' ⟨ρ'.r1, ρ'.r2, ρ.vc1, ρ.vc2⟩ rfl, hρ']; rfl
  have v2 : ∀ i, ρ'.vc2 i = ρ.vc2 i - c * (u.run rs pk ρ).secrets2.getD i 0 +
      c * (u'.run rs pk ρ').secrets2.getD i 0 := by
    intro i
    rw [run_secrets2 u' ρ' ⟨ρ'.r1, ρ'.r2, ρ.vc1, ρ.vc2⟩ rfl rfl, hρ']; rfl
  rw [← hρ']
  cases ρ with
  | mk a1 a2 a3 a4 =>
  simp only at *
  simp only [retape, d1, d2]
  rw [PoKRand.mk.injEq]
  refine ⟨rfl, rfl, ?_, ?_⟩
  · funext i
    rw [v1, run_secrets1 u (⟨a1, a2, ρ'.vc1, ρ'.vc2⟩ : PoKRand S) ⟨a1, a2, a3, a4⟩ rfl]
    ring
  · funext i
    rw [v2, run_secrets2 u (⟨a1, a2, ρ'.vc1, ρ'.vc2⟩ : PoKRand S) ⟨a1, a2, a3, a4⟩ rfl rfl]
    ring

end

/-! ## C65 -/

/-- The prover's random choices: `r1` must not be zero, and the two mask streams hold one mask per secret: for the
signature's exponent and `r2`, and for `r3`, `s'` and the messages not revealed. Entries that are never read are zero, so
that two different tapes are two different sequences of random choices. -/
def Spec.Tape (n : Nat) (revealed : List Nat) (ρ : PoKRand S) : Prop :=
  ρ.r1 ≠ 0 ∧ (∀ i, 2 ≤ i → ρ.vc1 i = 0) ∧
    ∀ i, 2 + ((List.range n).filter fun i => !revealed.contains i).length ≤ i → ρ.vc2 i = 0

theorem run_lengths {pk : PKG S} {rs : List Nat} {u : Prover S} (hl : u.ms.length = pk.h.length) (ρ : PoKRand S) :
    (u.run rs pk ρ).secrets1.length = 2 ∧
      (u.run rs pk ρ).secrets2.length = 2 + ((List.range pk.h.length).filter fun i => !rs.contains i).length := by
  refine ⟨rfl, ?_⟩
  rw [← hidden_count rs pk.h.length pk.h rfl]
  change (keepHidden rs 0 u.ms).length + 1 + 1 = _
  rw [keepHidden_length_eq rs 0 hl]
  omega

theorem getD_beyond (l : List S.F) {n i : Nat} (h : l.length = n) (hi : n ≤ i) : l.getD i 0 = 0 := by
  rw [List.getD_eq_getElem?_getD, List.getElem?_eq_none (by omega)]; rfl

theorem retape_tape {pk : PKG S} {rs : List Nat} {u u' : Prover S} {c : S.F} {ρ : PoKRand S} (h : Alike pk rs u u')
    (ht : Spec.Tape pk.h.length rs ρ) : Spec.Tape pk.h.length rs (retape pk rs c u u' ρ) := by
  obtain ⟨t1, t2, t3⟩ := ht
  refine ⟨retape_r1 h t1, ?_, ?_⟩
  · intro i hi
    simp only [retape]
    rw [t2 i hi, getD_beyond _ (run_lengths h.len _).1 hi, getD_beyond _ (run_lengths h.len' _).1 hi]
    ring
  · intro i hi
    simp only [retape]
    rw [t3 i hi, getD_beyond _ (run_lengths h.len _).2 hi, getD_beyond _ (run_lengths h.len' _).2 hi]
    ring

/-- The bijection between the tapes of two provers, for challenges computed from what they show. -/
noncomputable def tapeEquiv {pk : PKG S} {rs : List Nat} {u u' : Prover S} (h : Alike pk rs u u') (H : Bytes → S.F) :
    {ρ : PoKRand S // Spec.Tape pk.h.length rs ρ} ≃ {ρ : PoKRand S // Spec.Tape pk.h.length rs ρ} where
  toFun ρ := ⟨retape pk rs (H (u.run rs pk ρ.1).toBytes) u u' ρ.1, retape_tape h ρ.2⟩
  invFun ρ := ⟨retape pk rs (H (u'.run rs pk ρ.1).toBytes) u' u ρ.1, retape_tape h.symm ρ.2⟩
  left_inv ρ := Subtype.ext (by
    simp only [(retape_same (c := H (u.run rs pk ρ.1).toBytes) h ρ.2.1).2.1]
    exact retape_retape h)
  right_inv ρ := Subtype.ext (by
    simp only [(retape_same (c := H (u'.run rs pk ρ.1).toBytes) h.symm ρ.2.1).2.1]
    exact retape_retape h.symm)

/-- What `DeriveProofZr` returns for an honest prover. -/
theorem deriveProofZr_eq (h32 : S.scalarLen = frLen) (hg : S.g1CompLen < 2 ^ 31) (n : Nat) (hn : n ≤ 0xFFFF)
    (revealed : List Nat) (h0 : revealed ≠ []) (hlen : revealed.length ≤ n) (hr : ∀ r ∈ revealed, r < n) :
    ∃ payload, ∀ (messages : List (SigMsg S)) (_ : InOrder messages) (_ : messages.length = n) (rawSig nonce rawPk : Bytes)
      (σ : Sig S) (w : S.G2) (_ : parseSignature S rawSig = .ok σ) (_ : unmarshalPublicKey S rawPk = .ok w)
      (_ : Valid (pkg w n) σ (messages.map (·.fr))) (ρ : PoKRand S),
      deriveProofZr L messages rawSig nonce rawPk (revealed.map fun r : Nat => (r : Int)) ρ =
        .ok (payload ++ ((honestPoK σ (messages.map (·.fr)) revealed (pkg w n) ρ).respond
          (frFromOKM L ((honestPoK σ (messages.map (·.fr)) revealed (pkg w n) ρ).toBytes ++ nonceBytes L nonce))).enc) := by
  set rs := revealed.insertionSort (· ≤ ·) with hrs
  have hmem : ∀ i, i ∈ rs ↔ i ∈ revealed := fun i => List.mem_insertionSort (r := (· ≤ ·))
  have hrs' : ∀ r ∈ rs, r < n := fun r hr' => hr r ((hmem r).mp hr')
  have hrl : rs.length ≤ n := by rw [hrs, List.length_insertionSort]; exact hlen
  obtain ⟨bv, pe, pl, pf⟩ := payload_toBytes n rs hn (fun r hr' => by have := hrs' r hr'; omega)
  refine ⟨beBytes 2 n ++ bv.reverse, ?_⟩
  intro messages h hmn rawSig nonce rawPk σ w hσ hw hv ρ
  subst hmn
  have hl : (messages.map (·.fr)).length = (pkg w messages.length).h.length := by simp
  have hpok := newPoKOfSignature_eq L.zrOfInt_one σ messages rs (pkg w messages.length) ρ h (by simp) hrs' hrl hv
  have hcong : honestPoK σ (messages.map (·.fr)) rs (pkg w messages.length) ρ =
      honestPoK σ (messages.map (·.fr)) revealed (pkg w messages.length) ρ := by
    simp only [honestPoK, keepHidden_congr hmem]
  rw [hcong] at hpok
  set pok := honestPoK σ (messages.map (·.fr)) revealed (pkg w messages.length) ρ with hpk
  set c := frFromOKM L (pok.toBytes ++ nonceBytes L nonce) with hc
  have hgen : pok.generateProof c = .ok (pok.respond c) :=
    honest_generateProof σ _ revealed (pkg w messages.length) ρ c hl
  obtain ⟨s1, s2, s3⟩ := honest_enc_small h32 hg σ _ revealed (pkg w messages.length) ρ c hl (by simpa using hn)
  have henc : (pok.respond c).toBytes = .ok (pok.respond c).enc := SigProof.toBytes_eq _ s1 s2 s3
  have g : decide ((revealed.map fun r : Nat => (r : Int)).length = 0) = false := by
    simpa using h0
  simp only [deriveProofZr, g, Res.guardErr_false, Res.ok_bind, insertionSort_cast, ← hrs, hw, hσ,
    toPKG_eq w messages.length (by omega), hpok]
  rw [hgen, pe]
  simp only [Res.ok_bind, henc, Res.pure_def]

/-- **C65.** Two holders of signatures under one public key on equally many messages that agree on the revealed ones:
there is a bijection of the random choices of `DeriveProof` under which both derive the identical proof. So for
uniformly random choices the proof says nothing about the signature and the messages that are not revealed, beyond
their number. -/
theorem C65_hidden_messages_hidden (h32 : S.scalarLen = 32) (hg : S.g1CompLen < 2 ^ 31) (messages₁ messages₂ : List Bytes)
    (n : Nat) (h₁ : messages₁.length = n) (h₂ : messages₂.length = n) (hn : n ≤ 65535) (rawSig₁ rawSig₂ nonce rawPk : Bytes)
    (hv₁ : verify L messages₁ rawSig₁ rawPk = .ok ()) (hv₂ : verify L messages₂ rawSig₂ rawPk = .ok ())
    (revealed : List Nat) (h0 : revealed ≠ []) (hlen : revealed.length ≤ n) (hr : ∀ r ∈ revealed, r < n)
    (agree : ∀ r ∈ revealed, messages₁[r]? = messages₂[r]?)
    (hpk : ∀ w, unmarshalPublicKey S rawPk = .ok w → Spec.generator w n 0 ≠ 0)
    (ha₁ : ∀ σ, parseSignature S rawSig₁ = .ok σ → σ.a ≠ 0) (ha₂ : ∀ σ, parseSignature S rawSig₂ = .ok σ → σ.a ≠ 0) :
    ∃ φ : {ρ : PoKRand S // Spec.Tape n revealed ρ} ≃ {ρ : PoKRand S // Spec.Tape n revealed ρ}, ∀ ρ, ∃ proof,
      deriveProof L messages₁ rawSig₁ nonce rawPk (revealed.map fun r : Nat => (r : Int)) ρ.1 = .ok proof ∧
      deriveProof L messages₂ rawSig₂ nonce rawPk (revealed.map fun r : Nat => (r : Int)) (φ ρ).1 = .ok proof := by
  obtain ⟨σ₁, w, hσ₁, hw, v₁⟩ := (verify_ok_iff L _ _ _ (by omega)).mp hv₁
  obtain ⟨σ₂, w', hσ₂, hw', v₂⟩ := (verify_ok_iff L _ _ _ (by omega)).mp hv₂
  rw [hw] at hw'
  obtain rfl := Res.ok.inj hw'
  rw [h₁] at v₁
  rw [h₂] at v₂
  have hsh : keepShown revealed 0 messages₁ = keepShown revealed 0 messages₂ := by
    have key : ∀ (xs ys : List Bytes) i, xs.length = ys.length → (∀ r ∈ revealed, i ≤ r → xs[r - i]? = ys[r - i]?) →
        keepShown revealed i xs = keepShown revealed i ys := by
      intro xs
      induction xs with
      | nil => intro ys i hl _; cases ys <;> simp_all
      | cons x xs ih =>
        intro ys i hl hh
        cases ys with
        | nil => simp at hl
        | cons y ys =>
          rw [keepShown, keepShown, ih ys (i + 1) (by simpa using hl) (fun r hr' hi => by
            have := hh r hr' (by omega)
            rwa [show r - i = (r - (i + 1)) + 1 by omega, List.getElem?_cons_succ, List.getElem?_cons_succ] at this)]
          by_cases hi : i ∈ revealed
          · have := hh i hi (Nat.le_refl _)
            simp only [Nat.sub_self, List.getElem?_cons_zero, Option.some.injEq] at this
            rw [this]
          · simp [hi]
    exact key _ _ 0 (by omega) (fun r hr' _ => by simpa using agree r hr')
  let u₁ : Prover S := ⟨σ₁, (messagesToFr L messages₁).map (·.fr), 0⟩
  let u₂ : Prover S := ⟨σ₂, (messagesToFr L messages₂).map (·.fr), 0⟩
  have hal : Alike (pkg w n) revealed u₁ u₂ := by
    refine ⟨hpk w hw, ha₁ _ hσ₁, ha₂ _ hσ₂, by simp [u₁, h₁], by simp [u₂, h₂], ?_, ?_, ?_⟩
    · simpa [u₁, messagesToFr_fr] using v₁
    · simpa [u₂, messagesToFr_fr] using v₂
    · simp only [u₁, u₂, messagesToFr_fr, keepShown_map, hsh]
  have hpl : (pkg w n).h.length = n := by simp
  obtain ⟨payload, hp⟩ := deriveProofZr_eq L h32 hg n hn revealed h0 hlen hr
  have key : ∃ φ : {ρ : PoKRand S // Spec.Tape (pkg w n).h.length revealed ρ} ≃
      {ρ : PoKRand S // Spec.Tape (pkg w n).h.length revealed ρ}, ∀ ρ, ∃ proof,
      deriveProof L messages₁ rawSig₁ nonce rawPk (revealed.map fun r : Nat => (r : Int)) ρ.1 = .ok proof ∧
      deriveProof L messages₂ rawSig₂ nonce rawPk (revealed.map fun r : Nat => (r : Int)) (φ ρ).1 = .ok proof := by
    refine ⟨tapeEquiv hal (fun b => frFromOKM L (b ++ nonceBytes L nonce)), fun ρ => ⟨_, hp _
      (messagesToFr_inOrder L messages₁) (by simpa using h₁) rawSig₁ nonce rawPk σ₁ w hσ₁ hw hal.valid ρ.1, ?_⟩⟩
    obtain ⟨_, q1, q2⟩ := retape_same (c := frFromOKM L ((u₁.run revealed (pkg w n) ρ.1).toBytes ++ nonceBytes L nonce))
      hal ρ.2.1
    have := hp _ (messagesToFr_inOrder L messages₂) (by simpa using h₂) rawSig₂ nonce rawPk σ₂ w hσ₂ hw hal.valid'
      (tapeEquiv hal (fun b => frFromOKM L (b ++ nonceBytes L nonce)) ρ).1
    rw [deriveProof, this]
    have r1 : ∀ τ, honestPoK σ₁ ((messagesToFr L messages₁).map (·.fr)) revealed (pkg w n) τ =
      u₁.run revealed (pkg w n) τ := fun τ => (runPoK_zero _ _ _ _ _).symm
    have r2 : ∀ τ, honestPoK σ₂ ((messagesToFr L messages₂).map (·.fr)) revealed (pkg w n) τ =
      u₂.run revealed (pkg w n) τ := fun τ => (runPoK_zero _ _ _ _ _).symm
    rw [r1, r2]
    simp only [tapeEquiv, Equiv.coe_fn_mk]
    rw [q1, q2]
  rw [hpl] at key
  exact key

set_option maxRecDepth 40000 in
example : ∃ φ : {ρ : PoKRand Toy.suite32 // Spec.Tape 3 [2, 0] ρ} ≃ {ρ : PoKRand Toy.suite32 // Spec.Tape 3 [2, 0] ρ},
    ∀ ρ, ∃ proof,
      deriveProof L32 [[1], [2, 3], [4]] ([6] ++ Toy.enc32 2 ++ Toy.enc32 5) [9] (Toy.enc 3) [2, 0] ρ.1 = .ok proof ∧
      deriveProof L32 [[1], [2], [4]] ([3] ++ Toy.enc32 2 ++ Toy.enc32 5) [9] (Toy.enc 3) [2, 0] (φ ρ).1 = .ok proof :=
  C65_hidden_messages_hidden L32 rfl (by decide) [[1], [2, 3], [4]] [[1], [2], [4]] 3 rfl rfl (by decide) _ _ _ _
    (by decide) (by decide) [2, 0] (by decide) (by decide) (by decide) (by decide)
    (fun w h => by
      obtain rfl := Res.ok.inj (h.symm.trans (rfl : _ = Res.ok (3 : Toy.K)))
      decide)
    (fun σ h => by
      obtain rfl := Res.ok.inj (h.symm.trans (rfl : _ = Res.ok (⟨(6 : Toy.K), (2 : Toy.K), (5 : Toy.K)⟩ : Sig Toy.suite32)))
      decide)
    (fun σ h => by
      obtain rfl := Res.ok.inj (h.symm.trans (rfl : _ = Res.ok (⟨(3 : Toy.K), (2 : Toy.K), (5 : Toy.K)⟩ : Sig Toy.suite32)))
      decide)

/-- A tape. -/
example : Spec.Tape (S := Toy.suite32) 3 [2, 0] ⟨(3 : Toy.K), (4 : Toy.K), fun i => if i < 2 then (i : Toy.K) else 0,
    fun i => if i < 3 then ((i + 2 : Nat) : Toy.K) else 0⟩ := by
  refine ⟨by decide, fun i hi => if_neg (by omega), fun i hi => if_neg ?_⟩
  have : 2 + ((List.range 3).filter fun i => ![2, 0].contains i).length = 3 := rfl
  omega

end Idemix.Bbs
