import Verif.Aries.SignProve

/-!
# Aries signatures: the verifier's run on an honest signature
-/

namespace Idemix.Aries

open Bbs
open Dlog (SigType VerType AuditData SignerMetadata)

variable {S : Suite} (L : Lib S)

theorem pairProof_parse (h32 : S.scalarLen = frLen) (h0 h : S.G1) (t0 t1 c r v : S.F) :
    parseProofG1 S (pairProof h0 h t0 t1 c r v).enc = .ok (pairProof h0 h t0 t1 c r v) := by
  have := parseProofG1_enc h32 (pairProof h0 h t0 t1 c r v) [] (by simp [pairProof])
  rwa [List.append_nil] at this

theorem enc_isEmpty (h32 : S.scalarLen = frLen) (p : ProofG1 S) : p.enc.isEmpty = false := by
  have := p.enc_length h32
  cases h : p.enc with
  | nil => rw [h, List.length_nil] at this; omega
  | cons => rfl

theorem point_isEmpty (hg1 : 0 < S.g1Len) (P : S.G1) : (S.g1Bytes P).isEmpty = false := by
  have := S.g1Bytes_len P
  cases h : S.g1Bytes P with
  | nil => rw [h, List.length_nil] at this; omega
  | cons => rfl

theorem rank_le (rs : List Nat) (e : Nat) : rank rs e ≤ e := by
  have := keep_length rs 0 (List.range e)
  simp only [rank]
  simp only [List.length_range] at this
  omega

/-- The verifier's metadata check of an honest commitment. -/
theorem audit_own (pk : PKG S) (b : Bool) (e : Nat) (H : S.G1) (hH : pk.h[e]? = some H) (idx : Int) (hi : idx = e)
    (p : ProofG1 S) (a : AttrComm S) (v : S.F) (ha : a.comm = a.r • pk.h0 + v • H) (md : Option (SignerMetadata S))
    (data : SignerMetadata S → Option (AuditData S)) (raw : SignerMetadata S → Bytes)
    (hd : ∀ m, md = some m → data m = none ∨ data m = auditOf (if b then some a else none) v)
    (hr : ∀ m, md = some m → raw m = []) :
    audit pk idx (if b then some (p, a.comm) else none) md data raw = .ok () := by
  subst hi
  cases b with
  | false => rfl
  | true =>
    cases md with
    | none => rfl
    | some m =>
      simp only [audit, if_true, hr m rfl, auditBytes]
      rcases hd m rfl with h | h <;> rw [h]
      · rfl
      · have g : decide (v • H + a.r • pk.h0 ≠ a.comm) = false := by
          rw [ha, add_comm]; simp
        simp only [auditOf, if_true, Option.map_some, auditData, Res.index_nat, hH, Res.deref_some, Res.ok_bind, g,
          Res.guardErr_false, ne_eq, not_true_eq_false, decide_false]

/-- The verifier's run. The commitments may be made with generators (`be`, `br`) other than those of the attributes
(`e`, `r`) whose values they contain. -/
theorem verify_honest (h32 : S.scalarLen = frLen) (hg1 : 0 < S.g1Len) (w : S.G2) (n k e r be br : Nat) (hn : n + 1 ≤ 65535)
    (payload label msg : Bytes)
    (cri : CRI) (attributes : List IdemixAttribute) (sk rNym mE mR rE rR : S.F) (Hk He Hr : S.G1) (vals : List S.F)
    (rs rs' : List Nat) (pok : PoK S) (eidIndex rhIndex : Int) (t : SigType) (v : VerType) (ρ : SignRand S)
    (ms : List (SigMsg S)) (hm : Spec.Matches t v) (hcri : cri.Wire) (halg : cri.alg = 0)
    (hon : Honest (pkg w (n + 1)) vals rs pok)
    (hmsgs : attributesToSignatureMessage L attributes k = .ok ms)
    (hse : shiftIndex eidIndex k = be) (hsr : shiftIndex rhIndex k = br)
    (hHk : (pkg w (n + 1)).h[k]? = some Hk) (hHe : (pkg w (n + 1)).h[be]? = some He)
    (hHr : (pkg w (n + 1)).h[br]? = some Hr) (hmK : vals[k]? = some sk) (hmE : vals[e]? = some mE)
    (hmR : vals[r]? = some mR)
    (hnk : cardType t = false → ∀ i ≤ k, i ∉ rs) (hne : eidEnabled t = true → e ∉ rs)
    (hnr : rhEnabled t = true → r ∉ rs) (hlab : sigLabel t = .ok label)
    (hpay : ∀ enc, parsePoKPayload (payload ++ enc) = .ok (n + 1, rs'))
    (hoff : (lenInBytes ((n + 1 : Nat) : Int)).toNat = payload.length)
    (hparse : ∀ c, parseSignatureProof S (pok.respond c).enc = .ok (pok.respond c))
    (hlen : rs'.length ≤ ms.length)
    (hcb : ∀ c, (pok.respond c).bytesForChallenge (revealedForChallenge v rs') (pkg w (n + 1)) = .ok pok.toBytes)
    (hver : ∀ c, (pok.respond c).verify (vc2For v (rNym • (pkg w (n + 1)).h0 + sk • Hk)) c (pkg w (n + 1))
      (revealedForVerify v rs') ms = .ok ()) (md : Option (SignerMetadata S)) :
    let E := attrC (pkg w (n + 1)) pok rs e He rE mE ρ.eid0
    let R := attrC (pkg w (n + 1)) pok rs r Hr rR mR ρ.rh0
    let ch := honestChallenge L label pok (rNym • (pkg w (n + 1)).h0 + sk • Hk) t
      (pairComm (pkg w (n + 1)).h0 Hk ρ.nym0 (blindAt pok (2 + k))) E R msg ρ.nonce
    (md = none ∨ md = signMeta t (if eidEnabled t then some E else none) (if rhEnabled t then some R else none) mE mR) →
    verify L (.val (ipkFor w n)) (Proto.encode (Wire.sig (honestSig payload t (pkg w (n + 1)) pok rs k e r Hk He Hr sk
      rNym mE mR rE rR cri ρ ch))) msg attributes rhIndex eidIndex k v md = .ok () := by
  intro E R ch hmd
  set sig := honestSig payload t (pkg w (n + 1)) pok rs k e r Hk He Hr sk rNym mE mR rE rR cri ρ ch with hsig
  have hel : e < n + 1 := by
    have := (List.getElem?_eq_some_iff.mp hmE).1; rw [hon.len] at this; simpa using this
  have hrl : r < n + 1 := by
    have := (List.getElem?_eq_some_iff.mp hmR).1; rw [hon.len] at this; simpa using this
  have hre := rank_le rs e
  have hrr := rank_le rs r
  have hw : sig.Wire := by
    refine ⟨?_, ?_, hcri.1, ?_⟩
    · simp only [hsig, honestSig, packSig]
      cases eidEnabled t <;> simp [Proto.Int32, attrC]; omega
    · simp only [hsig, honestSig, packSig]
      cases rhEnabled t <;> simp [Proto.Int32, attrC]; omega
    · intro p hp
      simp only [hsig, honestSig, packSig, Option.some.injEq] at hp
      subst hp
      exact hcri.2
  have hu := Wire.sigCodec_rt sig hw
  have z1 : sig.nymEid.isEmpty = !eidEnabled t := by
    simp only [hsig, honestSig, packSig]; cases eidEnabled t <;> simp [point_isEmpty hg1]
  have z2 : sig.nymEidProof.isEmpty = !eidEnabled t := by
    simp only [hsig, honestSig, packSig]; cases eidEnabled t <;> simp [enc_isEmpty h32]
  have z3 : sig.nymRh.isEmpty = !rhEnabled t := by
    simp only [hsig, honestSig, packSig]; cases rhEnabled t <;> simp [point_isEmpty hg1]
  have z4 : sig.nymRhProof.isEmpty = !rhEnabled t := by
    simp only [hsig, honestSig, packSig]; cases rhEnabled t <;> simp [enc_isEmpty h32]
  obtain ⟨f1, f2, f3, f4, f5, f6⟩ := flags hm sig z1 z2 z3 z4
  have hnr' : checkNonRev sig = .ok () := by
    simp [checkNonRev, hsig, honestSig, packSig, halg]
  have hg2 : decide (ms.length < rs'.length) = false := by simpa using hlen
  set nym := rNym • (pkg w (n + 1)).h0 + sk • Hk with hnym
  have q1 : onlyIf (!cardType t) (parseProofG1 S sig.nymProof) = .ok (if !cardType t then
      some (pairProof (pkg w (n + 1)).h0 Hk ρ.nym0 (blindAt pok (2 + k)) ch rNym sk) else none) := by
    apply onlyIf_eq
    intro h
    simp only [hsig, honestSig, packSig, h, if_true, Option.map_some, Option.getD_some]
    exact pairProof_parse h32 _ _ _ _ _ _ _
  have q2 : onlyIf (eidEnabled t) (parseComm S sig.nymEidProof sig.nymEid) = .ok (if eidEnabled t then
      some (pairProof (pkg w (n + 1)).h0 He ρ.eid0 (blindAt pok (2 + rank rs e)) ch rE mE, E.comm) else none) := by
    apply onlyIf_eq
    intro h
    simp only [hsig, honestSig, packSig, h, if_true, Option.map_some, Option.getD_some, parseComm,
      pairProof_parse h32, Res.ok_bind, Suite.g1OfBytes_g1Bytes, Res.ofOption_some, Res.pure_def]
    rfl
  have q3 : onlyIf (rhEnabled t) (parseComm S sig.nymRhProof sig.nymRh) = .ok (if rhEnabled t then
      some (pairProof (pkg w (n + 1)).h0 Hr ρ.rh0 (blindAt pok (2 + rank rs r)) ch rR mR, R.comm) else none) := by
    apply onlyIf_eq
    intro h
    simp only [hsig, honestSig, packSig, h, if_true, Option.map_some, Option.getD_some, parseComm,
      pairProof_parse h32, Res.ok_bind, Suite.g1OfBytes_g1Bytes, Res.ofOption_some, Res.pure_def]
    rfl
  have hmain : sig.main = payload ++ (pok.respond ch).enc := rfl
  have hsl := goSlice_mid payload (pok.respond ch).enc []
  rw [List.append_nil] at hsl
  have hparts : parseParts S sig v ms.length = .ok ⟨rs', pok.respond ch, nym,
      if !cardType t then some (pairProof (pkg w (n + 1)).h0 Hk ρ.nym0 (blindAt pok (2 + k)) ch rNym sk) else none,
      if eidEnabled t then
        some (pairProof (pkg w (n + 1)).h0 He ρ.eid0 (blindAt pok (2 + rank rs e)) ch rE mE, E.comm) else none,
      if rhEnabled t then
        some (pairProof (pkg w (n + 1)).h0 Hr ρ.rh0 (blindAt pok (2 + rank rs r)) ch rR mR, R.comm) else none⟩ := by
    simp only [parseParts, hmain, hpay, Res.ok_bind, hoff]
    rw [List.length_append, hsl]
    have hn' : sig.nym = S.g1Bytes nym := rfl
    simp only [Res.ok_bind, hparse, hg2, Res.guardErr_false, hn', Suite.g1OfBytes_g1Bytes, Res.ofOption_some, f1, f2, f3,
      q1, q2, q3, Res.pure_def]
  have hchal : verChallenge L (pkg w (n + 1)) sig v msg ⟨rs', pok.respond ch, nym,
      if !cardType t then some (pairProof (pkg w (n + 1)).h0 Hk ρ.nym0 (blindAt pok (2 + k)) ch rNym sk) else none,
      if eidEnabled t then
        some (pairProof (pkg w (n + 1)).h0 He ρ.eid0 (blindAt pok (2 + rank rs e)) ch rE mE, E.comm) else none,
      if rhEnabled t then
        some (pairProof (pkg w (n + 1)).h0 Hr ρ.rh0 (blindAt pok (2 + rank rs r)) ch rR mR, R.comm) else none⟩ =
      .ok ch := by
    have hl : verLabel sig v = label := by
      rw [hlab] at f5
      exact (Res.ok.inj f5).symm
    have c1 : nymProofBytes (if !cardType t then
        some (pairProof (pkg w (n + 1)).h0 Hk ρ.nym0 (blindAt pok (2 + k)) ch rNym sk) else none) =
        nymHash (!cardType t) (pairComm (pkg w (n + 1)).h0 Hk ρ.nym0 (blindAt pok (2 + k))) := by
      cases cardType t <;> simp [nymProofBytes, nymHash, pairProof, pairComm]
    have c2 : commBytes sig.nymEid (if eidEnabled t then
        some (pairProof (pkg w (n + 1)).h0 He ρ.eid0 (blindAt pok (2 + rank rs e)) ch rE mE, E.comm) else none) =
        commHash (eidEnabled t) E := by
      simp only [hsig, honestSig, packSig]
      cases eidEnabled t <;> simp [commBytes, commHash, E, attrC, pairProof, pairComm]
    have c3 : commBytes sig.nymRh (if rhEnabled t then
        some (pairProof (pkg w (n + 1)).h0 Hr ρ.rh0 (blindAt pok (2 + rank rs r)) ch rR mR, R.comm) else none) =
        commHash (rhEnabled t) R := by
      simp only [hsig, honestSig, packSig]
      cases rhEnabled t <;> simp [commBytes, commHash, R, attrC, pairProof, pairComm]
    rw [verChallenge, hcb, Res.ok_bind, hl, c1, c2, c3]
    rfl
  have a1 : audit (pkg w (n + 1)) (shiftIndex eidIndex k) (if eidEnabled t then
      some (pairProof (pkg w (n + 1)).h0 He ρ.eid0 (blindAt pok (2 + rank rs e)) ch rE mE, E.comm) else none) md
      (·.eidNymAuditData) (·.eidNym) = .ok () := by
    apply audit_own _ _ be He hHe _ hse _ _ mE rfl
    · rintro m rfl
      rcases hmd with h | h
      · cases h
      · simp only [signMeta] at h
        split at h
        · cases h; exact .inr rfl
        · split at h <;> cases h
          exact .inr rfl
    · rintro m rfl
      rcases hmd with h | h
      · cases h
      · simp only [signMeta] at h
        split at h
        · cases h; rfl
        · split at h <;> cases h
          rfl
  have a2 : audit (pkg w (n + 1)) (shiftIndex rhIndex k) (if rhEnabled t then
      some (pairProof (pkg w (n + 1)).h0 Hr ρ.rh0 (blindAt pok (2 + rank rs r)) ch rR mR, R.comm) else none) md
      (·.rhNymAuditData) (·.rhNym) = .ok () := by
    apply audit_own _ _ br Hr hHr _ hsr _ _ mR rfl
    · rintro m rfl
      rcases hmd with h | h
      · cases h
      · simp only [signMeta] at h
        split at h
        · cases h; exact .inr rfl
        · split at h <;> cases h
          exact .inl rfl
    · rintro m rfl
      rcases hmd with h | h
      · cases h
      · simp only [signMeta] at h
        split at h
        · cases h; rfl
        · split at h <;> cases h
          rfl
  have b1 : checkNymProof (pkg w (n + 1)) (pok.respond ch) (if !cardType t then
      some (pairProof (pkg w (n + 1)).h0 Hk ρ.nym0 (blindAt pok (2 + k)) ch rNym sk) else none) nym k ch = .ok () := by
    cases hc : cardType t with
    | true => rfl
    | false =>
      have h0 := hnk hc
      have hr := hon.response k sk hmK (h0 k le_rfl) ch
      rw [rank_all rs k fun i hi => h0 i hi.le] at hr
      exact checkComm_pair _ _ Hk _ _ _ _ _ k (2 + k) hHk hr _ _ rfl (by push_cast; rfl)
  have b2 : checkAttrComm (pkg w (n + 1)) (pok.respond ch) (if eidEnabled t then
      some (pairProof (pkg w (n + 1)).h0 He ρ.eid0 (blindAt pok (2 + rank rs e)) ch rE mE, E.comm) else none)
      (shiftIndex eidIndex k) sig.nymEidIdx ch = .ok () := by
    simp only [hsig, honestSig, packSig]
    cases hb : eidEnabled t with
    | false => rfl
    | true =>
      have hr := hon.response e mE hmE (hne hb) ch
      exact checkComm_pair _ _ He _ _ _ _ _ be (2 + rank rs e) hHe hr _ _ hse rfl
  have b3 : checkAttrComm (pkg w (n + 1)) (pok.respond ch) (if rhEnabled t then
      some (pairProof (pkg w (n + 1)).h0 Hr ρ.rh0 (blindAt pok (2 + rank rs r)) ch rR mR, R.comm) else none)
      (shiftIndex rhIndex k) sig.nymRhIdx ch = .ok () := by
    simp only [hsig, honestSig, packSig]
    cases hb : rhEnabled t with
    | false => rfl
    | true =>
      have hr := hon.response r mR hmR (hnr hb) ch
      exact checkComm_pair _ _ Hr _ _ _ _ _ br (2 + rank rs r) hHr hr _ _ hsr rfl
  simp only [verify, Dyn.get_val, Res.ok_bind, hu, hnr', f4, hmsgs, ipkFor, hparts, hchal, a1, a2, b1, b2, b3]
  exact hver ch

end Idemix.Aries
