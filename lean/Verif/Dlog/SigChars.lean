import Verif.Dlog.Chars
import Verif.Dlog.SigSpec

/-!
# dlog scheme: the verifier refines the specification
-/

namespace Idemix.Dlog

variable {S : Suite} (T : Translator S)

/-- The points and scalars of a wire signature, except the attribute pseudonyms. -/
structure Decodes (sig : Signature) (v : Spec.Sig S) : Prop where
  aPrime : T.g1FromProto sig.aPrime = .ok v.aPrime
  aBar : T.g1FromProto sig.aBar = .ok v.aBar
  bPrime : T.g1FromProto sig.bPrime = .ok v.bPrime
  nym : T.g1FromProto sig.nym = .ok v.nym
  c : v.c = S.zrOfBytes sig.proofC
  sSk : v.sSk = S.zrOfBytes sig.proofSSk
  sE : v.sE = S.zrOfBytes sig.proofSE
  sR2 : v.sR2 = S.zrOfBytes sig.proofSR2
  sR3 : v.sR3 = S.zrOfBytes sig.proofSR3
  sSPrime : v.sSPrime = S.zrOfBytes sig.proofSSPrime
  sRNym : v.sRNym = S.zrOfBytes sig.proofSRNym
  sAttrs : v.sAttrs = sig.proofSAttrs.map S.zrOfBytes
  nonce : v.nonce = S.zrOfBytes sig.nonce

/-- The wire attribute pseudonym `an` takes part in the proof iff `b`, as `o`. -/
def DecodesNym (b : Bool) (an : Option AttrNym) (o : Option (S.G1 × S.F)) : Prop :=
  (b = false ∧ o = none) ∨
  (b = true ∧ ∃ a nym, an = some a ∧ T.g1FromProto a.nym = .ok nym ∧
    o = some (nym, S.zrOfBytes (a.proofS.getD [])))

/-- Metadata condition for one attribute pseudonym (checked only if metadata is supplied and the
pseudonym takes part in the proof). -/
def MetaOk (ipk : IssuerPublicKey) (hRand : S.G1) (idx : Int) (o : Option (S.G1 × S.F))
    (ad : SignerMetadata S → Option (AuditData S)) (raw : SignerMetadata S → Bytes)
    (md : Option (SignerMetadata S)) : Prop :=
  ∀ m p, md = some m → o = some p → metaAudit T ipk hRand p.1 idx (ad m) (raw m) = .ok ()

/-- Everything the verifier checks besides the proof itself. -/
structure Shape (sig : Signature) (v : Spec.Sig S) (k : Spec.Key S) (ipk : IssuerPublicKey)
    (D : Bytes) (values : List (Option S.F)) (vs : List S.F) (rhIndex eidIndex : Int)
    (verType : VerType) (md : Option (SignerMetadata S)) : Prop where
  reads : Reads T ipk k
  decodes : Decodes T sig v
  eid : DecodesNym T (verifyEid sig verType) sig.eidNym v.eid
  rh : DecodesNym T (verifyRh sig verType) sig.rhNym v.rh
  rh_nonneg : 0 ≤ rhIndex
  rh_lt : rhIndex < D.length
  D_len : D.length = ipk.attributeNames.length
  nrp : ∃ nrp, sig.nonRevocationProof = some nrp ∧ nrp.revocationAlg = 0
  verType : verTypeChecks sig verType = .ok ()
  epochPk : ∃ P, T.g2FromProto sig.revocationEpochPk = .ok P
  sAttrs_len : v.sAttrs.length = nHid D
  bases_len : D.length ≤ k.hAttrs.length
  rh_resp : Spec.respIdx D rhIndex.toNat < nHid D
  eid_range : v.eid.isSome → 0 ≤ eidIndex ∧ eidIndex.toNat < k.hAttrs.length ∧
    Spec.respIdx D eidIndex.toNat < nHid D
  values : vs.map some = dis D values
  values_len : vs.length = nDis D
  metaEid : MetaOk T ipk k.hRand eidIndex v.eid (·.eidNymAuditData) (·.eidNym) md
  metaRh : MetaOk T ipk k.hRand rhIndex v.rh (·.rhNymAuditData) (·.rhNym) md

variable {T}

theorem optional_eq_ok {α : Type} {b : Bool} {x : Res α} {o : Option α} :
    optional b x = .ok o ↔ (b = false ∧ o = none) ∨ (b = true ∧ ∃ r, x = .ok r ∧ o = some r) := by
  cases b <;> cases x <;> simp [optional, Res.bind, eq_comm]

theorem recomputeT4_eq_ok {ipk : IssuerPublicKey} {k : Spec.Key S} (hk : Reads T ipk k) {c : S.F}
    {sAttrs : List S.F} {D : Bytes} {idx : Int} {an : Option AttrNym} {r : S.G1 × S.G1} :
    recomputeT4 T ipk k.hRand c sAttrs (hiddenIndices D) idx an = .ok r ↔
      ∃ a nym, an = some a ∧ T.g1FromProto a.nym = .ok nym ∧ 0 ≤ idx ∧
        idx.toNat < k.hAttrs.length ∧ Spec.respIdx D idx.toNat < sAttrs.length ∧
        r = (nym, sAttrs.getD (Spec.respIdx D idx.toNat) 0 • k.hAttrs.getD idx.toNat 0 +
          S.zrOfBytes (a.proofS.getD []) • k.hRand - c • nym) := by
  simp only [recomputeT4, Res.bind_eq_ok, Res.index_eq_ok, Res.deref_eq_ok, Res.nth_eq_ok,
    Res.pure_def, Res.ok.injEq, searchInts_eq, Spec.respIdx]
  constructor
  · rintro ⟨e, ⟨h0, he⟩, h, hh, a, ha, sA, hs, nym, hn, rfl⟩
    rcases parseAttrs_getElem hk.hAttrs idx.toNat with ⟨e', P, q1, q2, q3⟩ | ⟨q1, -⟩
    · rw [he] at q1; cases q1
      have : P = h := by have := q3.symm.trans hh; simpa using this
      subst this
      obtain ⟨hl, hP⟩ := List.getElem?_eq_some_iff.mp q2
      obtain ⟨hl', hs'⟩ := List.getElem?_eq_some_iff.mp hs
      refine ⟨a, nym, ha, hn, h0, hl, hl', ?_⟩
      simp [List.getD, hs, q2]
    · rw [he] at q1; cases q1
  · rintro ⟨a, nym, ha, hn, h0, hl, hl', rfl⟩
    rcases parseAttrs_getElem hk.hAttrs idx.toNat with ⟨e', P, q1, q2, q3⟩ | ⟨-, q2⟩
    · refine ⟨e', ⟨h0, q1⟩, P, q3, a, ha, _, List.getElem?_eq_getElem hl', nym, hn, ?_⟩
      simp [List.getD, q2, hl']
    · rw [List.getElem?_eq_getElem hl] at q2; cases q2

theorem verifyEid_of_rh {sig : Signature} {vt : VerType} (h : verifyRh sig vt = true) :
    verifyEid sig vt = true := by simp [verifyEid, h]

/-- The label the code uses (`verLabel`) in terms of the pseudonyms taking part. -/
def sigLabelOf (v : Spec.Sig S) : Bytes :=
  v.label signLabel signWithEidNymLabel signWithEidNymRhNymLabel

theorem nymBytes_nymPart (k : Spec.Key S) (D : Bytes) (v : Spec.Sig S) (i : Nat)
    (o : Option (S.G1 × S.F)) :
    nymBytes S (o.map fun p => (p.1, v.t4 k D i p)) = v.nymPart k D i o := by
  cases o <;> rfl

theorem pairing_iff (k : Spec.Key S) (a b : S.G1) :
    S.pair k.w a + -(S.pair S.genG2 b) = 0 ↔ S.pair k.w a = S.pair S.genG2 b := by
  rw [← sub_eq_add_neg, sub_eq_zero]

theorem optionalT4_eq_ok {ipk : IssuerPublicKey} {k : Spec.Key S} (hk : Reads T ipk k) {b : Bool}
    {c : S.F} {sAttrs : List S.F} {D : Bytes} {idx : Int} {an : Option AttrNym}
    {o : Option (S.G1 × S.G1)} :
    optional b (recomputeT4 T ipk k.hRand c sAttrs (hiddenIndices D) idx an) = .ok o ↔
      ∃ p : Option (S.G1 × S.F), DecodesNym T b an p ∧
        (p.isSome → 0 ≤ idx ∧ idx.toNat < k.hAttrs.length ∧
          Spec.respIdx D idx.toNat < sAttrs.length) ∧
        o = p.map fun q => (q.1, sAttrs.getD (Spec.respIdx D idx.toNat) 0 • k.hAttrs.getD idx.toNat 0 +
          q.2 • k.hRand - c • q.1) := by
  rw [optional_eq_ok]
  constructor
  · rintro (⟨hb, rfl⟩ | ⟨hb, r, hr, rfl⟩)
    · exact ⟨none, .inl ⟨hb, rfl⟩, by simp, rfl⟩
    · obtain ⟨a, nym, h1, h2, h3, h4, h5, rfl⟩ := (recomputeT4_eq_ok hk).mp hr
      exact ⟨some (nym, S.zrOfBytes (a.proofS.getD [])), .inr ⟨hb, a, nym, h1, h2, rfl⟩,
        fun _ => ⟨h3, h4, h5⟩, rfl⟩
  · rintro ⟨p, ⟨hb, rfl⟩ | ⟨hb, a, nym, h1, h2, rfl⟩, hr, rfl⟩
    · exact .inl ⟨hb, rfl⟩
    · obtain ⟨h3, h4, h5⟩ := hr rfl
      exact .inr ⟨hb, _, (recomputeT4_eq_ok hk).mpr ⟨a, nym, h1, h2, h3, h4, h5, rfl⟩, rfl⟩

theorem metaAuditOpt_eq_ok {ipk : IssuerPublicKey} {hRand : S.G1} {idx : Int}
    {o : Option (S.G1 × S.F)} {f : S.G1 × S.F → S.G1 × S.G1} (hf : ∀ q, (f q).1 = q.1)
    {ad : SignerMetadata S → Option (AuditData S)} {raw : SignerMetadata S → Bytes}
    {md : Option (SignerMetadata S)} {u : Unit} :
    metaAuditOpt T ipk hRand idx (md.map fun m => (ad m, raw m)) ((o.map f).map Prod.fst) = .ok u ↔
      MetaOk T ipk hRand idx o ad raw md := by
  cases md <;> cases o <;> simp [metaAuditOpt, MetaOk, hf]

/-- Label and number of points used by the verifier agree with the specification. -/
theorem label_pts {sig : Signature} {vt : VerType} {v : Spec.Sig S}
    (he : DecodesNym T (verifyEid sig vt) sig.eidNym v.eid)
    (hr : DecodesNym T (verifyRh sig vt) sig.rhNym v.rh) :
    verLabel (verifyEid sig vt) (verifyRh sig vt) = sigLabelOf v ∧
    verPts (verifyEid sig vt) (verifyRh sig vt) =
      7 + (if v.eid.isSome then 2 else 0) + (if v.rh.isSome then 2 else 0) := by
  have himp := verifyEid_of_rh (sig := sig) (vt := vt)
  rcases he with ⟨e1, e2⟩ | ⟨e1, a, n, -, -, e2⟩ <;> rcases hr with ⟨r1, r2⟩ | ⟨r1, b, m, -, -, r2⟩ <;>
    simp_all [verLabel, verPts, sigLabelOf, Spec.Sig.label]

theorem verTail_ok_iff {sig : Signature} {ipk : IssuerPublicKey} {k : Spec.Key S} {v : Spec.Sig S}
    {vt : VerType} {nrp : NonRevocationProof} {D msg : Bytes} {rhIndex eidIndex : Int} {vs : List S.F}
    {md : Option (SignerMetadata S)}
    (he : DecodesNym T (verifyEid sig vt) sig.eidNym v.eid)
    (hr : DecodesNym T (verifyRh sig vt) sig.rhNym v.rh) (hl : v.sAttrs.length = nHid D) :
    verTail T sig ipk k.hRand v.c v.nonce v.sAttrs (hiddenIndices D) (v.t1 k) (v.t2 k D vs) (v.t3 k)
      v.aPrime v.aBar v.bPrime v.nym (v.eid.map fun p => (p.1, v.t4 k D eidIndex.toNat p))
      (v.rh.map fun p => (p.1, v.t4 k D rhIndex.toNat p)) (verifyEid sig vt) (verifyRh sig vt) nrp D msg
      rhIndex eidIndex md = .ok () ↔
    nrp.revocationAlg = 0 ∧ Spec.respIdx D rhIndex.toNat < nHid D ∧
      (∃ P, T.g2FromProto sig.revocationEpochPk = .ok P) ∧
      MetaOk T ipk k.hRand eidIndex v.eid (·.eidNymAuditData) (·.eidNym) md ∧
      MetaOk T ipk k.hRand rhIndex v.rh (·.rhNymAuditData) (·.rhNym) md ∧
      v.c = S.hashToZr (Spec.second S (v.transcript (sigLabelOf v) k ipk.hash D vs eidIndex.toNat
        rhIndex.toNat msg) v.nonce) := by
  obtain ⟨hlab, hpts⟩ := label_pts he hr
  by_cases halg : nrp.revocationAlg = 0
  · have hpts' : verPts (verifyEid sig vt) (verifyRh sig vt) = 7 +
        (if (v.eid.map fun p => (p.1, v.t4 k D eidIndex.toNat p)).isSome then 2 else 0) +
        (if (v.rh.map fun p => (p.1, v.t4 k D rhIndex.toNat p)).isSome then 2 else 0) := by
      simpa using hpts
    have hle : 2 * S.scalarLen ≤ (v.transcript (sigLabelOf v) k ipk.hash D vs eidIndex.toNat
        rhIndex.toNat msg).length := by
      have := S.scalarLen_le
      simp only [Spec.Sig.transcript, List.length_append, Suite.g1Bytes_len]; omega
    have hpd : sigProofData (verLabel (verifyEid sig vt) (verifyRh sig vt))
        (verPts (verifyEid sig vt) (verifyRh sig vt)) 0 (v.t1 k) (v.t2 k D vs) (v.t3 k) v.aPrime v.aBar
        v.bPrime v.nym (v.eid.map fun p => (p.1, v.t4 k D eidIndex.toNat p))
        (v.rh.map fun p => (p.1, v.t4 k D rhIndex.toNat p)) [] ipk.hash D msg =
        .ok (v.transcript (sigLabelOf v) k ipk.hash D vs eidIndex.toNat rhIndex.toNat msg) := by
      rw [sigProofData_eq _ _ _ _ _ _ _ _ _ _ _ _ _ _ _ hpts', nymBytes_nymPart, nymBytes_nymPart, hlab]
      rfl
    simp only [verTail, halg, ne_eq, not_true_eq_false, decide_false, Res.guardErr_false, Res.ok_bind,
      nonRevContribution, if_true, hpd, secondHash_eq _ _ _ hle, Res.bind_eq_ok,
      metaAuditOpt_eq_ok (f := fun p => (p.1, v.t4 k D eidIndex.toNat p)) (fun _ => rfl),
      metaAuditOpt_eq_ok (f := fun p => (p.1, v.t4 k D rhIndex.toNat p)) (fun _ => rfl),
      Res.guardErr_eq_ok, Bool.not_eq_false', decide_eq_true_eq, Res.nth_eq_ok, searchInts_eq,
      true_and, Spec.second, Spec.respIdx, ← hl]
    constructor
    · rintro ⟨x, hx, P, hP, -, m1, -, m2, hc⟩
      exact ⟨(List.getElem?_eq_some_iff.mp hx).1, ⟨P, hP⟩, m1, m2, hc⟩
    · rintro ⟨hx, ⟨P, hP⟩, m1, m2, hc⟩
      exact ⟨_, List.getElem?_eq_getElem hx, P, hP, (), m1, (), m2, hc⟩
  · simp [verTail, halg]

/-- The verifier accepts iff the signature has the right shape and satisfies the specification. -/
theorem ver_ok_iff {RevPk : Type} {sig : Signature} {D : Bytes} {oipk : Option IssuerPublicKey}
    {msg : Bytes} {values : List (Option S.F)} {rhIndex eidIndex : Int} {revPk : RevPk} {epoch : Int}
    {vt : VerType} {md : Option (SignerMetadata S)} :
    sig.ver T D oipk msg values rhIndex eidIndex revPk epoch vt md = .ok () ↔
      ∃ ipk k v vs, oipk = some ipk ∧
        Shape T sig v k ipk D values vs rhIndex eidIndex vt md ∧
        v.Accepted (sigLabelOf v) k ipk.hash D vs eidIndex.toNat rhIndex.toNat msg := by
  constructor
  · intro h
    simp only [Signature.ver, Res.bind_eq_ok, Res.guardErr_eq_ok, Res.ofOption_eq_ok, Res.deref_eq_ok,
      Bool.or_eq_false_iff, decide_eq_false_iff_not, Bool.not_eq_false', decide_eq_true_eq,
      addPairs_eq_ok, ne_eq, Decidable.not_not, Res.index_eq_ok,
      hiddenIndices_length, List.length_map] at h
    obtain ⟨ipk, rfl, _, ⟨⟨g1, g2⟩, g3⟩, nrp, g4, dRh, ⟨g5, g6⟩, _, -, ⟨⟩, g7, aP, g8, aB, g9, bP, g10,
      nym, g11, _, g12, w, g13, hRand, g14, hSk, g15, _, g16, _, g17, hAttrs, g18, hH, g19, t2a,
      ⟨g20, rfl⟩, disc, g21, eid, g22, rh, g23, g24⟩ := h
    have hk : Reads T ipk ⟨hSk, hRand, hAttrs, w⟩ := ⟨g15, g14, g18, g13⟩
    rw [pairing_iff ⟨hSk, hRand, hAttrs, w⟩] at g17
    obtain ⟨pe, e1, e2, rfl⟩ := (optionalT4_eq_ok hk).mp g22
    obtain ⟨pr, r1, r2, rfl⟩ := (optionalT4_eq_ok hk).mp g23
    have hDne : D ≠ [] := by rintro rfl; simp at g6
    have hbl : D.length ≤ hAttrs.length := by
      rcases bases_length g19 g21 with h | h
      · exact absurd h hDne
      · simpa using h
    rw [mapM_hidden0 D hAttrs hbl, Res.ok.injEq] at g19
    subst g19
    obtain ⟨vs, v1, v2, rfl⟩ := (addDisclosed_eq_ok (by simpa using hbl)).mp g21
    simp only [List.drop_zero] at v1 g24
    let v : Spec.Sig S := ⟨aP, aB, bP, nym, S.zrOfBytes sig.proofC, S.zrOfBytes sig.proofSSk,
      S.zrOfBytes sig.proofSE, S.zrOfBytes sig.proofSR2, S.zrOfBytes sig.proofSR3,
      S.zrOfBytes sig.proofSSPrime, S.zrOfBytes sig.proofSRNym, sig.proofSAttrs.map S.zrOfBytes,
      S.zrOfBytes sig.nonce, pe, pr⟩
    have hl : v.sAttrs.length = nHid D := by simpa [v] using g12
    have htail := verTail_ok_iff (T := T) (sig := sig) (ipk := ipk) (k := ⟨hSk, hRand, hAttrs, w⟩) (v := v)
      (vt := vt) (nrp := nrp) (D := D) (msg := msg) (rhIndex := rhIndex) (eidIndex := eidIndex)
      (vs := vs) (md := md) e1 r1 hl
    have ht2 : v.t2 ⟨hSk, hRand, hAttrs, w⟩ D vs = S.zrOfBytes sig.proofSSPrime • hRand +
        (S.zrOfBytes sig.proofSR3 • bP + S.zrOfBytes sig.proofSSk • hSk) +
        S.lin (sig.proofSAttrs.map S.zrOfBytes) (hid D hAttrs) +
        S.zrOfBytes sig.proofC • (S.genG1 + S.lin vs (dis D hAttrs)) := by
      simp only [Spec.Sig.t2, v]; abel
    rw [ht2] at htail
    obtain ⟨u1, u2, u3, u4, u5, u6⟩ := htail.mp g24
    refine ⟨ipk, ⟨hSk, hRand, hAttrs, w⟩, v, vs, rfl, ?_, ⟨g16, g17, u6⟩⟩
    exact
      { reads := hk, decodes := ⟨g8, g9, g10, g11, rfl, rfl, rfl, rfl, rfl, rfl, rfl, rfl, rfl⟩
        eid := e1, rh := r1, rh_nonneg := g5, rh_lt := by omega, D_len := g3, nrp := ⟨nrp, g4, u1⟩
        verType := g7, epochPk := u3, sAttrs_len := hl, bases_len := hbl, rh_resp := u2
        eid_range := fun h => by
          obtain ⟨a, b, c⟩ := e2 h
          exact ⟨a, b, by simpa [g12] using c⟩
        values := v1, values_len := v2, metaEid := u4, metaRh := u5 }
  · rintro ⟨ipk, k, v, vs, rfl, sh, acc⟩
    obtain ⟨nrp, n1, n2⟩ := sh.nrp
    have htail := (verTail_ok_iff (T := T) (sig := sig) (ipk := ipk) (k := k) (v := v)
      (vt := vt) (nrp := nrp) (D := D) (msg := msg) (rhIndex := rhIndex) (eidIndex := eidIndex)
      (vs := vs) (md := md) sh.eid sh.rh sh.sAttrs_len).mpr
      ⟨n2, sh.rh_resp, sh.epochPk, sh.metaEid, sh.metaRh, acc.challenge⟩
    have hlt : rhIndex.toNat < D.length := by have := sh.rh_lt; have := sh.rh_nonneg; omega
    have hidx : Res.index D rhIndex = .ok D[rhIndex.toNat] := by
      rw [Res.index_eq_ok]; exact ⟨sh.rh_nonneg, List.getElem?_eq_getElem hlt⟩
    have hds := (addDisclosed_eq_ok (S := S) (values := values) (acc := S.genG1) (i := 0) (D := D)
      (hAttrs := k.hAttrs) (by simpa using sh.bases_len)).mpr ⟨vs, by simpa using sh.values, sh.values_len,
        rfl⟩
    have he := (optionalT4_eq_ok (D := D) (c := v.c) (sAttrs := v.sAttrs) (idx := eidIndex)
      sh.reads).mpr ⟨v.eid, sh.eid, fun h => by rw [sh.sAttrs_len]; exact sh.eid_range h, rfl⟩
    have hr := (optionalT4_eq_ok (D := D) (c := v.c) (sAttrs := v.sAttrs) (idx := rhIndex)
      sh.reads).mpr ⟨v.rh, sh.rh, fun h => by
        rw [sh.sAttrs_len]
        exact ⟨sh.rh_nonneg, lt_of_lt_of_le hlt sh.bases_len, sh.rh_resp⟩, rfl⟩
    have hg : (decide (rhIndex < 0) || decide ((ipk.attributeNames.length : Int) ≤ rhIndex)
      || decide (D.length ≠ ipk.attributeNames.length)) = false := by
      have := sh.rh_nonneg; have := sh.rh_lt; have := sh.D_len
      simp; omega
    have hl : sig.proofSAttrs.length = nHid D := by
      have := sh.sAttrs_len; rw [sh.decodes.sAttrs] at this; simpa using this
    have hap : decide (v.aPrime = 0) = false := by simpa using acc.aPrime_ne
    have hpair : decide (S.pair k.w v.aPrime + -(S.pair S.genG2 v.aBar) = 0) = true := by
      simpa [pairing_iff] using acc.pairing
    have hadd := addPairs_ok (v.sSPrime • k.hRand + (v.sR3 • v.bPrime + v.sSk • k.hSk)) v.sAttrs
      (hid D k.hAttrs) (by rw [sh.sAttrs_len, hid_length _ _ sh.bases_len])
    have ht2 : v.sSPrime • k.hRand + (v.sR3 • v.bPrime + v.sSk • k.hSk) +
        S.lin v.sAttrs (hid D k.hAttrs) + v.c • (S.genG1 + S.lin vs (dis D k.hAttrs)) =
        v.t2 k D vs := by
      simp only [Spec.Sig.t2]; abel
    simp only [Signature.ver, Res.ofOption_some, Res.ok_bind, hg, Res.guardErr_false, n1, Res.deref_some,
      hidx, n2, sh.verType, ne_eq, not_true_eq_false, decide_false, Bool.false_and, sh.decodes.aPrime,
      sh.decodes.aBar, sh.decodes.bPrime, sh.decodes.nym, hl, hiddenIndices_length, sh.reads.w,
      sh.reads.hRand, sh.reads.hSk, sh.reads.hAttrs, hap, hpair, Bool.not_true,
      mapM_hidden0 D _ sh.bases_len, ← sh.decodes.sAttrs, ← sh.decodes.c, ← sh.decodes.sSk,
      ← sh.decodes.sE, ← sh.decodes.sR2, ← sh.decodes.sR3, ← sh.decodes.sSPrime, ← sh.decodes.sRNym,
      ← sh.decodes.nonce, hadd, hds, he, hr, List.drop_zero, ht2]
    exact htail

/-! ### The same for another oracle -/

variable (T) in
/-- `v` is the decoded content of `sig` as seen by a verifier of type `vt`. -/
structure Views (sig : Signature) (vt : VerType) (v : Spec.Sig S) : Prop where
  decodes : Decodes T sig v
  eid : DecodesNym T (verifyEid sig vt) sig.eidNym v.eid
  rh : DecodesNym T (verifyRh sig vt) sig.rhNym v.rh

theorem DecodesNym.unique {b : Bool} {an : Option AttrNym} {o o' : Option (S.G1 × S.F)}
    (h : DecodesNym T b an o) (h' : DecodesNym T b an o') : o = o' := by
  rcases h with ⟨h1, rfl⟩ | ⟨h1, a, n, rfl, h3, rfl⟩ <;> rcases h' with ⟨q1, rfl⟩ | ⟨q1, b, m, q2, q3, rfl⟩
  · rfl
  · rw [h1] at q1; cases q1
  · rw [h1] at q1; cases q1
  · cases q2
    have := h3.symm.trans q3
    simp at this
    rw [this]

theorem Views.unique {sig : Signature} {vt : VerType} {v v' : Spec.Sig S} (h : Views T sig vt v)
    (h' : Views T sig vt v') : v = v' := by
  have e1 := h.decodes.aPrime.symm.trans h'.decodes.aPrime
  have e2 := h.decodes.aBar.symm.trans h'.decodes.aBar
  have e3 := h.decodes.bPrime.symm.trans h'.decodes.bPrime
  have e4 := h.decodes.nym.symm.trans h'.decodes.nym
  have e5 := h.eid.unique h'.eid
  have e6 := h.rh.unique h'.rh
  obtain ⟨⟨-, -, -, -, f1, f2, f3, f4, f5, f6, f7, f8, f9⟩, -, -⟩ := h
  obtain ⟨⟨-, -, -, -, g1, g2, g3, g4, g5, g6, g7, g8, g9⟩, -, -⟩ := h'
  cases v; cases v'
  simp_all

/-- What acceptance against the oracle `h` means. -/
theorem ver_withHash {h : Bytes → S.F} {RevPk : Type} {sig : Signature} {D : Bytes}
    {ipk : IssuerPublicKey} {msg : Bytes} {values : List (Option S.F)} {rhIndex eidIndex : Int}
    {revPk : RevPk} {epoch : Int} {vt : VerType} {md : Option (SignerMetadata (S.withHash h))}
    (hacc : sig.ver (T.withHash h) D (some ipk) msg values rhIndex eidIndex revPk epoch vt md = .ok ()) :
    ∃ (k : Spec.Key S) (v : Spec.Sig S) (vs : List S.F), Reads T ipk k ∧ Views T sig vt v ∧
      D.length ≤ k.hAttrs.length ∧ v.sAttrs.length = nHid D ∧ vs.map some = dis D values ∧
      vs.length = nDis D ∧ (0 ≤ rhIndex ∧ rhIndex < D.length) ∧ v.aPrime ≠ 0 ∧
      S.pair k.w v.aPrime = S.pair S.genG2 v.aBar ∧
      v.c = h (Spec.second (S.withHash h)
        (v.transcript (sigLabelOf v) k ipk.hash D vs eidIndex.toNat rhIndex.toNat msg) v.nonce) := by
  obtain ⟨ipk', k, v, vs, e, sh, acc⟩ := ver_ok_iff.mp hacc
  cases e
  refine ⟨⟨k.hSk, k.hRand, k.hAttrs, k.w⟩, ⟨v.aPrime, v.aBar, v.bPrime, v.nym, v.c, v.sSk, v.sE, v.sR2,
    v.sR3, v.sSPrime, v.sRNym, v.sAttrs, v.nonce, v.eid, v.rh⟩, vs,
    ⟨sh.reads.hSk, sh.reads.hRand, sh.reads.hAttrs, sh.reads.w⟩, ⟨?_, sh.eid, sh.rh⟩, sh.bases_len,
    sh.sAttrs_len, sh.values, sh.values_len, ⟨sh.rh_nonneg, sh.rh_lt⟩, acc.aPrime_ne, acc.pairing, ?_⟩
  · obtain ⟨d1, d2, d3, d4, d5, d6, d7, d8, d9, d10, d11, d12, d13⟩ := sh.decodes
    exact ⟨d1, d2, d3, d4, d5, d6, d7, d8, d9, d10, d11, d12, d13⟩
  · obtain ⟨a, b, c, d, e, f, g, x1, x2, x3, x4, x5, x6, eid, rh⟩ := v
    have := acc.challenge
    rcases eid with _ | eid <;> rcases rh with _ | rh <;> exact this

end Idemix.Dlog
