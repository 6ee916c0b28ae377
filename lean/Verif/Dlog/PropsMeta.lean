import Verif.Dlog.PropsSign
import Verif.Dlog.PropsVerify

/-!
# C16: what the verifier checks of supplied metadata

Acceptance with metadata is acceptance without it plus agreement of every supplied piece of the metadata with
the commitment carried by the signature, and nothing else.
-/

namespace Idemix.Dlog

variable {S : Suite} (T : Translator S)

/-- Metadata `ad`, `raw` of an attribute pseudonym agrees with the point `P`: the audit data, if there is any,
opens `P` under the attribute's base and `hRand`; the commitment in the audit data, if any, is `P`; the
serialized commitment, if not empty, decodes to `P`. -/
def Spec.MetaAgrees (k : Spec.Key S) (idx : Int) (P : S.G1) (ad : Option (AuditData S)) (raw : Bytes) : Prop :=
  (∀ d, ad = some d → 0 ≤ idx ∧ ∃ h, k.hAttrs[idx.toNat]? = some h ∧ P = d.attr • h + d.rand • k.hRand ∧
    ∀ n, d.nym = some n → n = P) ∧
  (raw ≠ [] → S.g1OfBytes raw = some P)

variable {T}

theorem metaAudit_eq_ok {ipk : IssuerPublicKey} {k : Spec.Key S} (hk : Reads T ipk k) (P : S.G1) (idx : Int)
    (ad : Option (AuditData S)) (raw : Bytes) (hr : 0 ≤ idx ∧ idx.toNat < k.hAttrs.length) :
    metaAudit T ipk k.hRand P idx ad raw = .ok () ↔ Spec.MetaAgrees k idx P ad raw := by
  obtain ⟨hE, h1, h2⟩ : ∃ hE, ipk.hAttrs[idx.toNat]? = some hE ∧ T.g1FromProto hE = .ok k.hAttrs[idx.toNat] := by
    have := (Res.mapM'_eq_ok.mp hk.hAttrs)
    have hl := this.length_eq
    refine ⟨ipk.hAttrs[idx.toNat]'(by omega), List.getElem?_eq_getElem _, ?_⟩
    exact (List.forall₂_iff_get.mp this).2 idx.toNat (by omega) hr.2
  have hi : Res.index ipk.hAttrs idx = .ok hE := Res.index_eq_ok.mpr ⟨hr.1, h1⟩
  have hraw : (if raw.length = 0 then pure () else do
      let n ← Res.ofOption "failed to unmarshal meta nym" (S.g1OfBytes raw)
      Res.guardErr (!decide (n = P)) "signature nym does not match metadata" : Res Unit) = .ok () ↔
      (raw ≠ [] → S.g1OfBytes raw = some P) := by
    cases raw with
    | nil => simp
    | cons b raw => simp [Res.bind_eq_ok, Res.ofOption_eq_ok, Res.guardErr_eq_ok]
  cases ad with
  | none =>
    simp only [metaAudit, Res.pure_def] at hraw ⊢
    rw [hraw]
    simp [Spec.MetaAgrees]
  | some d =>
    simp only [metaAudit, hi, h2, Res.ok_bind, Res.bind_eq_ok, Res.pure_def, Res.guardErr_eq_ok,
      Bool.not_eq_false', decide_eq_true_eq, exists_const] at hraw ⊢
    have hg : k.hAttrs[idx.toNat]? = some k.hAttrs[idx.toNat] := List.getElem?_eq_getElem hr.2
    have hs : Spec.MetaAgrees k idx P (some d) raw ↔ d.attr • k.hAttrs[idx.toNat] + d.rand • k.hRand = P ∧
        (∀ n, d.nym = some n → P = n) ∧ (raw ≠ [] → S.g1OfBytes raw = some P) := by
      constructor
      · rintro ⟨e1, e3⟩
        obtain ⟨-, h, e4, e5, e6⟩ := e1 d rfl
        cases hg.symm.trans e4
        exact ⟨e5.symm, fun n hn => (e6 n hn).symm, e3⟩
      · rintro ⟨e1, e2, e3⟩
        refine ⟨?_, e3⟩
        rintro d' ⟨⟩
        exact ⟨hr.1, _, hg, e1.symm, fun n hn => (e2 n hn).symm⟩
    rw [hs]
    cases hn : d.nym with
    | none => simp
    | some n => simp [Res.bind_eq_ok, Res.guardErr_eq_ok]

variable (T) in
/-- C16. A verifier given metadata accepts a signature iff it accepts it without metadata and the metadata agrees
with every pseudonym commitment that takes part in verification: the commitment to the enrollment id whenever
the signature has one (a verification type that ignores it refuses the signature or is undefined), the one to
the revocation handle except under `ExpectEidNym`, which ignores it. -/
theorem C16_verifier_checks_metadata {RevPk : Type} (sig : Signature) (D : Bytes) (ipk : IssuerPublicKey)
    (k : Spec.Key S) (hk : Reads T ipk k) (msg : Bytes) (values : List (Option S.F)) (rhIndex eidIndex : Int)
    (revPk : RevPk) (epoch : Int) (vt : VerType)
    (hvt : vt ∈ [VerType.bestEffort, .expectStandard, .expectEidNym, .expectEidNymRhNym]) (m : SignerMetadata S) :
    sig.ver T D (some ipk) msg values rhIndex eidIndex revPk epoch vt (some m) = .ok () ↔
      sig.ver T D (some ipk) msg values rhIndex eidIndex revPk epoch vt none = .ok () ∧
      (∀ a P, sig.eidNym = some a → T.g1FromProto a.nym = .ok P →
        Spec.MetaAgrees k eidIndex P m.eidNymAuditData m.eidNym) ∧
      (vt ≠ .expectEidNym → ∀ a P, sig.rhNym = some a → T.g1FromProto a.nym = .ok P →
        Spec.MetaAgrees k rhIndex P m.rhNymAuditData m.rhNym) := by
  have flagE : ∀ a, sig.eidNym = some a → verTypeChecks sig vt = .ok () → verifyEid sig vt = true := by
    intro a ha hc
    simp only [List.mem_cons, List.not_mem_nil, or_false] at hvt
    rcases hvt with rfl | rfl | rfl | rfl
    · simp [verifyEid, ha]
    · exfalso
      simp [verTypeChecks, ha] at hc
    · simp [verifyEid]
    · simp [verifyEid]
  have flagR : vt ≠ .expectEidNym → ∀ a, sig.rhNym = some a → verTypeChecks sig vt = .ok () →
      verifyRh sig vt = true := by
    intro hne a ha hc
    simp only [List.mem_cons, List.not_mem_nil, or_false] at hvt
    rcases hvt with rfl | rfl | rfl | rfl
    · simp [verifyRh, ha]
    · exfalso
      simp [verTypeChecks, Res.bind_eq_ok, ha] at hc
    · exact absurd rfl hne
    · simp [verifyRh]
  have noE : verifyRh sig vt = true → vt ≠ .expectEidNym := by
    rintro h rfl; simp [verifyRh] at h
  constructor
  · intro h
    obtain ⟨_, k', v, vs, e, sh, acc⟩ := ver_ok_iff.mp h
    cases e
    cases sh.reads.unique hk
    refine ⟨ver_ok_iff.mpr ⟨ipk, _, v, vs, rfl, { sh with metaEid := ?_, metaRh := ?_ }, acc⟩, ?_, ?_⟩
    · intro m p h; cases h
    · intro m p h; cases h
    · intro a P ha hP
      rcases sh.eid with ⟨h', -⟩ | ⟨-, an, P', h1, h2, h3⟩
      · rw [flagE a ha sh.verType] at h'; cases h'
      · cases ha.symm.trans h1
        cases hP.symm.trans h2
        have hr := sh.eid_range (by rw [h3]; rfl)
        exact (metaAudit_eq_ok hk P eidIndex _ _ ⟨hr.1, hr.2.1⟩).mp (sh.metaEid m _ rfl h3)
    · intro hne a P ha hP
      rcases sh.rh with ⟨h', -⟩ | ⟨-, an, P', h1, h2, h3⟩
      · rw [flagR hne a ha sh.verType] at h'; cases h'
      · cases ha.symm.trans h1
        cases hP.symm.trans h2
        have := sh.rh_lt; have := sh.rh_nonneg; have := sh.bases_len
        exact (metaAudit_eq_ok hk P rhIndex _ _ ⟨sh.rh_nonneg, by omega⟩).mp (sh.metaRh m _ rfl h3)
  · rintro ⟨h, hE, hR⟩
    obtain ⟨_, k', v, vs, e, sh, acc⟩ := ver_ok_iff.mp h
    cases e
    cases sh.reads.unique hk
    refine ver_ok_iff.mpr ⟨ipk, _, v, vs, rfl, { sh with metaEid := ?_, metaRh := ?_ }, acc⟩
    · rintro m' p ⟨⟩ hp
      rcases sh.eid with ⟨-, h'⟩ | ⟨-, an, P', h1, h2, h3⟩
      · rw [h'] at hp; cases hp
      · cases h3.symm.trans hp
        have hr := sh.eid_range (by rw [h3]; rfl)
        exact (metaAudit_eq_ok hk P' eidIndex _ _ ⟨hr.1, hr.2.1⟩).mpr (hE an P' h1 h2)
    · rintro m' p ⟨⟩ hp
      rcases sh.rh with ⟨-, h'⟩ | ⟨hv, an, P', h1, h2, h3⟩
      · rw [h'] at hp; cases hp
      · cases h3.symm.trans hp
        have := sh.rh_lt; have := sh.rh_nonneg; have := sh.bases_len
        exact (metaAudit_eq_ok hk P' rhIndex _ _ ⟨sh.rh_nonneg, by omega⟩).mpr (hR (noE hv) an P' h1 h2)

set_option maxRecDepth 4000 in
example : ∃ sig m, newSignature Toy.tr Ex.cred (4 : Toy.K) Ex.nym (2 : Toy.K) Ex.key.ipk Ex.discl [8] 2 1
      Ex.cri Ex.sigRnd .eidNym (some Ex.metaGood) = .ok (sig, m) ∧
    sig.ver Toy.tr Ex.discl (some Ex.key.ipk) [8] Ex.vals 2 1 () 0 .expectEidNym (some Ex.metaGood) = .ok () ∧
    sig.ver Toy.tr Ex.discl (some Ex.key.ipk) [8] Ex.vals 2 1 () 0 .expectEidNym none = .ok () ∧
    sig.ver Toy.tr Ex.discl (some Ex.key.ipk) [8] Ex.vals 2 1 () 0 .expectEidNym (some Ex.metaBad) =
      .err "does not match metadata" :=
  ⟨_, _, rfl, by decide, by decide, by decide⟩

end Idemix.Dlog
