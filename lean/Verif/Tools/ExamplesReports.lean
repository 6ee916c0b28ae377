import Verif.Tools.PropsCertified
import Verif.Msp.PropsWellFormed
import Verif.Tools.Examples

/-!
# Concrete cases for C59_curve_violated, C83, C84 and C92
-/

namespace Idemix.Gen.Ex

open Msp (CurveId IMsp Ref Heap Identity SigningIdentity)

/-- C83_msp_partial, C83_signer, C83_certifier: the MSP of the dlog run reports its name, version and type, and has the
administrator of the run as default signer, whose unit is certified. -/
example : ∃ (m : IMsp P.world) (x : SigningIdentity P.world) (b : Bytes), m.getIdentifier = ascii "Org1" ∧ m.getVersion = 1 ∧
    m.getType = 1 ∧ m.getDefaultSigningIdentity = .ok x ∧ x.enrollmentId = ascii "alice" ∧
    x.identity.organizationalUnits (fun _ => m) = .ok [(b, ascii "sales")] := by
  obtain ⟨⟨t, raw⟩, m, x, h⟩ := dlog_run
  have h1 := (Msp.C83_msp_partial _ _ _ _ _ _ h.setup).2
  obtain ⟨conf, hc⟩ : ∃ conf, Msp.Wire.configCodec.unmarshal raw = .ok conf := by
    obtain ⟨conf, -, -, -, hc, -⟩ := (Msp.C58_setup_exact _ _ _ _ _ _).mp h.setup
    exact ⟨conf, hc⟩
  cases hs : conf.signer with
  | none =>
    obtain ⟨e, he⟩ := Msp.C83_no_signer_partial _ _ _ _ _ _ _ h.setup conf hc hs
    simp [Msp.IMsp.getDefaultSigningIdentity, h.signer, Res.ofOption] at he
  | some s =>
    obtain ⟨y, p, ipk, e1, e2, -, -, -, e3, e4⟩ := Msp.C83_signer _ _ _ _ _ _ h.setup conf hc s hs
    have hy : y = x := by
      simp only [Msp.IMsp.getDefaultSigningIdentity, h.signer, Res.ofOption] at e1
      exact (Res.ok.inj e1).symm
    subst hy
    obtain ⟨b, hb⟩ := C83_certifier P p _ _ e2
    refine ⟨m, y, b, h.name, h1.1, rfl, e1, h.eid, ?_⟩
    rw [(e4 (fun _ => m) rfl).units b hb, ← e3, h.ou]

/-- C83_type_violated: the MSP of the aries run. -/
example : ∃ (m : IMsp P.world) (conf : Msp.MSPConfig), m.aries = true ∧ (m.setup 0 (some conf) setupRnd).2 = .ok () ∧
    (m.setup 0 (some conf) setupRnd).1.getType ≠ conf.type := by
  obtain ⟨⟨t, raw⟩, m, x, h⟩ := aries_run
  refine ⟨_, ⟨t, raw⟩, rfl, by rw [h.setup], ?_⟩
  rw [h.setup]
  exact (Msp.C83_type_violated _ _ _ _ _ _ rfl h.setup).1

/-- The configuration of a run, but under the name `Org2` and without signer. -/
theorem unsigned {aries : Bool} {t : Int} {raw : Bytes} {m : IMsp P.world} {x : SigningIdentity P.world}
    (h : Run aries ⟨t, raw⟩ m x) :
    ∃ (conf conf₂ : Msp.IdemixConfig) (s : Msp.SignerConfig) (raw₂ : Bytes), Msp.Wire.configCodec.unmarshal raw = .ok conf ∧
      conf.signer = some s ∧ conf.name = ascii "Org1" ∧ Msp.Wire.configCodec.unmarshal raw₂ = .ok conf₂ ∧
      conf₂.signer = none ∧ conf₂.name = ascii "Org2" ∧ m.aries = aries ∧
      ∀ m₀ : IMsp P.world, m₀.aries = aries → ∃ m', m₀.setup 0 (some ⟨t, raw₂⟩) setupRnd = (m', .ok ()) := by
  obtain ⟨conf, c, ipk, rpk, h1, h2, hc, h0, h3, h4, h5 | ⟨s, sk, nym, r, proof, ski, h5, h6, h7⟩⟩ :=
    (Msp.C58_setup_exact _ _ _ _ _ _).mp h.setup
  · have := h.signer
    rw [h5.2] at this
    cases this
  · have hu : Proto.utf8Valid (ascii (Msp.Spec.curveName c)) = true := by cases c <;> exact utf8 _ (by decide)
    obtain ⟨raw₂, hm⟩ : ∃ raw, Msp.Wire.configCodec.marshal
        ⟨ascii "Org2", conf.ipk, none, conf.revocationPk, 0, ascii (Msp.Spec.curveName c), []⟩ = .ok raw := by
      simp [Msp.Wire.configCodec, Proto.codec, Msp.Wire.configOk, utf8 "Org2" (by decide), hu,
        show Proto.utf8Valid [] = true from rfl]
    have hu₂ := Msp.Wire.configCodec.rt _ _ ⟨by simp [Proto.Int64], by simp⟩ hm
    have hn := h.name
    have ha : m.aries = aries := by rw [h7]; rfl
    rw [h7] at hn
    refine ⟨conf, _, s, raw₂, h1, h5, hn, hu₂, rfl, rfl, ha, fun m₀ h₀ => ?_⟩
    obtain ⟨csp, version, mipk, signer, name, mrpk, epoch, aries', exportable⟩ := m₀
    cases (show aries' = aries from h₀)
    exact ⟨_, (Msp.C58_setup_exact _ _ _ _ _ _).mpr
      ⟨_, c, ipk, rpk, hu₂, h2, ⟨.inl rfl, hc.2⟩, h0, h3, h4, .inl ⟨rfl, rfl⟩⟩⟩

/-- C83_no_signer_partial, C83_stale_signer_violated: the MSPs of both runs, set up once more. -/
theorem stale {aries : Bool} {t : Int} {raw : Bytes} {m : IMsp P.world} {x : SigningIdentity P.world}
    (h : Run aries ⟨t, raw⟩ m x) :
    (∃ m' raw' e, (Msp.newMsp P.world aries 1).setup 0 (some ⟨t, raw'⟩) setupRnd = (m', .ok ()) ∧
      m'.getDefaultSigningIdentity = .err e) ∧
    ∃ m' raw' y, m.setup 0 (some ⟨t, raw'⟩) setupRnd = (m', .ok ()) ∧ m'.getDefaultSigningIdentity = .ok y ∧
      y.identity.idMsp = ascii "Org1" ∧ y.identity.mspIdentifier (fun _ => m') = ascii "Org2" := by
  obtain ⟨conf, conf₂, s, raw₂, h1, h2, h3, h4, h5, h6, ha, h7⟩ := unsigned h
  obtain ⟨m₁, e₁⟩ := h7 (Msp.newMsp P.world aries 1) rfl
  obtain ⟨m₂, e₂⟩ := h7 m ha
  obtain ⟨e, he⟩ := Msp.C83_no_signer_partial _ _ _ _ _ _ _ e₁ _ h4 h5
  obtain ⟨y, _, _, g1, -, -, g2⟩ := Msp.C83_stale_signer_violated _ _ _ _ _ _ _ _ _ _ h.setup e₂ conf conf₂ h1 h4 s h2 h5
    (by rw [h3, h6]; decide)
  obtain ⟨-, g3, g4, -⟩ := g2 (fun _ => m₂) rfl
  exact ⟨⟨m₁, raw₂, e, e₁, he⟩, m₂, raw₂, y, e₂, g1, g3.trans h3, g4.trans h6⟩

/-- C83_deserialized: the serialized administrator of a run. -/
example : ∃ (heap : Heap P.world) (b : Bytes) (i : Identity P.world), Msp.deserializeIdentity heap 0 b = .ok i ∧
    i.mspIdentifier heap = ascii "Org1" := by
  obtain ⟨⟨t, raw⟩, m, x, h⟩ := dlog_run
  obtain ⟨b, raw', h1, h2, -, -, -, h3⟩ := round_trip h
  obtain ⟨conf, _, _, c1, -, c2⟩ := Msp.C83_deserialized _ (fun _ => m) 0 t raw setupRnd h.setup b _ h3
  refine ⟨fun _ => m, b, _, h3, ?_⟩
  rw [c2.mspIdentifier]
  obtain ⟨conf', d1, d2⟩ := (Msp.C83_msp_partial _ _ _ _ _ _ h.setup).1
  rw [c1] at d1
  cases d1
  exact d2.symm.trans h.name

/-- C92: the serialized administrator of a run is well formed, also for an MSP that was not set up; an identity of another
type is not. -/
example : ∃ (heap : Heap P.world) (b : Bytes) (i : Identity P.world) (s : Msp.SerializedIdentity),
    Msp.deserializeIdentity heap 0 b = .ok i ∧ Msp.Wire.serialCodec.unmarshal b = .ok s ∧ s.mspid = ascii "Org1" ∧
    (heap 0).isWellFormed (some s) = .ok () ∧ (Msp.newMsp P.world true 0).isWellFormed (some s) = .ok () ∧
    ∃ m, (heap 0).isWellFormed (some { s with idBytes := ascii "certificate" }) = .err m := by
  obtain ⟨⟨t, raw⟩, m, x, h⟩ := dlog_run
  obtain ⟨b, raw', h1, h2, h3, -, -, h4⟩ := round_trip h
  obtain ⟨s, s1, s2, s3⟩ := Msp.C92_serialized_partial _ _ _ _ h1 h2 h3
  exact ⟨fun _ => m, b, _, s, h4, s1, s2.trans h.name, Msp.C92_read_partial _ _ _ _ h4 s s1 _, s3 _, _, rfl⟩

/-- C84_dlog_certified: the credential of the administrator carries role 2. -/
example : ∃ cred : Dlog.Credential, cred.attrs[1]? = some (S.zrBytes (S.zrOfInt 2)) := by
  obtain ⟨⟨t, raw⟩, m, x, h⟩ := dlog_run
  obtain ⟨conf, conf₂, s, raw₂, h1, h2, -⟩ := unsigned h
  obtain ⟨y, -, -, e1, -, -, -, e2, -⟩ := Msp.C83_signer _ _ _ _ _ _ h.setup conf h1 s h2
  have hy : y = x := by
    simp only [Msp.IMsp.getDefaultSigningIdentity, h.signer, Res.ofOption] at e1
    exact (Res.ok.inj e1).symm
  subst hy
  obtain ⟨c, ipk, sk, cred, -, -, -, -, -, -, e3, -⟩ := C84_dlog_certified P _ _ rfl _ _ _ _ h.setup conf h1 s h2
  refine ⟨cred, ?_⟩
  have hr := h.role
  rw [e2] at hr
  have hm : s.role / 2 % 2 = 1 := by
    by_contra hne
    simp [Msp.Spec.mspRole, hne] at hr
  rw [e3, Spec.asked, if_pos hm]

/-- C84_aries_certified applies to the aries run. -/
example : ∃ (ipk : Aries.IPK S) (sg : Bbs.Sig S) (l : List S.F),
    Bbs.Spec.Signature ipk.w ipk.pkg.h0 ipk.pkg.h sg.a sg.e sg.s l := by
  obtain ⟨⟨t, raw⟩, m, x, h⟩ := aries_run
  obtain ⟨conf, conf₂, s, raw₂, h1, h2, -⟩ := unsigned h
  obtain ⟨c, ipk, sk, cred, sg, k, v, -, -, -, -, -, -, -, -, e⟩ := C84_aries_certified P _ _ rfl _ _ _ _ h.setup conf h1 s h2
  exact ⟨ipk, sg, _, e⟩

/-- Whether there is a result. -/
def isOk {α : Type} : Res α → Bool
  | .ok _ => true
  | _ => false

theorem isOk_iff {α : Type} {x : Res α} (h : isOk x = true) : ∃ a, x = .ok a := by
  cases x with
  | ok a => exact ⟨a, rfl⟩
  | err _ => cases h
  | panic => cases h

/-- A signer of the dlog scheme with the mask 3. -/
def both : Res Bytes := do
  let k ← generateIssuerKey E keygenRnd.issuer
  generateSignerConfig E 3 [115] [97] [49] k.1 k.2 (9 : UInt8) userRnd.dlog

/-- A signer of the aries scheme with the mask 3. -/
def bothAries : Res Bytes := do
  let k ← generateIssuerKeyAries L keygenRnd.seed
  generateSignerConfigAries L Ecdsa.toy 3 [115] [97] [49] k.1 k.2 (9 : UInt8) userRnd.aries

set_option maxRecDepth 100000 in
/-- C84_masks_violated: the mask 3 of administrators who are members. -/
example : ∃ (isk ipk config : Bytes),
    generateSignerConfig (P.env .bn254) 3 [115] [97] [49] isk ipk (9 : UInt8) userRnd.dlog = .ok config ∧
    S.zrOfInt 3 ≠ S.zrOfInt (Spec.asked 3) := by
  obtain ⟨config, h⟩ := isOk_iff (show isOk both = true by decide +kernel)
  simp only [both, Res.bind_eq_ok] at h
  obtain ⟨k, -, h⟩ := h
  exact ⟨k.1, k.2, config, h, by decide⟩

set_option maxRecDepth 100000 in
/-- C84_aries_masks_violated. -/
example : ∃ (isk ipk config : Bytes),
    generateSignerConfigAries (P.lib .bls12_381Bbs) (P.env .bls12_381Bbs).dsa 3 [115] [97] [49] isk ipk (9 : UInt8) userRnd.aries =
      .ok config ∧ S.zrOfInt 3 ≠ S.zrOfInt (Spec.asked 3) := by
  obtain ⟨config, h⟩ := isOk_iff (show isOk bothAries = true by decide +kernel)
  simp only [bothAries, Res.bind_eq_ok] at h
  obtain ⟨k, -, h⟩ := h
  exact ⟨k.1, k.2, config, h, by decide⟩

/-- A signer of the dlog scheme, made with the secret key 4 for the public key of the secret key 3, and what it consists of. -/
def mixed : Res (Bytes × Bytes × Dlog.IssuerPublicKey × Dlog.Credential) := do
  let k ← generateIssuerKey E keygenRnd.issuer
  let config ← generateSignerConfig E 2 [115] [97] [49] (S.zrBytes (4 : Toy.K)) k.2 (9 : UInt8) userRnd.dlog
  let s ← Msp.Wire.signerCodec.unmarshal config
  return (k.2, config, ← Dlog.Wire.ipkCodec.unmarshal k.2, ← Dlog.Wire.credCodec.unmarshal s.cred)

set_option maxRecDepth 100000 in
/-- C84_keys_violated: the signed point is not neutral, and no MSP accepts the signer. -/
example : ∃ (config ipk : Bytes) (s : Msp.SignerConfig),
    generateSignerConfig (P.env .bn254) 2 [115] [97] [49] (S.zrBytes (4 : Toy.K)) ipk (9 : UInt8) userRnd.dlog = .ok config ∧
    Msp.Wire.signerCodec.unmarshal config = .ok s ∧
    ∀ (m m' : IMsp P.world) (raw : Bytes) (σ : Msp.SetupRnd P.world) (conf : Msp.IdemixConfig), m.aries = false →
      Msp.Wire.configCodec.unmarshal raw = .ok conf → conf.ipk = ipk → conf.signer = some s →
      Msp.Spec.SelectsCurve false conf.curveId .bn254 → m.setup 0 (some ⟨1, raw⟩) σ ≠ (m', .ok ()) := by
  obtain ⟨a, ha⟩ := isOk_iff (show isOk mixed = true by decide +kernel)
  have h1 : (mixed.bind fun a => E.T.g2FromProto a.2.2.1.w) = .ok ((3 : Toy.K) • S.genG2) := by decide +kernel
  have h2 : (mixed.bind fun a => E.T.g1FromProto a.2.2.2.b) ≠ .ok 0 := by decide +kernel
  rw [ha] at h1 h2
  simp only [mixed, Res.bind_eq_ok] at ha
  obtain ⟨k, -, config, hg, s, hs, ipk, hipk, cred, hcred, ha⟩ := ha
  cases ha
  obtain ⟨s', cred', e1, e2, e3⟩ := C84_keys_violated P .bn254 _ _ _ _ _ _ _ _ _ hg ipk hipk (3 : Toy.K) h1 (by decide)
  rw [hs] at e1
  cases e1
  rw [hcred] at e2
  cases e2
  exact ⟨config, _, s, hg, hs, fun m m' raw σ conf => e3 h2 m m' 0 raw σ conf⟩

/-- C59_curve_violated applies to the runs. -/
example : ∃ (read : List Bytes → Res Bytes) (t : Int) (conf : Msp.MSPConfig) (m : IMsp P.world),
    Msp.getConfig read (ascii "Org1") t = .ok conf ∧ (Msp.newMsp P.world true 1).setup 0 (some conf) setupRnd = (m, .ok ()) ∧
    m.csp = some ⟨true, .bls12_381Bbs⟩ := by
  obtain ⟨conf, m, x, h⟩ := aries_run
  obtain ⟨l₁, fs₁, l₂, fs₂, -, -, -, -, e⟩ := h.files
  exact ⟨_, _, conf, m, e, h.setup, C59_curve_violated _ _ _ _ _ e _ _ _ _ h.setup⟩

end Idemix.Gen.Ex
