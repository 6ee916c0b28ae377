import Verif.Msp.PropsReports
import Verif.Msp.PropsAgree
import Verif.Tools.PropsCli

/-!
# What credentials of signers certify, and the curve of a directory: C59, C83, C84

Concrete cases that meet the hypotheses of the theorems are in `Verif/Tools/ExamplesReports.lean`.
-/

namespace Idemix.Gen

open Msp (CurveId CspId World IMsp Ref Heap SetupRnd Platform SigningIdentity)

/-- C83. The issuer keys that set-up accepts have bytes, in both schemes: units are always reported with a certifier. -/
theorem C83_certifier (P : Platform) (p : CspId) (raw : Bytes) (ipk : (P.world.B p).IPK)
    (h : (P.world.B p).issuerPkFromBytes raw Msp.Spec.names = .ok ipk) : ∃ b, (P.world.B p).ipkBytes ipk = .ok b := by
  obtain ⟨aries, c⟩ := p
  cases aries
  · change ((P.env c).newPublicKeyFromBytes raw Msp.Spec.names >>= fun k => pure (Dyn.val k)) = .ok ipk at h
    obtain ⟨k, hk, h⟩ := Res.bind_eq_ok.mp h
    cases h
    have hn := Dlog.C02_import_success (P.env c) raw Msp.Spec.names k (by simp [Msp.Spec.names]) hk
    refine ⟨_, show Dlog.Wire.ipkCodec.marshal k = _ from if_pos ?_⟩
    simp only [hn, Msp.Spec.names, List.all_cons, List.all_nil, Bool.and_true, Bool.and_eq_true]
    exact ⟨utf8Valid_ascii _ (by decide), utf8Valid_ascii _ (by decide), utf8Valid_ascii _ (by decide),
      utf8Valid_ascii _ (by decide)⟩
  · change (Aries.newPublicKeyFromBytes (P.S c) raw Msp.Spec.names >>= fun k => pure (Dyn.val k)) = .ok ipk at h
    obtain ⟨k, hk, h⟩ := Res.bind_eq_ok.mp h
    cases h
    exact ⟨_, rfl⟩

/-! ## C84 -/

/-- The role number for which an MSP wants a credential, if the role of the signer's configuration is `role`: 2 for
administrators, 1 for all others. -/
def Spec.asked (role : Int) : Int := if role / 2 % 2 = 1 then 2 else 1

theorem asked_eq (role : Int) : Msp.Spec.credentialRole (Msp.Spec.mspRole role) = Spec.asked role := by
  unfold Msp.Spec.credentialRole Msp.Spec.mspRole Spec.asked
  split <;> rfl

/-- C84, dlog scheme. If an MSP has accepted a signer, whoever has written its configuration, then the issuer has certified
the signer's secret together with the unit, the role and the enrolment id of the configuration. -/
theorem C84_dlog_certified (P : Platform) (m m' : IMsp P.world) (ha : m.aries = false) (me : Ref) (t : Int) (raw : Bytes)
    (ρ : SetupRnd P.world) (h : m.setup me (some ⟨t, raw⟩) ρ = (m', .ok ())) (conf : Msp.IdemixConfig)
    (hc : Msp.Wire.configCodec.unmarshal raw = .ok conf) (s : Msp.SignerConfig) (hs : conf.signer = some s) :
    ∃ (c : CurveId) (ipk : Dlog.IssuerPublicKey) (sk : (P.S c).F) (cred : Dlog.Credential),
      Msp.Spec.SelectsCurve false conf.curveId c ∧ (P.env c).newPublicKeyFromBytes conf.ipk Msp.Spec.names = .ok ipk ∧
      (P.env c).userKeyFromBytes s.sk = .ok sk ∧ Dlog.Wire.credCodec.unmarshal s.cred = .ok cred ∧
      cred.ver (P.env c).T sk ipk = .ok () ∧
      cred.attrs[0]? = some ((P.S c).zrBytes ((P.S c).hashToZr s.ou)) ∧
      cred.attrs[1]? = some ((P.S c).zrBytes ((P.S c).zrOfInt (Spec.asked s.role))) ∧
      cred.attrs[2]? = some ((P.S c).zrBytes ((P.S c).hashToZr s.enrollmentId)) := by
  obtain ⟨csp, version, mipk, signer, name, mrpk, epoch, aries, exportable⟩ := m
  cases (show aries = false from ha)
  obtain ⟨conf', c, ipk, rpk, h1, -, h2, -, h3, -, h4⟩ := (Msp.C58_setup_exact _ _ _ _ _ _).mp h
  rw [hc] at h1; cases h1
  rcases h4 with ⟨h4, -⟩ | ⟨s', sk, nym, r, proof, ski, h4, ⟨-, h5, -, -, -, h6, -⟩, -⟩
  · rw [hs] at h4; cases h4
  rw [hs] at h4; cases h4
  change ((P.env c).newPublicKeyFromBytes conf.ipk Msp.Spec.names >>= fun k => pure (Dyn.val k)) = .ok ipk at h3
  obtain ⟨k, hk, h3⟩ := Res.bind_eq_ok.mp h3
  cases h3
  obtain ⟨cred, g1, g2, g3⟩ := (Dlog.C08_bridge_attributes (P.env c) sk k s.cred _).mp h6
  rw [asked_eq] at g3
  refine ⟨c, k, sk, cred, h2, hk, h5, g1, g2, ?_, ?_, ?_⟩
  · obtain h | ⟨x, ⟨⟩, hx⟩ := g3 0 _ rfl
    · cases h
    · exact hx
  · obtain h | ⟨x, ⟨⟩, hx⟩ := g3 1 _ rfl
    · cases h
    · exact hx
  · obtain h | ⟨x, ⟨⟩, hx⟩ := g3 2 _ rfl
    · cases h
    · exact hx

/-- C84, aries scheme. -/
theorem C84_aries_certified (P : Platform) (m m' : IMsp P.world) (ha : m.aries = true) (me : Ref) (t : Int) (raw : Bytes)
    (ρ : SetupRnd P.world) (h : m.setup me (some ⟨t, raw⟩) ρ = (m', .ok ())) (conf : Msp.IdemixConfig)
    (hc : Msp.Wire.configCodec.unmarshal raw = .ok conf) (s : Msp.SignerConfig) (hs : conf.signer = some s) :
    ∃ (c : CurveId) (ipk : Aries.IPK (P.S c)) (sk : (P.S c).F) (cred : Aries.Credential) (σ : Bbs.Sig (P.S c)) (k : Nat)
      (v : (P.S c).F),
      Msp.Spec.SelectsCurve true conf.curveId c ∧ Aries.newPublicKeyFromBytes (P.S c) conf.ipk Msp.Spec.names = .ok ipk ∧
      Aries.userKeyFromBytes (P.S c) s.sk = .ok sk ∧ Aries.Wire.credCodec.unmarshal s.cred = .ok cred ∧
      Bbs.parseSignature (P.S c) cred.cred = .ok σ ∧ cred.skPos = k ∧ k ≤ 4 ∧
      (cred.attrs.map (P.S c).zrOfBytes).take 4 =
        [Bbs.frFromOKM (P.lib c) s.ou, (P.S c).zrOfInt (Spec.asked s.role), Bbs.frFromOKM (P.lib c) s.enrollmentId, v] ∧
      Bbs.Spec.Signature ipk.w ipk.pkg.h0 ipk.pkg.h σ.a σ.e σ.s (Aries.Spec.withSecret k sk
        [Bbs.frFromOKM (P.lib c) s.ou, (P.S c).zrOfInt (Spec.asked s.role), Bbs.frFromOKM (P.lib c) s.enrollmentId, v]) := by
  obtain ⟨csp, version, mipk, signer, name, mrpk, epoch, aries, exportable⟩ := m
  cases (show aries = true from ha)
  obtain ⟨conf', c, ipk, rpk, h1, -, h2, -, h3, -, h4⟩ := (Msp.C58_setup_exact _ _ _ _ _ _).mp h
  rw [hc] at h1; cases h1
  rcases h4 with ⟨h4, -⟩ | ⟨s', sk, nym, r, proof, ski, h4, ⟨-, h5, -, -, -, h6, -⟩, -⟩
  · rw [hs] at h4; cases h4
  rw [hs] at h4; cases h4
  change (Aries.newPublicKeyFromBytes (P.S c) conf.ipk Msp.Spec.names >>= fun k => pure (Dyn.val k)) = .ok ipk at h3
  obtain ⟨k, hk, h3⟩ := Res.bind_eq_ok.mp h3
  cases h3
  have hkey : Aries.Spec.IsKey k k.w 4 := by
    rw [Aries.isKey_iff]
    have hk := hk
    simp only [Aries.newPublicKeyFromBytes, Res.bind_eq_ok] at hk
    obtain ⟨w, -, pk, hp, hk⟩ := hk
    rw [show ((Msp.Spec.names.length : Nat) : Int) = ((4 : Nat) : Int) from rfl, Aries.toPKG_names _ 4 (by omega)] at hp
    cases hp; cases hk
    rfl
  obtain ⟨cred, σ, j, g1, g2, g3, g4, g5, g6, g7⟩ := (Aries.C38_verify_exact (P.lib c) sk k k.w 4 hkey s.cred _ rfl).mp h6
  rw [asked_eq] at g6
  generalize hvs : (cred.attrs.map (P.S c).zrOfBytes).take 4 = vs at g6 g7
  match vs, g6 with
  | [a, b, d, e], .cons ha (.cons hb (.cons hd (.cons he .nil))) =>
    obtain ⟨-, y, hy, rfl⟩ | ⟨hy, -⟩ := ha (.inl rfl)
    · obtain ⟨hy', -⟩ | ⟨-, z, hz, rfl⟩ := hb (.inr rfl)
      · cases hy'
      obtain ⟨-, u, hu, rfl⟩ | ⟨hy', -⟩ := hd (.inl rfl)
      · cases hy; cases hz; cases hu
        exact ⟨c, k, sk, cred, σ, j, e, h2, hk, h5, g1, g2, g3, g4, hvs, g7⟩
      · cases hy'
    · cases hy

/-- C84 is violated. The generator of the dlog scheme takes any role mask, but an MSP accepts the signer only if the mask's value is that
of the mask 1 or 2 that the MSP makes of it: masks with both bits, with none of them, or with other bits make signers that
no MSP accepts. -/
theorem C84_masks_violated (P : Platform) (c : CurveId) (mask : Int) (ou eid rh isk ipk : Bytes) (revKey : (P.env c).dsa.Sk)
    (ρ : SignerRnd (P.S c) (P.env c).dsa) (config : Bytes)
    (hg : generateSignerConfig (P.env c) mask ou eid rh isk ipk revKey ρ = .ok config)
    (hmask : (P.S c).zrOfInt mask ≠ (P.S c).zrOfInt (Spec.asked mask)) :
    ∃ s, Msp.Wire.signerCodec.unmarshal config = .ok s ∧
      ∀ (m m' : IMsp P.world) (me : Ref) (raw : Bytes) (σ : SetupRnd P.world) (conf : Msp.IdemixConfig), m.aries = false →
        Msp.Wire.configCodec.unmarshal raw = .ok conf → conf.signer = some s → Msp.Spec.SelectsCurve false conf.curveId c →
        m.setup me (some ⟨1, raw⟩) σ ≠ (m', .ok ()) := by
  simp only [generateSignerConfig, Res.bind_eq_ok, packSigner] at hg
  obtain ⟨-, -, -, -, ipk', -, msg, -, cred, hcred, cb, hcb, cri, -, crib, -, u, hr, hm⟩ := hg
  have hw : Msp.SignerConfig.Wire ⟨cb, (P.S c).zrBytes ρ.sk, ou, mask, eid, crib, rh, [], []⟩ := by
    simp only [Res.guardErr_eq_ok, Bool.or_eq_false_iff, decide_eq_false_iff_not, not_lt] at hr
    exact ⟨by simp; omega, by simp; omega⟩
  refine ⟨_, Msp.Wire.signerCodec.rt _ _ hw hm, ?_⟩
  intro m m' me raw σ conf ha hc hs hsel h
  obtain ⟨c', k, sk, cred', e1, -, -, e2, -, -, e3, -⟩ := C84_dlog_certified P m m' ha me 1 raw σ h conf hc _ hs
  cases Msp.selects_unique hsel e1
  have := Dlog.Wire.credCodec.rt _ _ trivial hcb
  rw [this] at e2
  cases e2
  have : cred.attrs[1]? = some ((P.S c).zrBytes ((P.S c).zrOfInt mask)) := by
    simp only [Dlog.newCredential, Res.bind_eq_ok] at hcred
    obtain ⟨_, -, _, -, _, -, _, -, _, -, _, -, hcred⟩ := hcred
    cases hcred
    rfl
  rw [this] at e3
  have e := congrArg (P.S c).zrOfBytes (Option.some.inj e3)
  simp only [(P.S c).zrOfBytes_zrBytes] at e
  exact hmask e

/-- C84 is violated in the same way in the aries scheme. -/
theorem C84_aries_masks_violated (P : Platform) (c : CurveId) (mask : Int) (ou eid rh isk ipk : Bytes)
    (revKey : (P.env c).dsa.Sk) (ρ : AriesSignerRnd (P.S c) (P.env c).dsa) (config : Bytes)
    (hg : generateSignerConfigAries (P.lib c) (P.env c).dsa mask ou eid rh isk ipk revKey ρ = .ok config)
    (hmask : (P.S c).zrOfInt mask ≠ (P.S c).zrOfInt (Spec.asked mask)) :
    ∃ s, Msp.Wire.signerCodec.unmarshal config = .ok s ∧
      ∀ (m m' : IMsp P.world) (me : Ref) (raw : Bytes) (σ : SetupRnd P.world) (conf : Msp.IdemixConfig), m.aries = true →
        Msp.Wire.configCodec.unmarshal raw = .ok conf → conf.signer = some s → Msp.Spec.SelectsCurve true conf.curveId c →
        m.setup me (some ⟨2, raw⟩) σ ≠ (m', .ok ()) := by
  simp only [generateSignerConfigAries, Res.bind_eq_ok, packSigner] at hg
  obtain ⟨-, -, -, -, isk', hk, req, -, -, -, cred₀, -, cred, -, ⟨⟩, hv, cri, -, u, hr, hm⟩ := hg
  have hw : Msp.SignerConfig.Wire ⟨cred, (P.S c).zrBytes ρ.sk, ou, mask, eid, cri, rh, [], []⟩ := by
    simp only [Res.guardErr_eq_ok, Bool.or_eq_false_iff, decide_eq_false_iff_not, not_lt] at hr
    exact ⟨by simp; omega, by simp; omega⟩
  refine ⟨_, Msp.Wire.signerCodec.rt _ _ hw hm, ?_⟩
  intro m m' me raw σ conf ha hc hs hsel h
  obtain ⟨c', k, sk, cred', sg, j, v, e1, -, -, e2, -, -, -, e3, -⟩ := C84_aries_certified P m m' ha me 2 raw σ h conf hc _ hs
  cases Msp.selects_unique hsel e1
  have hkey : Aries.Spec.IsKey isk'.pk isk'.pk.w 4 := by
    rw [Aries.isKey_iff]
    simp only [Aries.newKeyFromBytes, Res.bind_eq_ok] at hk
    obtain ⟨w, -, pk, hp, hk⟩ := hk
    rw [show ((Msp.attributeNames.length : Nat) : Int) = ((4 : Nat) : Int) from rfl, Aries.toPKG_names _ 4 (by omega)] at hp
    cases hp; cases hk
    rfl
  obtain ⟨cred'', -, -, g1, -, -, -, -, g6, -⟩ := (Aries.C38_verify_exact (P.lib c) ρ.sk isk'.pk isk'.pk.w 4 hkey cred _ rfl).mp hv
  rw [g1] at e2
  cases e2
  rw [e3] at g6
  match g6 with
  | .cons _ (.cons hb _) =>
    obtain ⟨hy', -⟩ | ⟨-, z, hz, hzz⟩ := hb (.inr rfl)
    · cases hy'
    · cases hz
      exact hmask hzz.symm

/-- C84 is violated. The generator of the dlog scheme does not notice that the issuer's secret key is not the one of the
public key. Unless the signed point is neutral, no MSP with that public key accepts the signer it makes. -/
theorem C84_keys_violated (P : Platform) (c : CurveId) (mask : Int) (ou eid rh isk rawIpk : Bytes) (revKey : (P.env c).dsa.Sk)
    (ρ : SignerRnd (P.S c) (P.env c).dsa) (config : Bytes)
    (hg : generateSignerConfig (P.env c) mask ou eid rh isk rawIpk revKey ρ = .ok config) (ipk : Dlog.IssuerPublicKey)
    (hipk : Dlog.Wire.ipkCodec.unmarshal rawIpk = .ok ipk) (y : (P.S c).F)
    (hw : (P.env c).T.g2FromProto ipk.w = .ok (y • (P.S c).genG2)) (hy : (P.S c).zrOfBytes isk ≠ y) :
    ∃ s cred, Msp.Wire.signerCodec.unmarshal config = .ok s ∧ Dlog.Wire.credCodec.unmarshal s.cred = .ok cred ∧
      ((P.env c).T.g1FromProto cred.b ≠ .ok 0 →
        ∀ (m m' : IMsp P.world) (me : Ref) (raw : Bytes) (σ : SetupRnd P.world) (conf : Msp.IdemixConfig), m.aries = false →
          Msp.Wire.configCodec.unmarshal raw = .ok conf → conf.ipk = rawIpk → conf.signer = some s →
          Msp.Spec.SelectsCurve false conf.curveId c → m.setup me (some ⟨1, raw⟩) σ ≠ (m', .ok ())) := by
  simp only [generateSignerConfig, Res.bind_eq_ok, packSigner] at hg
  obtain ⟨-, -, -, -, ipk', -, msg, -, cred, hcred, cb, hcb, cri, -, crib, -, u, hr, hm⟩ := hg
  have hwire : Msp.SignerConfig.Wire ⟨cb, (P.S c).zrBytes ρ.sk, ou, mask, eid, crib, rh, [], []⟩ := by
    simp only [Res.guardErr_eq_ok, Bool.or_eq_false_iff, decide_eq_false_iff_not, not_lt] at hr
    exact ⟨by simp; omega, by simp; omega⟩
  have hread := Dlog.Wire.credCodec.rt _ _ trivial hcb
  refine ⟨_, cred, Msp.Wire.signerCodec.rt _ _ hwire hm, hread, ?_⟩
  intro hB m m' me raw σ conf ha hc hi hs hsel h
  obtain ⟨c', k, sk, cred', e1, e0, -, e2, e3, -⟩ := C84_dlog_certified P m m' ha me 1 raw σ h conf hc _ hs
  cases Msp.selects_unique hsel e1
  rw [hread] at e2
  cases e2
  have hkw : k.w = ipk.w := by
    rw [hi] at e0
    simp only [Dlog.Env.newPublicKeyFromBytes, Res.recovered_eq_ok, Res.bind_eq_ok, hipk] at e0
    obtain ⟨k₁, h1, k₂, h2, k₃, h3, _, -, h4⟩ := e0
    cases h1; cases h4
    have w1 : ∀ {a b : Dlog.IssuerPublicKey}, Dlog.setHash (S := P.S c) Dlog.Wire.ipkCodec.marshal a = .ok b → b.w = a.w := by
      intro a b h
      simp only [Dlog.setHash, Res.bind_eq_ok, Res.pure_def, Res.ok.injEq] at h
      obtain ⟨b, -, rfl⟩ := h
      rfl
    have w2 : ∀ {α : Type} {msg : String} {x : Res α} {a : α}, Dlog.wrapErr msg x = .ok a → x = .ok a := by
      intro α msg x a h
      cases x <;> simp_all [Dlog.wrapErr]
    rw [w1 (Dlog.check_setHash (w2 h3)), w1 (w2 h2)]
  obtain ⟨key, A, B, hk, hA, hB', -, hB'', hcr⟩ := (Dlog.C08_credential_verification_exact (P.env c).T cred sk k).mp e3
  have hkey : key.w = y • (P.S c).genG2 := by
    have := hk.w
    rw [hkw, hw] at this
    exact (Res.ok.inj this).symm
  simp only [Dlog.newCredential, Res.bind_eq_ok] at hcred
  obtain ⟨_, -, _, -, _, -, _, -, _, -, b, -, hcred⟩ := hcred
  cases hcred
  simp only [(P.env c).T.g1_rt, Res.ok.injEq] at hA hB'
  rw [← hB'] at hB''
  simp only [(P.S c).zrOfBytes_zrBytes] at hB''
  simp only [Dlog.Spec.IsCredential, hkey, (P.S c).zrOfBytes_zrBytes, ← hA, ← add_smul, map_smul,
    LinearMap.smul_apply, ← hB''] at hcr
  refine hB ?_
  simp only [(P.env c).T.g1_rt]
  by_cases hx : (P.S c).zrOfBytes isk + ρ.e = 0
  · rw [hx] at hcr
    simp only [inv_zero, zero_smul] at hcr
    rw [(P.S c).pair_nondeg _ hcr.symm]
  · have : (P.S c).pair (P.S c).genG2 (((P.S c).zrOfBytes isk - y) • b) = 0 := by
      rw [map_smul, sub_smul]
      have h2 := congrArg (((P.S c).zrOfBytes isk + ρ.e) • ·) hcr
      simp only [smul_smul] at h2
      rw [← mul_assoc, mul_inv_cancel₀ hx, one_mul, ← sub_eq_zero, ← sub_smul] at h2
      rw [← sub_smul, ← neg_eq_zero, ← neg_smul, ← h2]
      congr 1
      ring
    have := (P.S c).pair_nondeg _ this
    rcases smul_eq_zero.mp this with h0 | h0
    · exact absurd (sub_eq_zero.mp h0) hy
    · rw [h0]

/-! ## C59: the curve -/

/-- C59 is violated for all curves but the default ones: whatever curve the material in a directory was made for, an MSP set
up from the configuration read there uses the default curve of its scheme. -/
theorem C59_curve_violated (W : World) (read : List Bytes → Res Bytes) (id : Bytes) (t : Int) (conf : Msp.MSPConfig)
    (hconf : Msp.getConfig read id t = .ok conf) (m m' : IMsp W) (me : Ref) (σ : SetupRnd W)
    (h : m.setup me (some conf) σ = (m', .ok ())) :
    m'.csp = some ⟨m.aries, if m.aries then .bls12_381Bbs else .fp256bnAmcl⟩ := by
  simp only [Msp.getConfig, Res.bind_eq_ok] at hconf
  obtain ⟨_, -, ipk, -, rpk, -, hconf⟩ := hconf
  obtain ⟨sg, raw, hw, hraw, rfl⟩ : ∃ sg raw, (∀ s, sg = some s → s.Wire) ∧
      Msp.Wire.configCodec.marshal ⟨id, ipk, sg, rpk, 0, [], []⟩ = .ok raw ∧ conf = ⟨Msp.toInt32 t, raw⟩ := by
    split at hconf
    · simp only [Res.bind_eq_ok] at hconf
      obtain ⟨s, h1, sg, h2, raw, h3, h4⟩ := hconf
      cases h2; cases h4
      exact ⟨_, raw, fun s' e => by cases e; exact (signer_wire h1).1, h3, rfl⟩
    · simp only [Res.bind_eq_ok] at hconf
      obtain ⟨sg, h2, raw, h3, h4⟩ := hconf
      cases h2; cases h4
      exact ⟨none, raw, by simp, h3, rfl⟩
  have hu := Msp.Wire.configCodec.rt _ _ ⟨by simp [Proto.Int64], by simpa using hw⟩ hraw
  obtain ⟨conf', c, ipk', rpk', h1, -, h2, -, -, -, h3⟩ := (Msp.C58_setup_exact _ _ _ _ _ _).mp h
  rw [hu] at h1
  cases h1
  have hc : c = if m.aries then .bls12_381Bbs else .fp256bnAmcl := by
    obtain ⟨h | ⟨-, h⟩, -⟩ := h2
    · have h' : [] = ascii (Msp.Spec.curveName c) := h
      cases c <;> exact absurd h' (by decide)
    · exact h
  subst hc
  rcases h3 with ⟨-, rfl⟩ | ⟨s, sk, nym, r, proof, ski, -, -, rfl⟩ <;> rfl

end Idemix.Gen
