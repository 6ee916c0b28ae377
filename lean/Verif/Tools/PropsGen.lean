import Verif.Tools.Gen
import Verif.Msp.PropsSetup
import Verif.Msp.PropsNym

/-!
# What the generator makes is accepted: C59

Concrete cases that meet the hypotheses of the theorems are in `Verif/Tools/Examples.lean`.
-/

namespace Idemix.Gen

open Msp (CurveId CspId World IMsp Ref Heap SetupRnd Platform SigningIdentity)
open Provider (Backend Key NymSigOpts SignerOpts)
open Proto (utf8Valid)

namespace Spec

/-- An MSP accepts a configuration: set-up succeeds; the MSP gets the name; the default signer has the enrolment id, the
unit and the role; the MSP validates it; and the MSP accepts its signatures on all messages. -/
def SetsUp {W : World} (m : IMsp W) (me : Ref) (σ : SetupRnd W) (conf : Msp.MSPConfig) (name ou eid : Bytes)
    (admin : Bool) : Prop :=
  ∃ (m' : IMsp W) (x : SigningIdentity W),
    m.setup me (some conf) σ = (m', .ok ()) ∧ m'.signer = some x ∧ m'.name = name ∧ x.enrollmentId = eid ∧
    x.identity.ou.ou = ou ∧ x.identity.role.role = (if admin then 1 else 0) ∧
    ∀ h : Heap W, h me = m' → Msp.validate h me (.signing x) = .ok () ∧
      ∀ (msg : Bytes) (τ : (p : CspId) → (W.B p).Rnd), ∃ sig, x.sign h msg τ = .ok sig ∧
        x.identity.verify h msg sig = .ok ()

/-- An MSP accepts generated material: it accepts every configuration that contains the issuer key `ipk`, the revocation
key `rpk`, the signer configuration `config` and the name `curve`. -/
def Accepts {W : World} (m : IMsp W) (me : Ref) (σ : SetupRnd W) (ipk rpk config curve ou eid : Bytes) (admin : Bool) :
    Prop :=
  ∃ s, Msp.Wire.signerCodec.unmarshal config = .ok s ∧
    ∀ (raw : Bytes) (conf : Msp.IdemixConfig), Msp.Wire.configCodec.unmarshal raw = .ok conf → conf.ipk = ipk →
      conf.revocationPk = rpk → conf.signer = some s → conf.curveId = curve →
      SetsUp m me σ ⟨Msp.Spec.configType m.aries, raw⟩ conf.name ou eid admin

end Spec

/-! ## From the scheme to the MSP -/

theorem roleMask_eq (admin : Bool) : roleMask admin = if admin then 2 else 1 := by cases admin <;> rfl

theorem role_of (admin : Bool) : Msp.Spec.mspRole (roleMask admin) = if admin then 1 else 0 := by cases admin <;> rfl

theorem credentialRole_of (admin : Bool) :
    Msp.Spec.credentialRole (Msp.Spec.mspRole (roleMask admin)) = roleMask admin := by cases admin <;> rfl

open Provider Provider.Spec in
theorem sign_nym_ok {W : World} {p : CspId} {e e' : Bool} {sk : (W.S p).F} {r : (W.S p).F} {nym : (W.S p).G1}
    {ipk : (W.B p).IPK} {msg : Bytes} {ρ : (W.B p).Rnd} {sig : Bytes}
    (h : (W.B p).nymSign sk nym r ipk msg ρ = .ok sig) :
    ∃ o, Provider.sign (Provider.provider (W.B p) e) (some (.userSk sk e')) msg
      (some (.nymSig { nym := some (newNymSecretKey (W.B p) r nym e'), issuerPK := some (.issuerPk ipk),
                       isSmartcard := false, smartcard := none, nymEid := none, nymG1 := none, rNym := none,
                       skIndex := 0 })) ρ = .ok (sig, o) := by
  have h' := C46_sign_dispatch_partial (B := W.B p) e (some (.userSk sk e')) msg
      (some (.nymSig { nym := some (newNymSecretKey (W.B p) r nym e'), issuerPK := some (.issuerPk ipk),
                       isSmartcard := false, smartcard := none, nymEid := none, nymG1 := none, rNym := none,
                       skIndex := 0 })) ρ (by simp [NoHandler])
  simp only [signCall, newNymSecretKey, h, Res.ok_bind, Obeys] at h' ⊢
  generalize Provider.sign _ _ _ _ _ = v at h' ⊢
  cases v with
  | ok y => simp only [Agree] at h'; subst h'; exact ⟨_, rfl⟩
  | err e => simp [Agree] at h'
  | panic => simp [Agree] at h'

/-- What the schemes have to provide for `Spec.Accepts`. -/
theorem accepts_of {W : World} (m : IMsp W) (me : Ref) (σ : SetupRnd W) (c : CurveId)
    (hc : m.aries = true → c = .bls12_381Bbs ∨ c = .bls12_381BbsGurvy) (curve : Bytes)
    (hcurve : curve = ascii (Msp.Spec.curveName c) ∨
      curve = [] ∧ c = if m.aries then CurveId.bls12_381Bbs else CurveId.fp256bnAmcl) (ipkRaw rpkRaw config ou eid : Bytes)
    (admin : Bool) (ipk : (W.B ⟨m.aries, c⟩).IPK) (hne : ipkRaw ≠ [])
    (hipk : (W.B ⟨m.aries, c⟩).issuerPkFromBytes ipkRaw Msp.Spec.names = .ok ipk) (rpk : (W.B ⟨m.aries, c⟩).dsa.Pk)
    (hrpk : Msp.Spec.RevocationKey (W.B ⟨m.aries, c⟩) rpkRaw rpk) (s : Msp.SignerConfig)
    (hs : Msp.Wire.signerCodec.unmarshal config = .ok s) (hou : s.ou = ou) (heid : s.enrollmentId = eid)
    (hrole : s.role = roleMask admin) (sk r : (W.S ⟨m.aries, c⟩).F) (nym : (W.S ⟨m.aries, c⟩).G1) (proof ski : Bytes)
    (hsigner : Msp.Spec.Signer (W.B ⟨m.aries, c⟩) ipk s (σ ⟨m.aries, c⟩) sk nym r proof ski) (hproof : proof ≠ [])
    (hverify : ∀ rpk epoch, (W.B ⟨m.aries, c⟩).verify ipk proof []
      [⟨1, .bytes ou⟩, ⟨2, .int (roleMask admin)⟩, ⟨0, .other⟩, ⟨0, .other⟩] 3 2 0 rpk epoch .basic none = .ok ())
    (hnym : ∀ msg ρ, ∃ sig, (W.B ⟨m.aries, c⟩).nymSign sk nym r ipk msg ρ = .ok sig ∧ sig ≠ [] ∧
      (W.B ⟨m.aries, c⟩).nymVerify ipk nym sig msg 0 = .ok ()) :
    Spec.Accepts m me σ ipkRaw rpkRaw config curve ou eid admin := by
  refine ⟨s, hs, fun raw conf hconf h1 h2 h3 h4 => ?_⟩
  subst h1 h2 hou heid
  refine ⟨_, _, (Msp.C58_setup_exact m _ me _ raw σ).mpr ⟨conf, c, ipk, rpk, hconf, rfl, ⟨by rw [h4]; exact hcurve, hc⟩,
    hne, hipk, hrpk, .inr ⟨s, sk, nym, r, proof, ski, h3, hsigner, rfl⟩⟩, rfl, rfl, rfl, rfl, ?_, ?_⟩
  · change Msp.Spec.mspRole s.role = _
    rw [hrole, role_of]
  · intro h hh
    refine ⟨?_, ?_⟩
    · rw [Msp.C57_validate_exact]
      refine ⟨_, .inr ⟨_, rfl, rfl⟩, rfl, ?_⟩
      change Msp.Spec.Proves (h me) s.ou (Msp.Spec.mspRole s.role) proof
      refine ⟨⟨m.aries, c⟩, ipk, some rpk, by rw [hh]; rfl, by rw [hh]; rfl, by rw [hh]; rfl, hproof, ?_⟩
      rw [hrole, credentialRole_of]
      exact hverify _ _
    · intro msg τ
      obtain ⟨sig, e1, e2, e3⟩ := hnym msg (τ ⟨m.aries, c⟩)
      refine ⟨sig, ?_, ?_⟩
      · obtain ⟨o, ho⟩ := sign_nym_ok (W := W) (p := ⟨m.aries, c⟩) (e := m.exportable) (e' := m.exportable) e1
        have hp : (h me).provider = .ok ⟨m.aries, c⟩ := by rw [hh]; rfl
        have hr : (h me).registry ⟨m.aries, c⟩ = Provider.provider (W.B ⟨m.aries, c⟩) m.exportable := by rw [hh]; rfl
        have hk : (h me).ipk = some ⟨⟨m.aries, c⟩, .issuerPk ipk⟩ := by rw [hh]; rfl
        simp only [SigningIdentity.sign, Msp.Spec.signer, hp, hr, hk, Res.ok_bind, Option.map_some,
          Msp.AnyKey.under_self, ho, Res.pure_def]
      · rw [Msp.C56_verify_exact]
        exact ⟨⟨m.aries, c⟩, ipk, nym, by change (h me).csp = _; rw [hh]; rfl, by change (h me).ipk = _; rw [hh]; rfl, rfl,
          e2, e3⟩

/-! ## The dlog scheme -/

section

variable {S : Suite}

/-- The scalars of a signer's attributes: the hashes of unit, enrolment id and revocation handle, and the role. -/
def Spec.values (S : Suite) (role : Int) (ou eid rh : Bytes) : List S.F :=
  [S.hashToZr ou, S.zrOfInt role, S.hashToZr eid, S.hashToZr rh]

/-- The samples for which the generator works, all but a negligible fraction: those for which no inversion of zero
happens, and the signed point is not the neutral element. -/
structure Spec.Samples (κ : Dlog.IssuerRand S) (sk e s : S.F) (values : List S.F) : Prop where
  attrs : κ.attrs.length = 4
  bar : κ.barG1 ≠ 0
  inv : κ.isk + e ≠ 0
  point : 1 + sk * κ.hSk + s * κ.hRand + (List.zipWith (· * ·) values κ.attrs).sum ≠ 0

theorem reads_new {T : Translator S} {m : Dlog.IpkMarshal} {names : List Bytes} {κ : Dlog.IssuerRand S}
    {key : Dlog.IssuerKey} (h : Dlog.newIssuerKey T m names κ = .ok key) :
    Dlog.Reads T key.ipk ⟨κ.hSk • S.genG1, κ.hRand • S.genG1, κ.attrs.map (· • S.genG1), κ.isk • S.genG2⟩ ∧
      key.ipk.attributeNames = names := by
  simp only [Dlog.newIssuerKey, Res.bind_eq_ok, Res.pure_def, Res.ok.injEq] at h
  obtain ⟨_, -, _, -, d, -, b, -, rfl⟩ := h
  refine ⟨⟨by simp [Dlog.unhashedIpk], by simp [Dlog.unhashedIpk], ?_, by simp [Dlog.unhashedIpk]⟩, rfl⟩
  have := Dlog.parseAttrs_toProto (T := T) (κ.attrs.map (· • S.genG1))
  simpa [Dlog.unhashedIpk, Function.comp_def] using this

theorem lin_gen (xs ys : List S.F) :
    S.lin xs (ys.map (· • S.genG1)) = (List.zipWith (· * ·) xs ys).sum • S.genG1 := by
  induction xs generalizing ys with
  | nil => simp
  | cons x xs ih =>
    cases ys with
    | nil => simp
    | cons y ys => simp [ih, add_smul, mul_smul]

theorem cred_nontrivial {T : Translator S} {κ : Dlog.IssuerRand S} {key : Dlog.IssuerKey}
    (hk : Dlog.Reads T key.ipk
      ⟨κ.hSk • S.genG1, κ.hRand • S.genG1, κ.attrs.map (· • S.genG1), κ.isk • S.genG2⟩) {cred : Dlog.Credential}
    {sk s : S.F} {values : List S.F} (hver : cred.ver T sk key.ipk = .ok ()) (hs : S.zrOfBytes cred.s = s)
    (hv : cred.attrs.map S.zrOfBytes = values)
    (hne : 1 + sk * κ.hSk + s * κ.hRand + (List.zipWith (· * ·) values κ.attrs).sum ≠ 0) :
    ∃ A, T.g1FromProto cred.a = .ok A ∧ A ≠ 0 := by
  obtain ⟨k, A, B, h1, h2, h3, -, h5, h6⟩ := Dlog.credVer_ok_iff.mp hver
  cases h1.unique hk
  refine ⟨A, h2, ?_⟩
  rintro rfl
  apply hne
  rw [Dlog.Spec.IsCredential, map_zero, hs, hv] at h6
  have h7 := S.pair_nondeg _ h6.symm
  simp only [Dlog.Spec.signed, lin_gen] at h7
  have h8 : (1 + sk * κ.hSk + s * κ.hRand + (List.zipWith (· * ·) values κ.attrs).sum) • S.genG1 = 0 := by
    rw [← h7]; module
  rcases smul_eq_zero.mp h8 with h | h
  · exact h
  · exact absurd h S.genG1_ne

theorem names_eq : Msp.attributeNames = Msp.Spec.names := rfl

theorem names_nodup : Msp.attributeNames.Nodup := by decide

theorem utf8Valid_ascii (b : Bytes) (h : ∀ c ∈ b, c.toNat < 128) : utf8Valid b = true := by
  induction b with
  | nil => rfl
  | cons c b ih =>
    unfold utf8Valid
    simp only [h c (by simp), if_true]
    exact ih fun c hc => h c (by simp [hc])

theorem names_utf8 : ∀ n ∈ Msp.attributeNames, utf8Valid n = true := fun n hn =>
  utf8Valid_ascii n ((by decide : ∀ n ∈ Msp.attributeNames, ∀ c ∈ n, c.toNat < 128) n hn)

/-- The pieces of a generated dlog signer. -/
theorem dlog_generated (E : Dlog.Env S) (κ : Dlog.IssuerRand S) (ρ : SignerRnd S E.dsa) (admin : Bool)
    (ou eid rh : Bytes) (hou : ou ≠ []) (heid : eid ≠ []) (u1 : utf8Valid ou = true) (u2 : utf8Valid eid = true)
    (u3 : utf8Valid rh = true) (hρ : Spec.Samples κ ρ.sk ρ.e ρ.s (Spec.values S (roleMask admin) ou eid rh))
    (revKey : E.dsa.Sk) (hsign : ∀ d, ∃ sig, E.dsa.sign revKey ρ.dsa d = .ok sig) :
    ∃ isk rawIpk config ipk cred cri s, generateIssuerKey E κ = .ok (isk, rawIpk) ∧
      generateSignerConfig E (roleMask admin) ou eid rh isk rawIpk revKey ρ = .ok config ∧
      rawIpk ≠ [] ∧ E.newPublicKeyFromBytes rawIpk Msp.Spec.names = .ok ipk ∧ ipk.attributeNames.length = 4 ∧
      Msp.Wire.signerCodec.unmarshal config = .ok s ∧ s.ou = ou ∧ s.role = roleMask admin ∧ s.enrollmentId = eid ∧
      s.revocationHandle = rh ∧ s.sk = S.zrBytes ρ.sk ∧ Dlog.Wire.credCodec.unmarshal s.cred = .ok cred ∧
      Dlog.Wire.criCodec.unmarshal s.cri = .ok cri ∧
      cred.attrs = (Spec.values S (roleMask admin) ou eid rh).map S.zrBytes ∧ cred.ver E.T ρ.sk ipk = .ok () ∧
      (∃ A, E.T.g1FromProto cred.a = .ok A ∧ A ≠ 0) ∧ cri.revocationAlg = 0 ∧
      ∃ P, E.T.g2FromProto cri.epochPk = .ok P := by
  obtain ⟨key, req, cred, h1, h2, h3, h4, h5⟩ := Dlog.C06_issued_credential_verifies E.T Dlog.Wire.ipkCodec.marshal
    Msp.attributeNames κ names_nodup hρ.attrs (fun i hi => ⟨_, Dlog.ipk_marshal (hi ▸ names_utf8)⟩) ρ.sk ρ.rSk
    (S.zrBytes ρ.nonce) (by simp) (Spec.values S (roleMask admin) ou eid rh) rfl ρ.e ρ.s hρ.inv
  obtain ⟨key', rawIpk, _, g1, g2, -, g3, g4, -⟩ := Dlog.C01_generated_issuer_key_imports E Msp.attributeNames κ
    names_nodup names_utf8 hρ.attrs hρ.bar
  rw [Dlog.Env.newKey, h1] at g1
  cases g1
  obtain ⟨hreads, hnames⟩ := reads_new h1
  obtain ⟨-, -, h7⟩ := Dlog.C07_issuer_refuses_bad_requests E.T key req _ ρ.e ρ.s cred h3
  have hs : S.zrOfBytes cred.s = ρ.s := by
    simp only [Dlog.newCredential, Res.bind_eq_ok, Res.pure_def, Res.ok.injEq] at h3
    obtain ⟨_, -, _, -, _, -, _, -, _, -, _, -, rfl⟩ := h3
    simp
  have hu : Dlog.Wire.ipkCodec.unmarshal rawIpk = .ok key.ipk :=
    Dlog.Wire.ipkCodec.rt _ _ ⟨Dlog.parseAttrs_some hreads.hAttrs, Dlog.newIssuerKey_unknown h1⟩ g2
  have hne : rawIpk ≠ [] := by
    rintro rfl
    have e : Dlog.Wire.ipkCodec.unmarshal [] = .ok ⟨[], none, none, [], none, none, none, [], [], [], {}⟩ := rfl
    rw [e, Res.ok.injEq] at hu
    rw [← hu] at hnames
    exact absurd hnames (by decide)
  obtain ⟨cri, hcri, hw, halg, hpk⟩ : ∃ cri, E.createCRI (some revKey) 0 0 ρ.wbb ρ.dsa = .ok cri ∧ cri.Wire ∧
      cri.revocationAlg = 0 ∧ ∃ P, E.T.g2FromProto cri.epochPk = .ok P := by
    obtain ⟨sig, hsig⟩ := hsign (Dlog.Spec.criDigest E (E.T.g2ToProto S.genG2) 0 0)
    simp only [Dlog.Spec.criDigest] at hsig
    refine ⟨⟨0, some (E.T.g2ToProto S.genG2), sig, 0, []⟩, ?_, ?_, rfl, _, E.T.g2_rt _⟩
    · simp [Dlog.Env.createCRI, Dlog.criBody, hsig]
    · exact ⟨by simp [Proto.Int64], by simp [Proto.Int32]⟩
  have hmask : Proto.Int32 (roleMask admin) := by cases admin <;> exact ⟨by decide, by decide⟩
  obtain ⟨config, hconfig⟩ : ∃ config, packSigner (roleMask admin) ou eid rh (S.zrBytes ρ.sk)
      (Proto.encode (Dlog.Wire.cred cred)) (Proto.encode (Dlog.Wire.cri cri)) = .ok config := by
    have hr : (decide (roleMask admin < -2147483648) || decide (2147483647 < roleMask admin)) = false := by
      cases admin <;> decide
    simp [packSigner, hr, Msp.Wire.signerCodec, Proto.codec, Msp.Wire.signerOk, u1, u2, u3,
      show utf8Valid [] = true from rfl]
  refine ⟨key.isk, rawIpk, config, key.ipk, cred, cri, ⟨Proto.encode (Dlog.Wire.cred cred), S.zrBytes ρ.sk, ou,
    roleMask admin, eid, Proto.encode (Dlog.Wire.cri cri), rh, [], []⟩, ?_, ?_, hne, g4, by rw [hnames]; rfl, ?_, rfl, rfl,
    rfl, rfl, rfl, Dlog.Wire.credCodec.rt _ _ trivial (Dlog.cred_marshal cred),
    Dlog.Wire.criCodec.rt _ _ hw (Dlog.cri_marshal cri), h7, h5, cred_nontrivial hreads h5 hs h4 hρ.point, halg, hpk⟩
  · simp only [generateIssuerKey, h1, Res.ok_bind, g2, Res.pure_def]
  · have h3' : Dlog.newCredential E.T ⟨key.isk, key.ipk⟩ req (Spec.values S (roleMask admin) ou eid rh) ρ.e ρ.s =
      .ok cred := h3
    simp only [Spec.values] at h3'
    simp only [generateSignerConfig, hou, heid, decide_false, Res.guardErr_false, Res.ok_bind, hu, h2, h3',
      Dlog.cred_marshal, hcri, Dlog.cri_marshal, hconfig]
  · refine Msp.Wire.signerCodec.rt _ _ hmask ?_
    simp only [packSigner, Res.bind_eq_ok] at hconfig
    obtain ⟨_, _, h⟩ := hconfig
    exact h

/-- The signer set up from a generated dlog configuration. -/
theorem dlog_signer (E : Dlog.Env S) (ec : Provider.EcKeys E.dsa) (admin : Bool) (ou eid rh : Bytes)
    (ipk : Dlog.IssuerPublicKey) (s : Msp.SignerConfig) (cred : Dlog.Credential) (cri : Dlog.CRI) (sk : S.F)
    (hnames : ipk.attributeNames.length = 4) (hou : s.ou = ou) (hrole : s.role = roleMask admin)
    (heid : s.enrollmentId = eid) (hsk : s.sk = S.zrBytes sk) (hcred : Dlog.Wire.credCodec.unmarshal s.cred = .ok cred)
    (hcri : Dlog.Wire.criCodec.unmarshal s.cri = .ok cri)
    (hattrs : cred.attrs = (Spec.values S (roleMask admin) ou eid rh).map S.zrBytes)
    (hver : cred.ver E.T sk ipk = .ok ()) (hnt : ∃ A, E.T.g1FromProto cred.a = .ok A ∧ A ≠ 0)
    (halg : cri.revocationAlg = 0) (hpk : ∃ P, E.T.g2FromProto cri.epochPk = .ok P)
    (σ : Provider.DlogRnd S E.dsa × Provider.DlogRnd S E.dsa) (h1 : σ.2.sig.rAttrs.length = 2)
    (h2 : σ.2.sig.r1 ≠ 0) :
    ∃ nym r proof ski,
      Msp.Spec.Signer (Provider.dlogBackend E ec) (.val ipk) s σ sk nym r proof ski ∧ proof ≠ [] ∧
      (∀ rpk epoch, (Provider.dlogBackend E ec).verify (.val ipk) proof []
        [⟨1, .bytes ou⟩, ⟨2, .int (roleMask admin)⟩, ⟨0, .other⟩, ⟨0, .other⟩] 3 2 0 rpk epoch .basic none = .ok ()) ∧
      ∀ msg ρ, ∃ sig, (Provider.dlogBackend E ec).nymSign sk nym r (.val ipk) msg ρ = .ok sig ∧ sig ≠ [] ∧
        (Provider.dlogBackend E ec).nymVerify (.val ipk) nym sig msg 0 = .ok () := by
  subst hou heid
  obtain ⟨k, -, -, hreads, -⟩ := Dlog.credVer_ok_iff.mp hver
  obtain ⟨nym, hnym⟩ : ∃ nym, Dlog.makeNym E.T sk ipk σ.1.scalar = .ok (nym, σ.1.scalar) :=
    ⟨_, by simp only [Dlog.makeNym, hreads.hSk, hreads.hRand, Res.ok_bind, Res.pure_def]; rfl⟩
  have hnym' : E.makeNym (some sk) (.val ipk) σ.1.scalar = .ok (nym, σ.1.scalar) := by
    simp [Dlog.Env.makeNym, hnym]
  have hlen : cred.attrs.length = 4 := by rw [hattrs]; rfl
  let shown : List IdemixAttribute := [⟨1, .bytes s.ou⟩, ⟨2, .int (roleMask admin)⟩, ⟨0, .other⟩, ⟨0, .other⟩]
  have honest : Dlog.HonestSigner E.T cred ipk sk nym σ.1.scalar (Dlog.disclosureOf shown) 3 cri :=
    ⟨hver, hnt, hnym, by rw [hlen, hnames], by rw [hnames]; rfl, ⟨by decide, rfl⟩, halg, hpk⟩
  have hshown : ∀ (i : Nat) (a : IdemixAttribute), shown[i]? = some a → Dlog.Spec.Hidden a ∨
      ∃ x : S.F, Dlog.Spec.Denotes S a x ∧ cred.attrs[i]?.map S.zrOfBytes = some x := by
    intro i a ha
    match i with
    | 0 => cases ha; exact .inr ⟨_, .bytes _, by simp [hattrs, Spec.values]⟩
    | 1 => cases ha; exact .inr ⟨_, .int _, by simp [hattrs, Spec.values]⟩
    | 2 => cases ha; exact .inl rfl
    | 3 => cases ha; exact .inl rfl
    | i + 4 => simp [shown] at ha
  have sv := fun rpk epoch => Dlog.C09_bridge_honest_signature E s.cred s.cri cred cri hcred hcri ipk sk nym
    σ.1.scalar shown hshown [] 3 2 σ.2.sig honest (by rw [h1]; rfl) h2 .standard .basic .basic (fun h => absurd rfl h)
    rpk epoch
  obtain ⟨proof, md, hsig, -⟩ := sv none 0
  have hverify : ∀ rpk epoch, E.verify (.val ipk) proof [] shown 3 2 rpk epoch .basic none = .ok () := by
    intro rpk epoch
    obtain ⟨proof', md', hsig', hv⟩ := sv rpk epoch
    rw [hsig] at hsig'
    cases hsig'
    exact hv
  have hcv : E.credVerify (some sk) (.val ipk) s.cred [⟨1, .bytes s.ou⟩,
      ⟨2, .int (Msp.Spec.credentialRole (Msp.Spec.mspRole s.role))⟩, ⟨1, .bytes s.enrollmentId⟩, ⟨0, .other⟩] = .ok () := by
    rw [Dlog.C08_bridge_attributes]
    refine ⟨cred, hcred, hver, ?_⟩
    intro i a ha
    match i with
    | 0 => cases ha; exact .inr ⟨_, .bytes _, by simp [hattrs, Spec.values]⟩
    | 1 => cases ha; rw [hrole, credentialRole_of]; exact .inr ⟨_, .int _, by simp [hattrs, Spec.values]⟩
    | 2 => cases ha; exact .inr ⟨_, .bytes _, by simp [hattrs, Spec.values]⟩
    | 3 => cases ha; exact .inl rfl
    | i + 4 => simp at ha
  refine ⟨nym, σ.1.scalar, proof, ipk.hash, ⟨?_, ?_, hnym', .inl rfl, ?_, hcv, md, hsig⟩, ?_, hverify, ?_⟩
  · rw [hsk]; exact Provider.zr_ne sk
  · rw [hsk]; exact (Dlog.C45_dlog_user_key E (S.zrBytes sk) sk).2
  · intro h0
    have e : Dlog.Wire.credCodec.unmarshal [] = .ok ⟨none, none, [], [], []⟩ := rfl
    rw [h0, e] at hcred
    cases hcred
    simp at hlen
  · rintro rfl
    have := hverify none 0
    have e : Dlog.Wire.sigCodec.unmarshal [] = .ok ⟨none, none, none, [], [], [], [], [], [], [], [], none, [], none, [], 0,
      none, none, none⟩ := rfl
    simp only [Dlog.Env.verify, Res.recovered_eq_ok, Dyn.get_val, Res.ok_bind, e, Res.bind_eq_ok, Dlog.Signature.ver] at this
    obtain ⟨_, -, _, -, _, -, _, h, -⟩ := this
    cases h
  · intro msg ρ
    obtain ⟨sig, e1, e2⟩ := Dlog.C17_bridge_nym_signature E ipk sk σ.1.scalar σ.1.scalar nym hnym' msg ρ.nymSig
    exact ⟨sig, e1, Msp.nymSign_ne_nil hnym' e1, e2⟩

end

/-- C59, dlog scheme. For every curve, unit, enrolment id and revocation handle in UTF-8, unit and enrolment id not
empty: issuer key and signer configuration are generated, and every MSP of the dlog scheme accepts them with the
revocation key, under the name of the curve, or without a name if it is the default curve. -/
theorem C59_dlog_accepted (P : Platform) (c : CurveId) (κ : Dlog.IssuerRand (P.S c))
    (ρ : SignerRnd (P.S c) (P.env c).dsa) (admin : Bool) (ou eid rh : Bytes) (hou : ou ≠ []) (heid : eid ≠ [])
    (u1 : utf8Valid ou = true) (u2 : utf8Valid eid = true) (u3 : utf8Valid rh = true)
    (hρ : Spec.Samples κ ρ.sk ρ.e ρ.s (Spec.values (P.S c) (roleMask admin) ou eid rh)) (revKey : (P.env c).dsa.Sk)
    (hsign : ∀ d, ∃ sig, (P.env c).dsa.sign revKey ρ.dsa d = .ok sig) (pkix : Bytes)
    (hpkix : (P.ec c).pkix ((P.env c).dsa.pub revKey) = .ok pkix) :
    ∃ isk ipk config, generateIssuerKey (P.env c) κ = .ok (isk, ipk) ∧
      generateSignerConfig (P.env c) (roleMask admin) ou eid rh isk ipk revKey ρ = .ok config ∧
      ∀ (m : IMsp P.world) (me : Ref) (σ : SetupRnd P.world), m.aries = false →
        ((σ ⟨false, c⟩).2 : Provider.DlogRnd (P.S c) (P.env c).dsa).sig.rAttrs.length = 2 →
        ((σ ⟨false, c⟩).2 : Provider.DlogRnd (P.S c) (P.env c).dsa).sig.r1 ≠ 0 →
        ∀ curve, curve = ascii (Msp.Spec.curveName c) ∨ curve = [] ∧ c = .fp256bnAmcl →
          Spec.Accepts m me σ ipk ((P.ec c).pemEncode pkix) config curve ou eid admin := by
  obtain ⟨isk, rawIpk, config, ipk, cred, cri, s, g1, g2, g3, g4, g5, g6, g7, g8, g9, -, g11, g12, g13, g14, g15, g16, g17,
    g18⟩ := dlog_generated (P.env c) κ ρ admin ou eid rh hou heid u1 u2 u3 hρ revKey hsign
  refine ⟨isk, rawIpk, config, g1, g2, ?_⟩
  intro m me σ hm h1 h2 curve hcurve
  obtain ⟨csp, version, mipk, signer, name, mrpk, epoch, aries, exportable⟩ := m
  cases (show aries = false from hm)
  obtain ⟨nym, r, proof, ski, e1, e2, e3, e4⟩ := dlog_signer (P.env c) (P.ec c) admin ou eid rh ipk s cred cri ρ.sk g5 g7 g8
    g9 g11 g12 g13 g14 g15 g16 g17 g18 (σ ⟨false, c⟩) h1 h2
  exact accepts_of _ me σ c (by simp) curve (by simpa using hcurve) rawIpk _ config ou eid admin (.val ipk) g3
    (by change (_ >>= _) = _; rw [g4]; rfl) ((P.env c).dsa.pub revKey)
    ⟨(P.ec c).encode_ne _, pkix, (P.ec c).decode_encode _, (P.ec c).parse_pkix _ _ hpkix⟩ s g6 g7 g9 g8 ρ.sk r nym proof ski
    e1 e2 e3 e4

/-- C59. Neither scheme makes a signer without a unit or without an enrolment id, whatever the keys. -/
theorem C59_refused {S : Suite} (E : Dlog.Env S) (L : Bbs.Lib S) (dsa : Ecdsa) (role : Int)
    (ou eid rh isk ipk : Bytes) (h : ou = [] ∨ eid = []) (k : E.dsa.Sk) (k' : dsa.Sk) (ρ : SignerRnd S E.dsa)
    (ρ' : AriesSignerRnd S dsa) :
    (∃ m, generateSignerConfig E role ou eid rh isk ipk k ρ = .err m) ∧
      ∃ m, generateSignerConfigAries L dsa role ou eid rh isk ipk k' ρ' = .err m := by
  by_cases h1 : ou = []
  · simp [generateSignerConfig, generateSignerConfigAries, h1, Res.guardErr]
  · have h2 : eid = [] := h.resolve_left h1
    simp [generateSignerConfig, generateSignerConfigAries, h1, h2, Res.guardErr]

end Idemix.Gen
