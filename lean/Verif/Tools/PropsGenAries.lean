import Verif.Tools.PropsGen
import Verif.Aries.PropsSign

/-!
# What the generator makes is accepted: C59, aries scheme

Concrete cases that meet the hypotheses of the theorems are in `Verif/Tools/Examples.lean`.
-/

namespace Idemix.Gen

open Msp (CurveId CspId World IMsp Ref Heap SetupRnd Platform SigningIdentity)
open Proto (utf8Valid)

section

variable {S : Suite} (L : Bbs.Lib S)

/-- The scalars of a signer's attributes: the hashes of unit, enrolment id and revocation handle, and the role. -/
def Spec.valuesAries (role : Int) (ou eid rh : Bytes) : List S.F :=
  [Bbs.frFromOKM L ou, S.zrOfInt role, Bbs.frFromOKM L eid, Bbs.frFromOKM L rh]

theorem encodes_values (role : Int) (ou eid rh : Bytes) :
    List.Forall₂ (Aries.Spec.Encodes L) (signerAttrs role ou eid rh) (Spec.valuesAries L role ou eid rh) :=
  .cons (.inl ⟨rfl, _, rfl, rfl⟩) (.cons (.inr ⟨rfl, _, rfl, rfl⟩) (.cons (.inl ⟨rfl, _, rfl, rfl⟩)
    (.cons (.inl ⟨rfl, _, rfl, rfl⟩) .nil)))

theorem agrees_hidden (v : S.F) : Aries.Spec.Agrees L ⟨0, .other⟩ v := by simp [Aries.Spec.Agrees]

theorem agrees_bytes (b : Bytes) : Aries.Spec.Agrees L ⟨1, .bytes b⟩ (Bbs.frFromOKM L b) := fun _ =>
  .inl ⟨rfl, _, rfl, rfl⟩

theorem agrees_int (i : Int) : Aries.Spec.Agrees L ⟨2, .int i⟩ (S.zrOfInt i) := fun _ => .inr ⟨rfl, _, rfl, rfl⟩

/-- The pieces of a generated aries signer. -/
theorem aries_generated (h32 : S.scalarLen = 32) (dsa : Ecdsa) (seed okm : Bytes)
    (hseed : seed.length = 32) (hokm : L.hkdf (seed ++ [0]) S.scalarLen = .ok okm) (ρ : AriesSignerRnd S dsa)
    (admin : Bool) (ou eid rh : Bytes) (hou : ou ≠ []) (heid : eid ≠ []) (u1 : utf8Valid ou = true)
    (u2 : utf8Valid eid = true) (u3 : utf8Valid rh = true) (hx : Bbs.frFromOKM L okm + ρ.e ≠ 0) (revKey : dsa.Sk)
    (hsign : ∀ d, ∃ sig, dsa.sign revKey ρ.dsa d = .ok sig) :
    ∃ isk rawIpk config cri s, generateIssuerKeyAries L seed = .ok (isk, rawIpk) ∧
      generateSignerConfigAries L dsa (roleMask admin) ou eid rh isk rawIpk revKey ρ = .ok config ∧
      rawIpk ≠ [] ∧
      Aries.newPublicKeyFromBytes S rawIpk Msp.Spec.names = .ok (Aries.ipkFor (Bbs.publicKey (Bbs.frFromOKM L okm)) 4) ∧
      Msp.Wire.signerCodec.unmarshal config = .ok s ∧ s.ou = ou ∧ s.role = roleMask admin ∧ s.enrollmentId = eid ∧
      s.revocationHandle = rh ∧ s.sk = S.zrBytes ρ.sk ∧
      s.cred = Proto.encode (Aries.Wire.cred (Aries.issued (Bbs.frFromOKM L okm) 4 0
        (Spec.valuesAries L (roleMask admin) ou eid rh) ρ.sk ρ.e (ρ.s + ρ.blinding) 0)) ∧
      Aries.Wire.criCodec.unmarshal s.cri = .ok cri ∧ cri.alg = 0 := by
  set x := Bbs.frFromOKM L okm with hxdef
  have hkey : Aries.newKey L Msp.attributeNames seed = .ok ⟨Aries.ipkFor (Bbs.publicKey x) 4, x⟩ := by
    have e : Bbs.toPKG (Bbs.publicKey x) ((4 : Nat) + 1 : Int) = .ok (Bbs.pkg (Bbs.publicKey x) (4 + 1)) :=
      Aries.toPKG_names _ _ (by omega)
    have hl : Msp.attributeNames.length = 4 := rfl
    have hp : Bbs.generateKeyPair L (some seed) [] = .ok (Bbs.publicKey x, x) := by
      simp [Bbs.generateKeyPair, Bbs.generateOKM, hokm, hseed, Bbs.frLen, hxdef]
    simp only [Aries.newKey, hp, Res.ok_bind, hl, Res.pure_def, e]
    rfl
  obtain ⟨k1, k2, k3⟩ := Aries.C36_keys L h32 Msp.attributeNames (by decide) seed _ hkey
  obtain ⟨req, bl, sg, h1, h2, h3, h4⟩ := Aries.issue_eq L h32 x 4 0 (by omega) (by omega) (by omega)
    (signerAttrs (roleMask admin) ou eid rh) (Spec.valuesAries L (roleMask admin) ou eid rh) (encodes_values L _ _ _ _) rfl
    ρ.sk ρ.blinding (S.zrBytes ρ.nonce) ρ.masks ρ.e ρ.s
  have h5 : Aries.credVerify L ρ.sk (.val (Aries.ipkFor (Bbs.publicKey x) 4)) _ (signerAttrs (roleMask admin) ou eid rh) =
      .ok () := (Aries.issued_valid_iff L h32 x 4 0 0 (by omega) (by omega) _ rfl ρ.sk ρ.e (ρ.s + ρ.blinding) _
    ((encodes_values L _ _ _ _).imp fun _ _ h => fun _ => h)).mpr (Bbs.valid_of_sign rfl hx _)
  simp only [Nat.cast_zero] at h1 h2 h3 h5
  obtain ⟨criRaw, cri, c1, c2, c3⟩ : ∃ criRaw cri, Aries.revSign S dsa (some revKey) 0 0 ρ.wbb ρ.dsa = .ok criRaw ∧
      Aries.Wire.criCodec.unmarshal criRaw = .ok cri ∧ cri.alg = 0 := by
    obtain ⟨sig, hsig⟩ := hsign (dsa.sha256 (Proto.encode (Aries.Wire.cri ⟨0, S.g2Bytes S.genG2, [], 0, []⟩)))
    refine ⟨_, ⟨0, S.g2Bytes S.genG2, sig, 0, []⟩, ?_, Aries.Wire.criCodec_rt _ ⟨by simp [Proto.Int64], by simp [Proto.Int32]⟩,
      rfl⟩
    simp [Aries.revSign, hsig]
  have hmask : Proto.Int32 (roleMask admin) := by cases admin <;> exact ⟨by decide, by decide⟩
  set credRaw := Proto.encode (Aries.Wire.cred (Aries.issued x 4 0 (Spec.valuesAries L (roleMask admin) ou eid rh) ρ.sk ρ.e
    (ρ.s + ρ.blinding) 0)) with hcredRaw
  obtain ⟨config, hconfig⟩ : ∃ config, packSigner (roleMask admin) ou eid rh (S.zrBytes ρ.sk) credRaw criRaw =
      .ok config := by
    have hr : (decide (roleMask admin < -2147483648) || decide (2147483647 < roleMask admin)) = false := by
      cases admin <;> decide
    simp [packSigner, hr, Msp.Wire.signerCodec, Proto.codec, Msp.Wire.signerOk, u1, u2, u3,
      show utf8Valid [] = true from rfl]
  refine ⟨(⟨Aries.ipkFor (Bbs.publicKey x) 4, x⟩ : Aries.ISK S).bytes, _, config, cri, ⟨credRaw, S.zrBytes ρ.sk, ou, roleMask admin, eid, criRaw, rh, [], []⟩, ?_, ?_, ?_, k3, ?_, rfl,
    rfl, rfl, rfl, rfl, rfl, c2, c3⟩
  · simp only [generateIssuerKeyAries, hkey, Res.ok_bind, Res.pure_def]
  · simp only [generateSignerConfigAries, hou, heid, decide_false, Res.guardErr_false, Res.ok_bind, k2, h1, h2, h3, h4, h5,
      c1, hconfig]
  · intro h0
    have hc : S.g2CompLen = 0 := by
      rw [← S.g2Comp_len (Bbs.publicKey x)]
      exact congrArg List.length h0
    have h00 : S.genG2 = 0 := by
      have nil : ∀ P, S.g2Comp P = [] := fun P => List.length_eq_zero_iff.mp (by rw [S.g2Comp_len, hc])
      exact S.g2Comp_inj (by rw [nil, nil])
    exact S.genG1_ne (S.pair_nondeg _ (by rw [h00]; simp))
  · refine Msp.Wire.signerCodec.rt _ _ hmask ?_
    simp only [packSigner, Res.bind_eq_ok] at hconfig
    obtain ⟨_, _, h⟩ := hconfig
    exact h

/-- Signing depends on the supplied attributes only by which of them are to be disclosed. -/
theorem sign_types (cred : Bytes) (sk : S.F) (nym : S.G1) (r : S.F) (ipk : Dyn (Aries.IPK S)) (a b : AttrValue)
    (msg cri : Bytes) (t : Dlog.SigType) (md) (ρ : Aries.SignRand S) :
    Aries.sign L cred sk nym r ipk [⟨1, a⟩, ⟨2, b⟩, ⟨0, .other⟩, ⟨0, .other⟩] msg 3 2 cri t md ρ =
      Aries.sign L cred sk nym r ipk [⟨1, .other⟩, ⟨2, .other⟩, ⟨0, .other⟩, ⟨0, .other⟩] msg 3 2 cri t md ρ := by
  rfl

/-- The signer set up from a generated aries configuration. -/
theorem aries_signer (h32 : S.scalarLen = 32) (hg : S.g1CompLen < 2 ^ 31) (hg1 : 0 < S.g1Len) (T : Translator S)
    (dsa : Ecdsa) (ec : Provider.EcKeys dsa) (admin : Bool) (ou eid rh : Bytes) (x e s' : S.F) (hx : x + e ≠ 0)
    (s : Msp.SignerConfig) (cri : Aries.CRI) (sk : S.F) (hou : s.ou = ou) (hrole : s.role = roleMask admin)
    (heid : s.enrollmentId = eid) (hsk : s.sk = S.zrBytes sk)
    (hcred : s.cred = Proto.encode (Aries.Wire.cred (Aries.issued x 4 0 (Spec.valuesAries L (roleMask admin) ou eid rh) sk e
      s' 0))) (hcri : Aries.Wire.criCodec.unmarshal s.cri = .ok cri) (halg : cri.alg = 0)
    (σ : Provider.AriesRnd S dsa × Provider.AriesRnd S dsa) (h1 : σ.2.sig.pok.r1 ≠ 0) :
    ∃ nym r proof ski,
      Msp.Spec.Signer (Provider.ariesBackend L T dsa ec) (.val (Aries.ipkFor (Bbs.publicKey x) 4)) s σ sk nym r proof ski ∧
      proof ≠ [] ∧
      (∀ rpk epoch, (Provider.ariesBackend L T dsa ec).verify (.val (Aries.ipkFor (Bbs.publicKey x) 4)) proof []
        [⟨1, .bytes ou⟩, ⟨2, .int (roleMask admin)⟩, ⟨0, .other⟩, ⟨0, .other⟩] 3 2 0 rpk epoch .basic none = .ok ()) ∧
      ∀ msg ρ, ∃ sig, (Provider.ariesBackend L T dsa ec).nymSign sk nym r (.val (Aries.ipkFor (Bbs.publicKey x) 4)) msg ρ =
          .ok sig ∧ sig ≠ [] ∧
        (Provider.ariesBackend L T dsa ec).nymVerify (.val (Aries.ipkFor (Bbs.publicKey x) 4)) nym sig msg 0 = .ok () := by
  subst hou heid
  set ipk := Aries.ipkFor (Bbs.publicKey x) 4 with hipk
  set vs := Spec.valuesAries L (roleMask admin) s.ou s.enrollmentId rh with hvs
  have hkey : Aries.Spec.IsKey ipk (Bbs.publicKey x) 4 := (Aries.isKey_iff _ _ _).mpr rfl
  have hvalid := Bbs.valid_of_sign (x := x) (e := e) (s := s') (pk := Bbs.pkg (Bbs.publicKey x) (4 + 1)) rfl hx
    (Aries.Spec.withSecret 0 sk vs)
  have hv : ∀ supplied, List.Forall₂ (Aries.Spec.Agrees L) supplied vs →
      Aries.credVerify L sk (.val ipk) s.cred supplied = .ok () := by
    intro supplied h
    rw [hcred]
    exact (Aries.issued_valid_iff L h32 x 4 0 0 (by omega) (by omega) vs rfl sk e s' supplied h).mpr hvalid
  obtain ⟨nym, hnym⟩ : ∃ nym, Aries.makeNym sk (.val ipk) 0 σ.1.scalar = .ok (nym, σ.1.scalar) := by
    have hk' : 0 < (Bbs.pkg (Bbs.publicKey x) (4 + 1)).h.length := by simp
    have hi : Res.index (Bbs.pkg (Bbs.publicKey x) (4 + 1)).h ((0 : Nat) : Int) =
        .ok (Bbs.pkg (Bbs.publicKey x) (4 + 1)).h[0] := by
      rw [Res.index_nat, List.getElem?_eq_getElem hk', Res.deref_some]
    obtain ⟨y, hb⟩ : ∃ y, Bbs.build [(Bbs.pkg (Bbs.publicKey x) (4 + 1)).h0, (Bbs.pkg (Bbs.publicKey x) (4 + 1)).h[0]]
        [σ.1.scalar, sk] = .ok y := by
      rw [Bbs.build_eq (by simp) (by simp)]
      exact ⟨_, rfl⟩
    refine ⟨y, ?_⟩
    change (Res.index (Bbs.pkg (Bbs.publicKey x) (4 + 1)).h ((0 : Nat) : Int) >>= fun h =>
      Bbs.build [(Bbs.pkg (Bbs.publicKey x) (4 + 1)).h0, h] [σ.1.scalar, sk] >>= fun nym => pure (nym, σ.1.scalar)) = _
    rw [hi, Res.ok_bind, hb]
    rfl
  let shown : List IdemixAttribute := [⟨1, .bytes s.ou⟩, ⟨2, .int (roleMask admin)⟩, ⟨0, .other⟩, ⟨0, .other⟩]
  obtain ⟨proof, md, hsig, hver, -, -⟩ := Aries.C39_signatures_verify_partial L h32 hg hg1 ipk (Bbs.publicKey x) 4 0 2 3 hkey
    (by omega) s.cred s.cri [] (Aries.issued x 4 0 vs sk e s' 0) _ cri shown sk σ.1.scalar σ.1.scalar nym .standard none
    σ.2.sig (Bbs.frFromOKM L s.enrollmentId) (Bbs.frFromOKM L rh) rfl
    (hv shown (.cons (agrees_bytes L _) (.cons (agrees_int L _) (.cons (agrees_hidden L _) (.cons (agrees_hidden L _) .nil)))))
    (by rw [hcred]; exact Aries.Wire.credCodec_rt _ (by simp [Aries.Credential.Wire, Aries.issued, Proto.Int32])) rfl rfl
    (Bbs.parseSignature_bytes h32 _ _ _) hnym hcri halg (.inl rfl)
    ⟨by simp [shown], by simp [Aries.Spec.CommitsEid], by simp, by simp, by simp⟩
    (by simp [Aries.issued, hvs, Spec.valuesAries]) (by simp [Aries.issued, hvs, Spec.valuesAries]) h1
    (by simp [Aries.Spec.CommitsEid]) (by simp [Aries.Spec.CommitsEid]) (by simp)
  have hverify := hver .basic (.inl ⟨rfl, .inr (.inr rfl)⟩) none (.inl rfl)
  refine ⟨nym, σ.1.scalar, proof, ipk.hash, ⟨?_, ?_, hnym, .inl rfl, ?_, ?_, md, ?_⟩, ?_, fun _ _ => hverify, ?_⟩
  · rw [hsk]; exact Provider.zr_ne sk
  · rw [hsk]; exact (Aries.C45_aries_user_key (S.zrBytes sk) sk).2
  · intro h0
    have e1 := Aries.Wire.credCodec_rt (Aries.issued x 4 0 vs sk e s' 0)
      (by simp [Aries.Credential.Wire, Aries.issued, Proto.Int32])
    rw [← hcred, h0] at e1
    have e2 : Aries.Wire.credCodec.unmarshal [] = .ok ⟨[], [], 0⟩ := rfl
    rw [e2, Res.ok.injEq] at e1
    have := congrArg (fun c => c.attrs.length) e1
    simp [Aries.issued, hvs, Spec.valuesAries] at this
  · refine hv _ (.cons (agrees_bytes L _) (.cons ?_ (.cons (agrees_bytes L _) (.cons (agrees_hidden L _) .nil))))
    rw [hrole, credentialRole_of]
    exact agrees_int L _
  · exact (sign_types L s.cred sk nym σ.1.scalar (.val ipk) _ _ [] s.cri .standard none σ.2.sig).symm.trans hsig
  · rintro rfl
    have e0 : Aries.Wire.sigCodec.unmarshal [] = .ok ⟨[], [], [], [], [], [], 0, [], [], 0, [], [], 0, none⟩ := rfl
    simp only [Aries.verify, Dyn.get_val, Res.ok_bind, e0, Aries.checkNonRev, Res.err_bind] at hverify
    cases hverify
  · intro msg ρ
    obtain ⟨-, sig, e1, e2⟩ := Aries.C42_complete L h32 ipk (Bbs.publicKey x) 4 0 hkey (by omega) sk σ.1.scalar ρ.nonce
      (nym, σ.1.scalar) ρ.blindings msg hnym
    refine ⟨sig, e1, ?_, e2⟩
    rintro rfl
    have e0 : Aries.Wire.nymSigCodec.unmarshal [] = .ok ⟨[], []⟩ := rfl
    simp [Aries.nymVerify, e0, Bbs.parseProofG1, Res.guardErr] at e2

end

/-- C59, aries scheme. For the two curves of the scheme and every unit, enrolment id and revocation handle in UTF-8, unit
and enrolment id not empty: issuer key and signer configuration are generated, and every MSP of the aries scheme accepts
them with the revocation key, under the name of the curve, or without a name if it is the default curve. The curve has
32-byte scalars; the sum of the issuer's key and the sampled `e` is not zero. -/
theorem C59_aries_accepted (P : Platform) (c : CurveId) (hc : c = .bls12_381Bbs ∨ c = .bls12_381BbsGurvy)
    (h32 : (P.S c).scalarLen = 32) (hg : (P.S c).g1CompLen < 2 ^ 31) (hg1 : 0 < (P.S c).g1Len) (seed okm : Bytes)
    (hseed : seed.length = 32) (hokm : (P.lib c).hkdf (seed ++ [0]) (P.S c).scalarLen = .ok okm)
    (ρ : AriesSignerRnd (P.S c) (P.env c).dsa) (admin : Bool) (ou eid rh : Bytes) (hou : ou ≠ []) (heid : eid ≠ [])
    (u1 : utf8Valid ou = true) (u2 : utf8Valid eid = true) (u3 : utf8Valid rh = true)
    (hx : Bbs.frFromOKM (P.lib c) okm + ρ.e ≠ 0) (revKey : (P.env c).dsa.Sk)
    (hsign : ∀ d, ∃ sig, (P.env c).dsa.sign revKey ρ.dsa d = .ok sig) (pkix : Bytes)
    (hpkix : (P.ec c).pkix ((P.env c).dsa.pub revKey) = .ok pkix) :
    ∃ isk ipk config, generateIssuerKeyAries (P.lib c) seed = .ok (isk, ipk) ∧
      generateSignerConfigAries (P.lib c) (P.env c).dsa (roleMask admin) ou eid rh isk ipk revKey ρ = .ok config ∧
      ∀ (m : IMsp P.world) (me : Ref) (σ : SetupRnd P.world), m.aries = true →
        ((σ ⟨true, c⟩).2 : Provider.AriesRnd (P.S c) (P.env c).dsa).sig.pok.r1 ≠ 0 →
        ∀ curve, curve = ascii (Msp.Spec.curveName c) ∨ curve = [] ∧ c = .bls12_381Bbs →
          Spec.Accepts m me σ ipk ((P.ec c).pemEncode pkix) config curve ou eid admin := by
  obtain ⟨isk, rawIpk, config, cri, s, g1, g2, g3, g4, g5, g6, g7, g8, -, g10, g11, g12, g13⟩ :=
    aries_generated (P.lib c) h32 (P.env c).dsa seed okm hseed hokm ρ admin ou eid rh hou heid u1 u2 u3 hx revKey hsign
  refine ⟨isk, rawIpk, config, g1, g2, ?_⟩
  intro m me σ hm h1 curve hcurve
  obtain ⟨csp, version, mipk, signer, name, mrpk, epoch, aries, exportable⟩ := m
  cases (show aries = true from hm)
  obtain ⟨nym, r, proof, ski, e1, e2, e3, e4⟩ := aries_signer (P.lib c) h32 hg hg1 (P.env c).T (P.env c).dsa (P.ec c) admin
    ou eid rh _ ρ.e (ρ.s + ρ.blinding) hx s cri ρ.sk g6 g7 g8 g10 g11 g12 g13 (σ ⟨true, c⟩) h1
  exact accepts_of _ me σ c (fun _ => hc) curve (by simpa using hcurve) rawIpk _ config ou eid admin
    (.val (Aries.ipkFor (Bbs.publicKey (Bbs.frFromOKM (P.lib c) okm)) 4)) g3 (by change (_ >>= _) = _; rw [g4]; rfl)
    ((P.env c).dsa.pub revKey)
    ⟨(P.ec c).encode_ne _, pkix, (P.ec c).decode_encode _, (P.ec c).parse_pkix _ _ hpkix⟩ s g5 g6 g8 g7 ρ.sk r nym proof ski
    e1 e2 e3 e4

/-- C59. Neither scheme makes a signer whose unit, enrolment id or revocation handle is not UTF-8. -/
theorem C59_utf8_refused {S : Suite} (E : Dlog.Env S) (L : Bbs.Lib S) (dsa : Ecdsa) (role : Int)
    (ou eid rh isk ipk config : Bytes) (h : utf8Valid ou = false ∨ utf8Valid eid = false ∨ utf8Valid rh = false)
    (k : E.dsa.Sk) (k' : dsa.Sk) (ρ : SignerRnd S E.dsa) (ρ' : AriesSignerRnd S dsa) :
    generateSignerConfig E role ou eid rh isk ipk k ρ ≠ .ok config ∧
      generateSignerConfigAries L dsa role ou eid rh isk ipk k' ρ' ≠ .ok config := by
  have pack : ∀ sk cred cri, packSigner role ou eid rh sk cred cri ≠ .ok config := by
    intro sk cred cri hp
    have hok : Msp.Wire.signerOk ⟨cred, sk, ou, role, eid, cri, rh, [], []⟩ = false := by
      rcases h with h | h | h <;> simp [Msp.Wire.signerOk, h]
    simp only [packSigner, Msp.Wire.signerCodec, Proto.codec, hok, Res.bind_eq_ok] at hp
    obtain ⟨_, _, hp⟩ := hp
    cases hp
  constructor
  · intro hg
    simp only [generateSignerConfig, Res.bind_eq_ok] at hg
    obtain ⟨_, -, _, -, _, -, _, -, _, -, _, -, _, -, _, -, hp⟩ := hg
    exact pack _ _ _ hp
  · intro hg
    simp only [generateSignerConfigAries, Res.bind_eq_ok] at hg
    obtain ⟨_, -, _, -, _, -, _, -, _, -, _, -, _, -, _, -, _, -, hp⟩ := hg
    exact pack _ _ _ hp

end Idemix.Gen
