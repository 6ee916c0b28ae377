import Verif.Tools.PropsGenAries
import Verif.Aries.PropsEscalate

/-!
# C88: a member of one unit becomes an administrator of another

A concrete platform that meets the hypotheses is in `Verif/Tools/Examples.lean`.
-/

namespace Idemix.Gen

open Msp (CurveId CspId World IMsp Ref Heap SetupRnd Platform SigningIdentity)
open Proto (utf8Valid)

/-- The issuer key that `generateIssuerKeyAries` makes from a seed. -/
theorem aries_issuer {S : Suite} (L : Bbs.Lib S) (h32 : S.scalarLen = 32) (seed okm : Bytes) (hseed : seed.length = 32)
    (hokm : L.hkdf (seed ++ [0]) S.scalarLen = .ok okm) :
    ∃ isk rawIpk, generateIssuerKeyAries L seed = .ok (isk, rawIpk) ∧
      Aries.newKeyFromBytes S isk Msp.attributeNames =
        .ok ⟨Aries.ipkFor (Bbs.publicKey (Bbs.frFromOKM L okm)) 4, Bbs.frFromOKM L okm⟩ ∧ rawIpk ≠ [] ∧
      Aries.newPublicKeyFromBytes S rawIpk Msp.Spec.names =
        .ok (Aries.ipkFor (Bbs.publicKey (Bbs.frFromOKM L okm)) 4) := by
  set x := Bbs.frFromOKM L okm with hxdef
  have hkey : Aries.newKey L Msp.attributeNames seed = .ok ⟨Aries.ipkFor (Bbs.publicKey x) 4, x⟩ := by
    have e : Bbs.toPKG (Bbs.publicKey x) ((4 : Nat) + 1 : Int) = .ok (Bbs.pkg (Bbs.publicKey x) (4 + 1)) :=
      Aries.toPKG_names _ _ (by omega)
    have hl : Msp.attributeNames.length = 4 := rfl
    have hp : Bbs.generateKeyPair L (some seed) [] = .ok (Bbs.publicKey x, x) := by
      simp [Bbs.generateKeyPair, Bbs.generateOKM, hokm, hseed, Bbs.frLen, hxdef]
    simp only [Aries.newKey, hp, Res.ok_bind, hl, Res.pure_def, e]
    rfl
  obtain ⟨k1, k2, k3⟩ := Aries.C36_keys L h32 Msp.attributeNames (by decide) seed _ hkey
  refine ⟨(⟨Aries.ipkFor (Bbs.publicKey x) 4, x⟩ : Aries.ISK S).bytes, _, ?_, k2, ?_, k3⟩
  · simp only [generateIssuerKeyAries, hkey, Res.ok_bind, Res.pure_def]
  · intro h0
    have hc : S.g2CompLen = 0 := by
      rw [← S.g2Comp_len (Bbs.publicKey x)]
      exact congrArg List.length h0
    have h00 : S.genG2 = 0 := by
      have nil : ∀ P, S.g2Comp P = [] := fun P => List.length_eq_zero_iff.mp (by rw [S.g2Comp_len, hc])
      exact S.g2Comp_inj (by rw [nil, nil])
    exact S.genG1_ne (S.pair_nondeg _ (by rw [h00]; simp))

/-- **C88 (violated), for MSPs.** An issuer of the aries scheme grants a user a credential as a member of the unit `ou` with
enrolment id `eid`. The user sends the request `request`; the issuer checks and signs it as it does every request. From what
the issuer returns the user makes a signer configuration that every MSP that trusts the issuer accepts as an administrator
of any unit `ou'` with any enrolment id `eid'`. -/
theorem C88_admin_violated (P : Platform) (c : CurveId) (hc : c = .bls12_381Bbs ∨ c = .bls12_381BbsGurvy)
    (h32 : (P.S c).scalarLen = 32) (hg : (P.S c).g1CompLen < 2 ^ 31) (hg1 : 0 < (P.S c).g1Len) (seed okm : Bytes)
    (hseed : seed.length = 32) (hokm : (P.lib c).hkdf (seed ++ [0]) (P.S c).scalarLen = .ok okm)
    (ou eid rh ou' eid' rh' : Bytes) (u1 : utf8Valid ou' = true) (u2 : utf8Valid eid' = true) (u3 : utf8Valid rh' = true)
    (sk r : (P.S c).F) (nonce : Bytes) (e s : (P.S c).F) (hx : Bbs.frFromOKM (P.lib c) okm + e ≠ 0)
    (criRaw : Bytes) (cri : Aries.CRI) (hcri : Aries.Wire.criCodec.unmarshal criRaw = .ok cri) (halg : cri.alg = 0)
    (revKey : (P.env c).dsa.Pk) (pkix : Bytes) (hpkix : (P.ec c).pkix revKey = .ok pkix) :
    ∃ iskRaw ipkRaw isk, generateIssuerKeyAries (P.lib c) seed = .ok (iskRaw, ipkRaw) ∧
      Aries.newKeyFromBytes (P.S c) iskRaw Msp.attributeNames = .ok isk ∧
      let request := Aries.Spec.forgedRequest (P.lib c) (Aries.Spec.escalation isk.pk 0
        (Spec.valuesAries (P.lib c) (roleMask false) ou eid rh) (Spec.valuesAries (P.lib c) (roleMask true) ou' eid' rh') sk r)
        nonce
      Aries.blindVerify (P.lib c) request (.val isk.pk) nonce 0 = .ok () ∧
      ∃ signed cred c' raw config,
        Aries.credSign (P.lib c) (.val isk) request (signerAttrs (roleMask false) ou eid rh) 0 e s = .ok signed ∧
        Aries.unblind (P.S c) signed ((P.S c).zrBytes r) = .ok cred ∧ Aries.Wire.credCodec.unmarshal cred = .ok c' ∧
        Aries.Wire.credCodec.marshal { c' with
          attrs := (Spec.valuesAries (P.lib c) (roleMask true) ou' eid' rh').map (P.S c).zrBytes, skPos := 0 } = .ok raw ∧
        packSigner (roleMask true) ou' eid' rh' ((P.S c).zrBytes sk) raw criRaw = .ok config ∧
        ∀ (m : IMsp P.world) (me : Ref) (σ : SetupRnd P.world), m.aries = true →
          ((σ ⟨true, c⟩).2 : Provider.AriesRnd (P.S c) (P.env c).dsa).sig.pok.r1 ≠ 0 →
          ∀ curve, curve = ascii (Msp.Spec.curveName c) ∨ curve = [] ∧ c = .bls12_381Bbs →
            Spec.Accepts m me σ ipkRaw ((P.ec c).pemEncode pkix) config curve ou' eid' true := by
  set x := Bbs.frFromOKM (P.lib c) okm with hxdef
  obtain ⟨iskRaw, ipkRaw, g1, g2, g3, g4⟩ := aries_issuer (P.lib c) h32 seed okm hseed hokm
  refine ⟨iskRaw, ipkRaw, _, g1, g2, ?_⟩
  have hb := Aries.C37_violated (P.lib c) h32 (Aries.ipkFor (Bbs.publicKey x) 4) (Bbs.publicKey x) 4 0
    ((Aries.isKey_iff _ _ _).mpr rfl) (by omega) (by omega) (Aries.Spec.escalation (Aries.ipkFor (Bbs.publicKey x) 4) 0
      (Spec.valuesAries (P.lib c) (roleMask false) ou eid rh) (Spec.valuesAries (P.lib c) (roleMask true) ou' eid' rh') sk r)
    nonce
  obtain ⟨signed, cred, c', e1, e2, e3, e4⟩ := Aries.escalate_eq (P.lib c) h32 x 4 0 (by omega) (by omega) (by omega)
    (signerAttrs (roleMask false) ou eid rh) _ (encodes_values (P.lib c) _ ou eid rh) rfl
    (Spec.valuesAries (P.lib c) (roleMask true) ou' eid' rh') sk r nonce e s
  simp only [Nat.cast_zero] at hb e1 e4
  have hmask : Proto.Int32 (roleMask true) := ⟨by decide, by decide⟩
  set raw := Proto.encode (Aries.Wire.cred (Aries.issued x 4 0 (Spec.valuesAries (P.lib c) (roleMask true) ou' eid' rh') sk e
    (s + r) 0)) with hraw
  obtain ⟨config, hconfig⟩ : ∃ config, packSigner (roleMask true) ou' eid' rh' ((P.S c).zrBytes sk) raw criRaw =
      .ok config := by
    have hr : (decide (roleMask true < -2147483648) || decide (2147483647 < roleMask true)) = false := by decide
    simp [packSigner, hr, Msp.Wire.signerCodec, Proto.codec, Msp.Wire.signerOk, u1, u2, u3,
      show utf8Valid [] = true from rfl]
  refine ⟨hb, signed, cred, c', raw, config, e1, e2, e3, e4, hconfig, ?_⟩
  intro m me σ hm h1 curve hcurve
  obtain ⟨csp, version, mipk, signer, name, mrpk, epoch, aries, exportable⟩ := m
  cases (show aries = true from hm)
  have g5 : Msp.Wire.signerCodec.unmarshal config = .ok ⟨raw, (P.S c).zrBytes sk, ou', roleMask true, eid', criRaw, rh', [], []⟩ := by
    refine Msp.Wire.signerCodec.rt _ _ hmask ?_
    simp only [packSigner, Res.bind_eq_ok] at hconfig
    obtain ⟨_, _, h⟩ := hconfig
    exact h
  obtain ⟨nym, r', proof, ski, f1, f2, f3, f4⟩ := aries_signer (P.lib c) h32 hg hg1 (P.env c).T (P.env c).dsa (P.ec c) true
    ou' eid' rh' x e (s + r) hx ⟨raw, (P.S c).zrBytes sk, ou', roleMask true, eid', criRaw, rh', [], []⟩ cri sk rfl rfl rfl rfl hraw hcri halg (σ ⟨true, c⟩) h1
  exact accepts_of _ me σ c (fun _ => hc) curve (by simpa using hcurve) ipkRaw _ config ou' eid' true
    (.val (Aries.ipkFor (Bbs.publicKey x) 4)) g3 (by change (_ >>= _) = _; rw [g4]; rfl) revKey
    ⟨(P.ec c).encode_ne _, pkix, (P.ec c).decode_encode _, (P.ec c).parse_pkix _ _ hpkix⟩ _ g5 rfl rfl rfl sk r' nym proof ski
    f1 f2 f3 f4

end Idemix.Gen
