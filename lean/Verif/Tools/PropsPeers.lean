import Verif.Tools.PropsCli
import Verif.Msp.PropsAgree

/-!
# Signers are recognised by the other peers: C67

A signer set up from generated material sends its serialized identity and its signatures to other peers. They accept them.

Concrete cases that meet the hypotheses of the theorems are in `Verif/Tools/Examples.lean`.
-/

namespace Idemix.Gen

open Msp (CurveId CspId World IMsp Ref Heap SetupRnd Platform SigningIdentity IdemixConfig)
open Provider (Backend Key NymSigOpts SignerOpts)
open Proto (utf8Valid)

namespace Spec

/-- The MSP object `me₂` of one process recognises the signer `x` of another: it reads the serialized identity of the
signer, finds the unit and the role in it, validates it, and accepts its signatures on all messages. -/
def Recognises {W : World} (h₁ : Heap W) (x : SigningIdentity W) (h₂ : Heap W) (me₂ : Ref) (ou : Bytes) (admin : Bool) :
    Prop :=
  ∃ raw i, x.identity.serialize h₁ = .ok raw ∧ Msp.deserializeIdentity h₂ me₂ raw = .ok i ∧ i.ou.ou = ou ∧
    i.role.role = (if admin then 1 else 0) ∧ Msp.validate h₂ me₂ (.identity i) = .ok () ∧
    ∀ (msg : Bytes) (τ : (p : CspId) → (W.B p).Rnd), ∃ sig, x.sign h₁ msg τ = .ok sig ∧ i.verify h₂ msg sig = .ok ()

/-- The signer in the configuration `raw` is recognised: set-up makes it the default signer, with its enrolment id; a peer
without a signer of its own can be set up; and every peer that has been set up for the same MSP recognises the signer. -/
def KnownToPeers {W : World} (aries : Bool) (version : Int) (raw : Bytes) (conf : IdemixConfig) (me : Ref)
    (σ : SetupRnd W) (ou eid : Bytes) (admin : Bool) : Prop :=
  (∃ m x, (Msp.newMsp W aries version).setup me (some ⟨Msp.Spec.configType aries, raw⟩) σ = (m, .ok ()) ∧
    m.getDefaultSigningIdentity = .ok x ∧ x.enrollmentId = eid ∧
    ∀ (h₁ h₂ : Heap W) (me₂ : Ref), h₁ me = m → Msp.Spec.SetUpFrom aries version conf me₂ (h₂ me₂) →
      Recognises h₁ x h₂ me₂ ou admin) ∧
  ∀ raw₂ conf₂, Msp.Wire.configCodec.unmarshal raw₂ = .ok conf₂ → Msp.Spec.SameMsp conf conf₂ → conf₂.signer = none →
    ∀ me₂ σ₂, ∃ m₂, (Msp.newMsp W aries version).setup me₂ (some ⟨Msp.Spec.configType aries, raw₂⟩) σ₂ = (m₂, .ok ()) ∧
      Msp.Spec.SetUpFrom aries version conf me₂ m₂

end Spec

theorem config_wire {raw : Bytes} {c : IdemixConfig} (h : Msp.Wire.configCodec.unmarshal raw = .ok c) :
    utf8Valid c.name = true ∧ ∀ s, c.signer = some s → utf8Valid s.ou = true := by
  simp only [Msp.Wire.configCodec, Proto.codec, Res.ofOption_eq_ok, Option.bind_eq_some_iff, Msp.Wire.configOf,
    Option.ite_none_right_eq_some, Bool.and_eq_true] at h
  obtain ⟨m, _, ⟨⟨a1, a2⟩, a3⟩, h⟩ := h
  cases hg : Proto.getMsg 3 m with
  | none => simp [hg] at h
  | some o =>
    cases o with
    | none =>
      simp only [hg, Option.bind_eq_bind, Option.bind_some, Option.some.injEq] at h
      subst h
      exact ⟨strOk_getBytes a1, by simp⟩
    | some f =>
      simp only [hg, Option.bind_eq_bind, Option.bind_some, Option.bind_eq_some_iff, Option.some.injEq] at h
      obtain ⟨s, hs, rfl⟩ := h
      refine ⟨strOk_getBytes a1, ?_⟩
      rintro s' h'
      cases h'
      simp only [Msp.Wire.signerOf, Option.ite_none_right_eq_some, Bool.and_eq_true, Option.some.injEq] at hs
      obtain ⟨⟨⟨⟨⟨b1, b2⟩, b3⟩, b4⟩, b5⟩, rfl⟩ := hs
      exact strOk_getBytes b1

theorem signer_serializes {W : World} (h : Heap W) (me : Ref) (name : Bytes) (p : CspId) (e : Bool) (s : Msp.SignerConfig)
    (sk : (W.S p).F) (nym : (W.S p).G1) (r : (W.S p).F) (proof ski : Bytes) (hn : (h me).name = name)
    (u1 : utf8Valid name = true) (u2 : utf8Valid s.ou = true) :
    ∃ b, (Msp.Spec.signer me name p e s sk nym r proof ski).identity.serialize h = .ok b := by
  simp [Msp.Spec.signer, Msp.Identity.serialize, Key.bytes, Msp.Wire.unitCodec, Msp.Wire.roleCodec,
    Msp.Wire.identCodec, Msp.Wire.serialCodec, Proto.codec, u1, u2, Msp.Identity.mspIdentifier, IMsp.getIdentifier,
    hn, show utf8Valid [] = true from rfl]

/-- From an MSP that accepts its own signer to the peers. -/
theorem known_of {W : World} {aries : Bool} {version : Int} {raw : Bytes} {conf : IdemixConfig}
    (hconf : Msp.Wire.configCodec.unmarshal raw = .ok conf) {me : Ref} {σ : SetupRnd W} {ou eid : Bytes} {admin : Bool}
    (hsig : conf.signer ≠ none)
    (hset : Spec.SetsUp (Msp.newMsp W aries version) me σ ⟨Msp.Spec.configType aries, raw⟩ conf.name ou eid admin)
    (hnym : ∀ c nym, Msp.Spec.SelectsCurve aries conf.curveId c →
      Provider.Spec.RoundTrips (W.B ⟨aries, c⟩) (.nymPk nym) (.nymPk true) ∧
      2 ≤ (((W.B ⟨aries, c⟩).T.g1ToProto nym).x ++ ((W.B ⟨aries, c⟩).T.g1ToProto nym).y).length) :
    Spec.KnownToPeers aries version raw conf me σ ou eid admin := by
  obtain ⟨m, x, h1, h2, -, h4, h5, h6, h7⟩ := hset
  obtain ⟨conf', c, ipk, rpk, e1, -, e3, e4, e5, e6, e7⟩ := (Msp.C58_setup_exact _ _ _ _ _ _).mp h1
  rw [hconf] at e1; cases e1
  refine ⟨⟨m, x, h1, by simp [IMsp.getDefaultSigningIdentity, h2], h4, ?_⟩, ?_⟩
  · intro h₁ h₂ me₂ hh hp
    rcases e7 with ⟨e7, -⟩ | ⟨s, sk, nym, r, proof, ski, e7, -, rfl⟩
    · exact absurd e7 hsig
    cases h2
    obtain ⟨u1, u2⟩ := config_wire hconf
    have u2 := u2 s e7
    have hself : Msp.Spec.SetUpFrom aries version conf me (h₁ me) := ⟨raw, conf, σ, hconf, ⟨rfl, rfl, rfl, rfl⟩, by
      rw [hh]; exact h1⟩
    have ht := Msp.setUpFrom_twins hself hp
    set x : SigningIdentity W := Msp.Spec.signer me conf.name ⟨aries, c⟩ (Msp.newMsp W aries version).exportable s sk nym r
      proof ski with hx
    obtain ⟨hrt, hlen⟩ := hnym c nym e3
    obtain ⟨b, hb⟩ := signer_serializes h₁ me conf.name ⟨aries, c⟩ (Msp.newMsp W aries version).exportable s sk nym r proof ski
      (by rw [hh]; rfl) u1 u2
    have hd : Msp.deserializeIdentity h₁ me b = .ok x.identity :=
      (Msp.C55_round_trip h₁ me x.identity b _ hb rfl (by rw [hh]; rfl) (by rw [hh]; rfl) rfl hlen hrt (by
        change Proto.Int32 (Msp.Spec.mspRole s.role)
        unfold Msp.Spec.mspRole Proto.Int32
        split <;> omega)).trans (by rw [hh]; rfl)
    have hra := Msp.C66_agreement aries version conf h₁ h₂ me me₂ hself hp b
    rw [hd] at hra
    cases hd₂ : Msp.deserializeIdentity h₂ me₂ b with
    | err e => rw [hd₂] at hra; exact hra.elim
    | panic => rw [hd₂] at hra; exact hra.elim
    | ok i =>
      rw [hd₂] at hra
      obtain ⟨rfl, -, hag⟩ := hra
      obtain ⟨v1, v2⟩ := h7 h₁ hh
      refine ⟨b, _, hb, hd₂, h5, h6, ?_, ?_⟩
      · rw [← hag.validate]; exact v1
      · intro msg τ
        obtain ⟨sig, t1, t2⟩ := v2 msg τ
        exact ⟨sig, t1, by rw [← hag.verify]; exact t2⟩
  · intro raw₂ conf₂ hu hs hn me₂ σ₂
    have hs' := hs
    obtain ⟨s1, s2, s3, s4⟩ := hs'
    rw [s2] at e4 e5; rw [s3] at e6; rw [s4] at e3
    have := (Msp.C58_setup_exact (Msp.newMsp W aries version) _ me₂ _ raw₂ σ₂).mpr
      ⟨conf₂, c, ipk, rpk, hu, rfl, e3, e4, e5, e6, .inl ⟨hn, rfl⟩⟩
    exact ⟨_, this, raw₂, conf₂, σ₂, hu, hs, this⟩

/-- The environment of the dlog scheme uses one of the three translators of the repository, with coordinates of `k`
bytes. -/
def Spec.RealTranslator {S : Suite} (E : Dlog.Env S) (k : Nat) : Prop :=
  (∃ l, E.T = Dlog.fp256bn k l ∧ E.rawG1 = Dlog.Fp256bn.g1FromRawBytes S k) ∨
  (∃ l, E.T = Dlog.fp256bnMiracl k l ∧ E.rawG1 = Dlog.Fp256bn.g1FromRawBytes S k) ∨
  (∃ l, E.T = Dlog.gurvy k l ∧ E.rawG1 = Dlog.Gurvy.g1FromRawBytes S)

theorem real_length {S : Suite} {E : Dlog.Env S} {k : Nat} (hk : 0 < k) (h : Spec.RealTranslator E k) (nym : S.G1) :
    2 ≤ ((E.T.g1ToProto nym).x ++ (E.T.g1ToProto nym).y).length := by
  rcases h with ⟨l, h, -⟩ | ⟨l, h, -⟩ | ⟨l, h, -⟩ <;> rw [h]
  · simp only [Dlog.fp256bn, Dlog.Fp256bn.g1ToProto, Dlog.halves_join, List.length_drop, S.g1Bytes_len, l.g1Len]; omega
  · simp only [Dlog.fp256bnMiracl, Dlog.Fp256bn.g1ToProto, Dlog.halves_join, List.length_drop, S.g1Bytes_len, l.g1Len]; omega
  · simp only [Dlog.gurvy, Dlog.Gurvy.g1ToProto, Dlog.halves_join, S.g1Bytes_len, l.g1Len]; omega

/-- C67, dlog scheme. The signer of generated material is recognised by all peers of its MSP, whatever the name of the MSP,
the randomness of the peers and their own signers. -/
theorem C67_dlog_recognised (P : Platform) (c : CurveId) (k : Nat) (hk : 0 < k) (hT : Spec.RealTranslator (P.env c) k)
    (κ : Dlog.IssuerRand (P.S c)) (ρ : SignerRnd (P.S c) (P.env c).dsa) (admin : Bool) (ou eid rh : Bytes)
    (hou : ou ≠ []) (heid : eid ≠ []) (u1 : utf8Valid ou = true) (u2 : utf8Valid eid = true) (u3 : utf8Valid rh = true)
    (hρ : Spec.Samples κ ρ.sk ρ.e ρ.s (Spec.values (P.S c) (roleMask admin) ou eid rh)) (revKey : (P.env c).dsa.Sk)
    (hsign : ∀ d, ∃ sig, (P.env c).dsa.sign revKey ρ.dsa d = .ok sig) (pkix : Bytes)
    (hpkix : (P.ec c).pkix ((P.env c).dsa.pub revKey) = .ok pkix) :
    ∃ isk ipk config s, generateIssuerKey (P.env c) κ = .ok (isk, ipk) ∧
      generateSignerConfig (P.env c) (roleMask admin) ou eid rh isk ipk revKey ρ = .ok config ∧
      Msp.Wire.signerCodec.unmarshal config = .ok s ∧
      ∀ (version : Int) (raw : Bytes) (conf : IdemixConfig) (me : Ref) (σ : SetupRnd P.world),
        Msp.Wire.configCodec.unmarshal raw = .ok conf → conf.ipk = ipk → conf.revocationPk = (P.ec c).pemEncode pkix →
        conf.signer = some s → conf.curveId = ascii (Msp.Spec.curveName c) ∨ conf.curveId = [] ∧ c = .fp256bnAmcl →
        ((σ ⟨false, c⟩).2 : Provider.DlogRnd (P.S c) (P.env c).dsa).sig.rAttrs.length = 2 →
        ((σ ⟨false, c⟩).2 : Provider.DlogRnd (P.S c) (P.env c).dsa).sig.r1 ≠ 0 →
        Spec.KnownToPeers false version raw conf me σ ou eid admin := by
  obtain ⟨isk, ipk, config, g1, g2, g3⟩ := C59_dlog_accepted P c κ ρ admin ou eid rh hou heid u1 u2 u3 hρ revKey hsign pkix hpkix
  obtain ⟨s, hs⟩ : ∃ s, Msp.Wire.signerCodec.unmarshal config = .ok s := by
    obtain ⟨_, _, config', _, _, _, s, g1', g2', -, -, -, g6, -⟩ := dlog_generated (P.env c) κ ρ admin ou eid rh hou
      heid u1 u2 u3 hρ revKey hsign
    rw [g1] at g1'
    cases g1'
    rw [g2] at g2'
    cases g2'
    exact ⟨s, g6⟩
  refine ⟨isk, ipk, config, s, g1, g2, hs, ?_⟩
  intro version raw conf me σ hconf h1 h2 h3 h4 h5 h6
  obtain ⟨s', hs', ha⟩ := g3 (Msp.newMsp P.world false version) me σ rfl h5 h6 conf.curveId h4
  rw [hs] at hs'
  cases hs'
  refine known_of hconf (by rw [h3]; simp) (ha raw conf hconf h1 h2 h3 rfl) ?_
  intro c' nym hc'
  cases Msp.selects_unique hc' ⟨by simpa using h4, by simp⟩
  exact ⟨Provider.C52_dlog_nym (P.env c) (P.ec c) k hk hT nym, real_length hk hT nym⟩

/-- C67, aries scheme: see `C67_dlog_recognised`. -/
theorem C67_aries_recognised (P : Platform) (c : CurveId) (hc : c = .bls12_381Bbs ∨ c = .bls12_381BbsGurvy)
    (h32 : (P.S c).scalarLen = 32) (hg : (P.S c).g1CompLen < 2 ^ 31) (k : Nat) (hk : 0 < k)
    (hT : Spec.RealTranslator (P.env c) k) (seed okm : Bytes)
    (hseed : seed.length = 32) (hokm : (P.lib c).hkdf (seed ++ [0]) (P.S c).scalarLen = .ok okm)
    (ρ : AriesSignerRnd (P.S c) (P.env c).dsa) (admin : Bool) (ou eid rh : Bytes) (hou : ou ≠ []) (heid : eid ≠ [])
    (u1 : utf8Valid ou = true) (u2 : utf8Valid eid = true) (u3 : utf8Valid rh = true)
    (hx : Bbs.frFromOKM (P.lib c) okm + ρ.e ≠ 0) (revKey : (P.env c).dsa.Sk)
    (hsign : ∀ d, ∃ sig, (P.env c).dsa.sign revKey ρ.dsa d = .ok sig) (pkix : Bytes)
    (hpkix : (P.ec c).pkix ((P.env c).dsa.pub revKey) = .ok pkix) :
    ∃ isk ipk config s, generateIssuerKeyAries (P.lib c) seed = .ok (isk, ipk) ∧
      generateSignerConfigAries (P.lib c) (P.env c).dsa (roleMask admin) ou eid rh isk ipk revKey ρ = .ok config ∧
      Msp.Wire.signerCodec.unmarshal config = .ok s ∧
      ∀ (version : Int) (raw : Bytes) (conf : IdemixConfig) (me : Ref) (σ : SetupRnd P.world),
        Msp.Wire.configCodec.unmarshal raw = .ok conf → conf.ipk = ipk → conf.revocationPk = (P.ec c).pemEncode pkix →
        conf.signer = some s → conf.curveId = ascii (Msp.Spec.curveName c) ∨ conf.curveId = [] ∧ c = .bls12_381Bbs →
        ((σ ⟨true, c⟩).2 : Provider.AriesRnd (P.S c) (P.env c).dsa).sig.pok.r1 ≠ 0 →
        Spec.KnownToPeers true version raw conf me σ ou eid admin := by
  have hg1 : 0 < (P.S c).g1Len := by
    rcases hT with ⟨l, -⟩ | ⟨l, -⟩ | ⟨l, -⟩ <;> rw [l.g1Len] <;> omega
  obtain ⟨isk, ipk, config, g1, g2, g3⟩ := C59_aries_accepted P c hc h32 hg hg1 seed okm hseed hokm ρ
    admin ou eid rh hou heid u1 u2 u3 hx revKey hsign pkix hpkix
  obtain ⟨s, hs⟩ : ∃ s, Msp.Wire.signerCodec.unmarshal config = .ok s := by
    obtain ⟨_, _, config', _, s, g1', g2', -, -, g6, -⟩ := aries_generated (P.lib c) h32 (P.env c).dsa seed okm
      hseed hokm ρ admin ou eid rh hou heid u1 u2 u3 hx revKey hsign
    rw [g1] at g1'
    cases g1'
    rw [g2] at g2'
    cases g2'
    exact ⟨s, g6⟩
  refine ⟨isk, ipk, config, s, g1, g2, hs, ?_⟩
  intro version raw conf me σ hconf h1 h2 h3 h4 h5
  obtain ⟨s', hs', ha⟩ := g3 (Msp.newMsp P.world true version) me σ rfl h5 conf.curveId h4
  rw [hs] at hs'
  cases hs'
  refine known_of hconf (by rw [h3]; simp) (ha raw conf hconf h1 h2 h3 rfl) ?_
  intro c' nym hc'
  cases Msp.selects_unique hc' ⟨by simpa using h4, fun _ => hc⟩
  refine ⟨Provider.C52_aries_nym (P.lib c) (P.env c).T (P.env c).dsa (P.ec c) k hk ?_ nym, real_length hk hT nym⟩
  rcases hT with ⟨l, h, -⟩ | ⟨l, h, -⟩ | ⟨l, h, -⟩
  · exact .inl ⟨l, h⟩
  · exact .inr (.inl ⟨l, h⟩)
  · exact .inr (.inr ⟨l, h⟩)

end Idemix.Gen
