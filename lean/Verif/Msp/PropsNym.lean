import Verif.Msp.PropsIdentity
import Verif.Dlog.PropsBridge2
import Verif.Dlog.PropsVerify

/-!
# Whose signature is it: C56

Concrete cases that meet the hypotheses of the theorems are in `Verif/Tools/Examples.lean`.
-/

namespace Idemix.Msp

open Provider (Backend Key SigOpts NymSigOpts SignerOpts ImportOpts DerivOpts Raw)

variable {W : World}

open Provider Provider.Spec in
theorem verify_nym_ok {p : CspId} {e : Bool} {k : Key (W.B p)} {sig msg : Bytes} {o : NymSigOpts (W.B p)} {b : Bool}
    (ho : o.isSmartcard = false) :
    Provider.verify (Provider.provider (W.B p) e) (some k) sig msg (some (.nymSig o)) = .ok b ↔
      b = true ∧ sig ≠ [] ∧ ∃ nym ipk, k = .nymPk nym ∧ o.issuerPK = some (.issuerPk ipk) ∧
        (W.B p).nymVerify ipk nym sig msg o.skIndex = .ok () := by
  obtain ⟨h1, h2⟩ := C46_verify_dispatch_partial (B := W.B p) e (some k) sig msg (some (.nymSig o)) (by simp [NoHandler])
  by_cases hs : sig = []
  · obtain ⟨m, hm⟩ := h1 hs
    rw [hm]; simp [hs]
  · have h2 := h2 hs
    constructor
    · intro h
      rw [h] at h2
      cases k with
      | nymPk nym =>
        cases hi : o.issuerPK with
        | none => simp only [verifyCall, ho, hi, Option.map_none, Obeys] at h2; obtain ⟨m, hm⟩ := h2; cases hm
        | some q =>
          cases q with
          | issuerPk ipk =>
            simp only [verifyCall, ho, hi, Option.map_some, Obeys] at h2
            cases hv : (W.B p).nymVerify ipk nym sig msg o.skIndex with
            | ok u => rw [hv] at h2; exact ⟨h2, hs, nym, ipk, rfl, rfl, hv⟩
            | err m => rw [hv] at h2; exact absurd h2 (by simp [Agree])
            | panic => rw [hv] at h2; exact absurd h2 (by simp [Agree])
          | _ => simp only [verifyCall, ho, hi, Option.map_none, Obeys] at h2; obtain ⟨m, hm⟩ := h2; cases hm
      | _ => simp only [verifyCall, Option.map_none, Obeys] at h2; obtain ⟨m, hm⟩ := h2; cases hm
    · rintro ⟨rfl, -, nym, ipk, rfl, hi, hv⟩
      have hc : verifyCall (W.B p) sig msg (some (.nymPk nym)) (some (.nymSig o)) = some (.ok ()) := by
        simp only [verifyCall, ho, hi, hv]
      rw [hc] at h2
      simp only [Option.map_some, Obeys] at h2
      cases hv2 : Provider.verify (Provider.provider (W.B p) e) (some (.nymPk nym)) sig msg (some (.nymSig o)) with
      | ok x => rw [hv2] at h2; rw [show x = true from h2]
      | err m => rw [hv2] at h2; exact absurd h2 (by simp [Agree])
      | panic => rw [hv2] at h2; exact absurd h2 (by simp [Agree])

/-- What `Verify` of an identity establishes: the signature is a pseudonym signature under the identity's pseudonym
and the issuer key of the identity's MSP. -/
theorem C56_verify_exact (h : Heap W) (i : Identity W) (msg sig : Bytes) :
    i.verify h msg sig = .ok () ↔ ∃ (p : CspId) (ipk : (W.B p).IPK) (nym : (W.S p).G1),
      (h i.msp).csp = some p ∧ (h i.msp).ipk = some ⟨p, .issuerPk ipk⟩ ∧ i.nym = ⟨p, .nymPk nym⟩ ∧ sig ≠ [] ∧
      (W.B p).nymVerify ipk nym sig msg 0 = .ok () := by
  simp only [Identity.verify, IMsp.provider, IMsp.registry, Res.bind_eq_ok, Res.pure_def]
  constructor
  · rintro ⟨p, hp, b, hv, -⟩
    have hp' : (h i.msp).csp = some p := by
      cases hc : (h i.msp).csp with
      | none => rw [hc] at hp; cases hp
      | some q => rw [hc] at hp; cases hp; rfl
    obtain ⟨-, hs, nym, ipk, hk, hi, hv⟩ := (verify_nym_ok (by rfl)).mp hv
    simp only [Option.map_eq_some_iff] at hi
    obtain ⟨k, hk', hi⟩ := hi
    exact ⟨p, ipk, nym, hp', by rw [hk', AnyKey.eq_of_under hi (by intro n hn; cases hn)],
      AnyKey.eq_of_under hk (by intro n hn; cases hn), hs, hv⟩
  · rintro ⟨p, ipk, nym, hp, hk, hn, hs, hv⟩
    refine ⟨p, by rw [hp]; rfl, true, (verify_nym_ok (by rfl)).mpr ⟨rfl, hs, nym, ipk, ?_, ?_, hv⟩, trivial⟩
    · rw [hn, AnyKey.under_self]
    · simp only [hk, Option.map_some, AnyKey.under_self]

theorem nymSign_ne_nil {S : Suite} {E : Dlog.Env S} {ipk : Dlog.IssuerPublicKey} {sk r rNym : S.F} {nym : S.G1}
    (hn : E.makeNym (some sk) (.val ipk) r = .ok (nym, rNym)) {msg : Bytes} {ρ : Dlog.NymRand S} {raw : Bytes}
    (h : E.nymSign (some sk) (some nym) (some rNym) (.val ipk) msg ρ = .ok raw) : raw ≠ [] := by
  simp only [Dlog.Env.makeNym, Res.recovered_eq_ok, Dyn.get_val, Res.ok_bind, Res.deref_some] at hn
  obtain ⟨sig, h1, -⟩ := Dlog.C17_nym_signature_complete E.T ipk sk r rNym nym hn msg ρ
  have hu := Dlog.Wire.nymSigCodec.rt sig _ trivial (Dlog.nymSig_marshal sig)
  simp only [Dlog.Env.nymSign, Res.recovered_eq_ok, Dyn.get_val, Res.ok_bind, Res.deref_some, h1,
    Dlog.nymSig_marshal, Res.ok.injEq] at h
  rw [h] at hu
  rintro rfl
  simp only [Dlog.newNymSignature, Res.bind_eq_ok, Res.pure_def, Res.ok.injEq] at h1
  obtain ⟨_, _, _, _, _, _, _, _, h1⟩ := h1
  have e : Dlog.Wire.nymSigCodec.unmarshal [] = .ok ⟨[], [], [], []⟩ := rfl
  rw [e] at hu
  cases hu
  have := congrArg (fun s : Dlog.NymSignature => s.proofC.length) h1
  have hp := S.scalarLen_pos
  simp at this
  omega

/-- C56 is violated, for MSPs of the dlog scheme: from any valid identity `i` of an MSP, someone who has no
credential makes an identity that the MSP validates and in whose name they sign. They pick any secret `sk`, derive a
pseudonym, put it in the place of the pseudonym of `i`, and sign any message with `sk`; neither the credential, nor
the secret, nor the pseudonym's randomness of the holder of `i` enters. -/
theorem C56_impersonation_violated (P : Platform) (c : CurveId) (h : Heap P.world) (me : Ref) (i : Identity P.world)
    (hi : i.msp = me) (hv : validate h me (.identity i) = .ok ()) (ipk : Dlog.IssuerPublicKey)
    (hc : (h me).csp = some ⟨false, c⟩) (hk : (h me).ipk = some ⟨⟨false, c⟩, .issuerPk (.val ipk)⟩)
    (sk r rNym : (P.S c).F) (nym : (P.S c).G1) (hn : (P.env c).makeNym (some sk) (.val ipk) r = .ok (nym, rNym))
    (msg : Bytes) (ρ : Dlog.NymRand (P.S c)) :
    ∃ sig, (P.env c).nymSign (some sk) (some nym) (some rNym) (.val ipk) msg ρ = .ok sig ∧
      validate h me (.identity { i with nym := ⟨⟨false, c⟩, .nymPk nym⟩ }) = .ok () ∧
      Identity.verify h { i with nym := ⟨⟨false, c⟩, .nymPk nym⟩ } msg sig = .ok () := by
  obtain ⟨sig, h1, h2⟩ := Dlog.C17_bridge_nym_signature (P.env c) ipk sk r rNym nym hn msg ρ
  refine ⟨sig, h1, hv, ?_⟩
  rw [C56_verify_exact]
  exact ⟨⟨false, c⟩, .val ipk, nym, by rw [show i.msp = me from hi, hc], by rw [show i.msp = me from hi, hk], rfl,
    nymSign_ne_nil hn h1, h2⟩

/-- C56, the part that holds, for MSPs of the dlog scheme: the proof of a valid identity is a well-formed dlog
signature over the empty message, accepted by `Ver` under the MSP's issuer key with unit and role disclosed and all
else hidden. By `C10_signature_extraction` its signer has a credential on this unit and role and the secret behind the
pseudonym *inside the proof*. Missing: that this is the pseudonym of the identity (`C56_impersonation_violated`). -/
theorem C56_partial (P : Platform) (c : CurveId) (h : Heap P.world) (me : Ref) (i : Identity P.world)
    (hi : i.msp = me) (hc : (h me).csp = some ⟨false, c⟩) (hv : validate h me (.identity i) = .ok ()) :
    ∃ (ipk : Dlog.IssuerPublicKey) (rpk : Option (P.env c).dsa.Pk) (σ : Dlog.Signature),
      (h me).ipk = some ⟨⟨false, c⟩, .issuerPk (.val ipk)⟩ ∧ Dlog.Wire.sigCodec.unmarshal i.proof = .ok σ ∧
      σ.ver (P.env c).T [1, 1, 0, 0] (some ipk) []
        [some ((P.S c).hashToZr i.ou.ou), some ((P.S c).zrOfInt (Spec.credentialRole i.role.role)), none, none] 3 2
        rpk (h me).epoch .basic none = .ok () := by
  rw [C57_own_identities_partial h me i hi] at hv
  obtain ⟨p, ipk, rpk, hp, hk, -, -, hv⟩ := hv
  rw [hc] at hp
  cases hp
  change (P.env c).verify ipk i.proof [] _ 3 2 rpk (h me).epoch .basic none = .ok () at hv
  simp only [Dlog.Env.verify, Res.recovered_eq_ok, Res.bind_eq_ok] at hv
  obtain ⟨ipk', h1, σ, h2, values, h3, h4⟩ := hv
  have h3' : values = [some ((P.S c).hashToZr i.ou.ou),
      some ((P.S c).zrOfInt (Spec.credentialRole i.role.role)), none, none] := by
    simpa [Res.mapM', Dlog.verifyAttr, Dlog.bytesAttr, Dlog.intAttr, Res.pure_def, eq_comm] using h3
  subst h3'
  refine ⟨ipk', rpk, σ, ?_, h2, h4⟩
  rw [hk]
  cases ipk with
  | val k => cases h1; rfl
  | nilPtr => cases h1
  | other => cases h1

end Idemix.Msp
