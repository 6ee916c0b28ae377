import Verif.Provider.PropsDispatch
import Verif.Provider.PropsKeys
import Verif.Aries.PropsMeta

/-!
# C19 at the provider: the epoch and the revocation key of the verifier
-/

namespace Idemix.Provider

variable {S : Suite}

namespace Spec

/-- Verification options that ask for another epoch and another revocation authority (or none). -/
def withRevocation {B : Backend S} (o : SigOpts B) (epoch : Int) (pk : Option B.dsa.Pk) : SigOpts B :=
  { o with epoch := epoch, revocationPK := pk.map Key.revPk }

end Spec

open Spec

theorem verify_sig {B : Backend S} (exportable : Bool) (pk : B.IPK) (signature digest : Bytes) (o : SigOpts B) :
    verify (provider B exportable) (some (.issuerPk pk)) signature digest (some (.sig o)) =
      if signature.length = 0 then .err "invalid signature: cannot be empty"
      else wrapErr "failed verifying with opts" (verifierVerify B (.issuerPk pk) signature digest (some (.sig o))) := rfl

theorem verify_sig_ok {B : Backend S} (exportable : Bool) (pk : B.IPK) (signature digest : Bytes) (o : SigOpts B)
    (h : verify (provider B exportable) (some (.issuerPk pk)) signature digest (some (.sig o)) = .ok true) :
    ∃ rpk, B.verify pk signature digest o.attributes o.rhIndex o.eidIndex o.skIndex rpk o.epoch o.verType o.metadata =
      .ok () := by
  rw [verify_sig] at h
  split at h
  · cases h
  · simp only [verifierVerify] at h
    generalize hr : revPKOf o.revocationPK = r at h
    cases r with
    | err m => cases h
    | panic => cases h
    | ok rpk =>
      refine ⟨rpk, ?_⟩
      have hg : decide (signature.length = 0) = false := by simpa using ‹¬ signature.length = 0›
      simp only [Res.ok_bind, hg, Res.guardErr_false] at h
      generalize B.verify pk signature digest o.attributes o.rhIndex o.eidIndex o.skIndex rpk o.epoch o.verType
        o.metadata = x at h
      cases x <;> first | rfl | cases h

/-- **C19 (violated), provider of `New`.** Whatever is accepted, or refused, for one epoch and revocation authority is
accepted, or refused, for any other. -/
theorem C19_dlog_provider_violated (E : Dlog.Env S) (ec : EcKeys E.dsa) (exportable : Bool) (ipk : (dlogBackend E ec).IPK)
    (signature digest : Bytes) (o : SigOpts (dlogBackend E ec)) (epoch epoch' : Int) (pk pk' : Option E.dsa.Pk) :
    verify (provider (dlogBackend E ec) exportable) (some (.issuerPk ipk)) signature digest
        (some (.sig (withRevocation o epoch pk))) =
      verify (provider (dlogBackend E ec) exportable) (some (.issuerPk ipk)) signature digest
        (some (.sig (withRevocation o epoch' pk'))) := by
  cases pk <;> cases pk' <;> rfl

/-- **C19 (violated), provider of `NewAries`.** -/
theorem C19_aries_provider_violated (L : Bbs.Lib S) (T : Translator S) (dsa : Ecdsa) (ec : EcKeys dsa) (exportable : Bool)
    (ipk : (ariesBackend L T dsa ec).IPK) (signature digest : Bytes) (o : SigOpts (ariesBackend L T dsa ec))
    (epoch epoch' : Int) (pk pk' : Option dsa.Pk) :
    verify (provider (ariesBackend L T dsa ec) exportable) (some (.issuerPk ipk)) signature digest
        (some (.sig (withRevocation o epoch pk))) =
      verify (provider (ariesBackend L T dsa ec) exportable) (some (.issuerPk ipk)) signature digest
        (some (.sig (withRevocation o epoch' pk'))) := by
  cases pk <;> cases pk' <;> rfl

/-- **C19 (partial), provider of `NewAries`.** What remains: an accepted signature carries a non-revocation proof, for the
algorithm `NO_REVOCATION`. Nothing ties it to the epoch, or to the revocation authority. -/
theorem C19_aries_provider_partial (L : Bbs.Lib S) (T : Translator S) (dsa : Ecdsa) (ec : EcKeys dsa) (exportable : Bool)
    (ipk : (ariesBackend L T dsa ec).IPK) (signature digest : Bytes) (o : SigOpts (ariesBackend L T dsa ec))
    (acc : verify (provider (ariesBackend L T dsa ec) exportable) (some (.issuerPk ipk)) signature digest
      (some (.sig o)) = .ok true) :
    ∃ sig p, Aries.Wire.sigCodec.unmarshal signature = .ok sig ∧ sig.nonRevocationProof = some p ∧ p.alg = 0 := by
  obtain ⟨u, h⟩ := verify_sig_ok exportable ipk signature digest o acc
  change Aries.verify L ipk signature digest o.attributes o.rhIndex o.eidIndex o.skIndex o.verType o.metadata = .ok () at h
  cases ipk with
  | other => cases h
  | nilPtr => cases h
  | val k =>
    obtain ⟨sig, _, _, _, h1, h2, _⟩ := Aries.verify_ok L h
    refine ⟨sig, ?_⟩
    cases hp : sig.nonRevocationProof with
    | none => simp [Aries.checkNonRev, hp] at h2
    | some p => exact ⟨p, h1, rfl, by simpa [Aries.checkNonRev, hp] using h2⟩

open Ex in
set_option maxRecDepth 40000 in
/-- A signature made with the revocation information of epoch 3 is accepted for epoch 8, with any revocation key. -/
example :
    (∃ cri, Aries.Wire.criCodec.unmarshal Aries.Ex.cri2 = .ok cri ∧ cri.epoch = 3) ∧
    verify (provider AB true) (some (.issuerPk (.val Aries.Ex.ipk2))) (Aries.Ex.sample [9]) [9]
      (some (.sig ⟨none, none, [], Aries.Ex.shown2, 0, 1, 0, [], 8, none, .standard, none, .expectEidNym⟩)) = .ok true ∧
    verify (provider AB true) (some (.issuerPk (.val Aries.Ex.ipk2))) (Aries.Ex.sample [9]) [8]
      (some (.sig ⟨none, none, [], Aries.Ex.shown2, 0, 1, 0, [], 8, none, .standard, none, .expectEidNym⟩)) ≠ .ok true := by
  refine ⟨⟨_, rfl, by decide⟩, by decide, by decide⟩

end Idemix.Provider
