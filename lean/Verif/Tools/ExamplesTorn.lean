import Verif.Tools.PropsTorn
import Verif.Tools.Examples

/-!
# C81 on the toy platform

`signerconfig` is interrupted in the directory of `Verif.Tools.Examples`.
-/

namespace Idemix.Gen.Ex

open Msp (CurveId IMsp Ref Heap SigningIdentity SetupRnd CspId)

/-- A signer in which no field is empty. -/
def tornSigner : Msp.SignerConfig := ⟨[1, 2], [3], ascii "sales", 2, ascii "alice", [4], ascii "1", ascii "c", ascii "s"⟩

/-- C81_torn_file applies: the file can be cut so that the enrolment id is the last field. -/
example : ∃ config, Msp.Wire.signerCodec.marshal tornSigner = .ok config ∧
    ∃ k, Msp.Wire.signerCodec.unmarshal (config.take k) =
      .ok ⟨[1, 2], [3], ascii "sales", 2, ascii "alice", [], [], [], []⟩ := by
  obtain ⟨config, h⟩ : ∃ config, Msp.Wire.signerCodec.marshal tornSigner = .ok config := by
    have h : Msp.Wire.signerOk tornSigner = true := by
      simp only [Msp.Wire.signerOk, tornSigner, Bool.and_eq_true]
      exact ⟨⟨⟨⟨utf8 _ (by decide), utf8 _ (by decide)⟩, utf8 _ (by decide)⟩, utf8 _ (by decide)⟩, utf8 _ (by decide)⟩
    exact ⟨_, by simp only [Msp.Wire.signerCodec, Proto.codec, h, if_true]; rfl⟩
  exact ⟨config, h, (C81_torn_file tornSigner _ ⟨by decide, by decide⟩ config h).mpr (by simp [Spec.firstFields, tornSigner])⟩

/-- C81_wellFormed, C81_interrupted_signer apply: the directory after key generation, and the tool stopped before the first
call of `signerconfig`, or at its end. -/
example (aries : Bool) (conf m x) (h : Run aries conf m x) : ∃ fs₁ l₂ fs₂, Spec.WellFormed fs₁ ∧
    T.signer (flags aries) fs₁ userRnd = .ok l₂ ∧ Stopped l₂ fs₁ fs₁ ∧ Stopped l₂ fs₁ fs₂ ∧
    ∃ config, Spec.PartOf fs₂ ([ascii "idemix-config"] ++ [ascii "user", ascii "SignerConfig"]) config := by
  obtain ⟨l₁, fs₁, l₂, fs₂, e1, e2, e3, e4, -⟩ := h.files
  have hw := C81_wellFormed (T.keygen (flags aries) fs keygenRnd) fs fs₁ fs_wf (by rw [e1]; exact .stopped _ _ _ (stopped_of_run e2))
  obtain ⟨⟨_, _, _, _, config, -, -, -, -, -, hp⟩, -⟩ := C81_interrupted_signer T (flags aries) fs₁ fs₂ hw userRnd l₂ e3
    (stopped_of_run e4)
  exact ⟨fs₁, l₂, fs₂, hw, e3, .here _ _, stopped_of_run e4, config, hp⟩

/-- C81_verifier applies: the directory after key generation. -/
example (aries : Bool) (conf m x) (h : Run aries conf m x) : ∃ (fs₁ : FS) (conf : Msp.MSPConfig),
    Msp.getConfig (fun p => fs₁.read ([ascii "idemix-config"] ++ p)) (ascii "Org1") (Msp.Spec.configType aries) = .ok conf := by
  obtain ⟨l₁, fs₁, l₂, fs₂, e1, e2, e3, e4, -⟩ := h.files
  obtain ⟨k, -, -, -, rfl⟩ := keygen_ok T e1
  have hold := holds_of_run e2
  obtain ⟨conf, hc, -⟩ := C81_verifier fs₁ [ascii "idemix-config"] (ascii "Org1") _ _ aries (utf8 _ (by decide)) hold.mspIpk
    hold.revPk (by
      rw [stopped_frame (stopped_of_run e2) _ (by
        have n1 : dirCa ≠ ascii "user" := by decide
        have n2 : dirMsp ≠ ascii "user" := by decide
        simp [keygenOps, written, n1.symm, n2.symm, flags])]
      rfl)
  exact ⟨fs₁, conf, hc⟩

set_option maxRecDepth 20000 in
/-- C81_dlog_partial applies. -/
example : ∃ l₁ fs₁ l₂, T.keygen (flags false) fs keygenRnd = .ok l₁ ∧ run l₁ fs = (fs₁, true) ∧
    T.signer (flags false) fs₁ userRnd = .ok l₂ := by
  obtain ⟨l₁, fs₁, l₂, e1, e2, e3, -⟩ := C81_dlog_partial T (flags false) rfl rfl rfl (by decide) (by decide)
    (utf8 _ (by decide)) (utf8 _ (by decide)) (utf8 _ (by decide)) (by decide) fs fs_wf (fs_free _) (fs_absent _ _) (fs_absent _ _)
    (fs_absent _ _) keygenRnd userRnd samples (9 : UInt8) [9] [48, 9] rfl rfl rfl (fun _ => ⟨_, rfl⟩)
  exact ⟨l₁, fs₁, l₂, e1, e2, e3⟩

set_option maxRecDepth 20000 in
/-- C81_dlog_violated applies: a new MSP is set up with a signer that it does not accept. -/
example : ∃ (conf : Msp.MSPConfig) (m : IMsp P.world) (x : SigningIdentity P.world),
    (Msp.newMsp P.world false 1).setup 0 (some conf) setupRnd = (m, .ok ()) ∧ m.signer = some x ∧
    x.enrollmentId = ascii "alice" ∧ Msp.validate (fun _ => m) 0 (.signing x) ≠ .ok () := by
  obtain ⟨l₁, fs₁, l₂, fs', e1, e2, e3, e4, h⟩ := C81_dlog_violated T (flags false) rfl rfl 16
    (.inr (.inr ⟨layout, rfl, rfl⟩)) rfl (by decide) (by decide)
    (utf8 _ (by decide)) (utf8 _ (by decide)) (utf8 _ (by decide)) fs fs_wf (fs_free _) (fs_absent _ _) (fs_absent _ _)
    (fs_absent _ _) keygenRnd userRnd samples (9 : UInt8) [9] [48, 9] rfl rfl rfl (fun _ => ⟨_, rfl⟩)
  obtain ⟨conf, -, h⟩ := h (ascii "Org1") (utf8 _ (by decide))
  obtain ⟨m, x, h1, h2, h3, -, -, h6⟩ := h (Msp.newMsp P.world false 1) 0 setupRnd rfl rfl (by decide)
  exact ⟨conf, m, x, h1, h2, h3, h6 _ rfl⟩

set_option maxRecDepth 20000 in
/-- C81_aries applies. -/
example : ∃ l₁ fs₁ l₂, T.keygen (flags true) fs keygenRnd = .ok l₁ ∧ run l₁ fs = (fs₁, true) ∧
    T.signer (flags true) fs₁ userRnd = .ok l₂ := by
  obtain ⟨l₁, fs₁, l₂, e1, e2, e3, -⟩ := C81_aries T (flags true) rfl rfl rfl (by decide) (by decide) rfl
    (by decide) (by decide) (utf8 _ (by decide)) (utf8 _ (by decide)) (utf8 _ (by decide)) (by decide) fs fs_wf (fs_free _)
    (fs_absent _ _) (fs_absent _ _) (fs_absent _ _) keygenRnd userRnd (List.replicate 32 5) rfl rfl (by decide) (9 : UInt8)
    [9] [48, 9] rfl rfl rfl (fun _ => ⟨_, rfl⟩)
  exact ⟨l₁, fs₁, l₂, e1, e2, e3⟩

end Idemix.Gen.Ex
