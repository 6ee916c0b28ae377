import Verif.Msp.PropsSetup

/-!
# What MSPs and identities report about themselves: C83

Concrete cases that meet the hypotheses of the theorems are in `Verif/Tools/ExamplesReports.lean`.
-/

namespace Idemix.Msp

open Provider (Backend Key)

variable {W : World}

namespace Spec

/-- What an identity `i` of an MSP named `name` with issuer key `ipk` reports: the name of its MSP, an identifier made of
that name and the bytes of the pseudonym, and the single unit `unit`, certified by the issuer key. -/
structure Reports (h : Heap W) (i : Identity W) (name unit : Bytes) (p : CspId) (ipk : (W.B p).IPK) : Prop where
  mspIdentifier : i.mspIdentifier h = name
  identifierMsp : i.idMsp = name
  identifierNym : i.nym.key.bytes = .ok i.idBytes
  units : ∀ b, (W.B p).ipkBytes ipk = .ok b → i.organizationalUnits h = .ok [(b, unit)]

end Spec

open Spec

theorem units_of {heap : Heap W} {i : Identity W} {p : CspId} {ipk : (W.B p).IPK} {b : Bytes}
    (h : (heap i.msp).ipk = some ⟨p, .issuerPk ipk⟩) (hb : (W.B p).ipkBytes ipk = .ok b) :
    i.organizationalUnits heap = .ok [(b, i.ou.ou)] := by
  simp [Identity.organizationalUnits, h, Provider.Key.bytes, hb]

/-- C83. An MSP that has been set up reports the name of its configuration and the version it was made with, and an MSP of
the dlog scheme the type of its configuration. -/
theorem C83_msp_partial (m m' : IMsp W) (me : Ref) (t : Int) (raw : Bytes) (ρ : SetupRnd W)
    (h : m.setup me (some ⟨t, raw⟩) ρ = (m', .ok ())) :
    (∃ conf, Wire.configCodec.unmarshal raw = .ok conf ∧ m'.getIdentifier = conf.name) ∧
      m'.getVersion = m.version ∧ (m.aries = false → m'.getType = t) := by
  obtain ⟨conf, c, ipk, rpk, h1, h2, -, -, -, -, h3⟩ := (C58_setup_exact _ _ _ _ _ _).mp h
  have h2' : m.aries = false → (1 : Int) = t := by intro ha; rw [h2, ha]; rfl
  rcases h3 with ⟨-, rfl⟩ | ⟨s, sk, nym, r, proof, ski, -, -, rfl⟩
  · exact ⟨⟨conf, h1, rfl⟩, rfl, h2'⟩
  · exact ⟨⟨conf, h1, rfl⟩, rfl, h2'⟩

/-- C83 is violated: no MSP of the aries scheme reports the type of the configuration it was set up from. All of them
report that of the dlog scheme. -/
theorem C83_type_violated (m m' : IMsp W) (me : Ref) (t : Int) (raw : Bytes) (ρ : SetupRnd W) (ha : m.aries = true)
    (h : m.setup me (some ⟨t, raw⟩) ρ = (m', .ok ())) : m'.getType ≠ t ∧ m'.getType = configType false := by
  obtain ⟨conf, c, ipk, rpk, -, h2, -⟩ := (C58_setup_exact _ _ _ _ _ _).mp h
  refine ⟨?_, rfl⟩
  rw [h2, ha]
  exact show (1 : Int) ≠ 2 by decide

/-- C83. With a signer in the configuration, the default signer is that signer: it reports the MSP and the unit, has the
enrolment id, and the role ADMIN exactly if bit 1 of its role is set. -/
theorem C83_signer (m m' : IMsp W) (me : Ref) (t : Int) (raw : Bytes) (ρ : SetupRnd W)
    (h : m.setup me (some ⟨t, raw⟩) ρ = (m', .ok ())) (conf : IdemixConfig)
    (hc : Wire.configCodec.unmarshal raw = .ok conf) (s : SignerConfig) (hs : conf.signer = some s) :
    ∃ x p ipk, m'.getDefaultSigningIdentity = .ok x ∧ (W.B p).issuerPkFromBytes conf.ipk names = .ok ipk ∧
      x.enrollmentId = s.enrollmentId ∧ x.cred = s.cred ∧ x.identity.role = ⟨conf.name, mspRole s.role⟩ ∧
      x.identity.ou.ou = s.ou ∧
      ∀ heap : Heap W, heap me = m' → Reports heap x.identity conf.name s.ou p ipk := by
  obtain ⟨conf', c, ipk, rpk, h1, -, -, -, h2, -, h3⟩ := (C58_setup_exact _ _ _ _ _ _).mp h
  rw [hc] at h1; cases h1
  rcases h3 with ⟨h3, -⟩ | ⟨s', sk, nym, r, proof, ski, h3, -, rfl⟩
  · rw [hs] at h3; cases h3
  · rw [hs] at h3; cases h3
    refine ⟨_, ⟨m.aries, c⟩, ipk, rfl, h2, rfl, rfl, rfl, rfl, fun heap hh => ⟨?_, rfl, rfl, fun b hb => ?_⟩⟩
    · simp [Identity.mspIdentifier, Spec.signer, hh, IMsp.getIdentifier, withKeys]
    · simp [Identity.organizationalUnits, Spec.signer, hh, withKeys, Provider.Key.bytes, hb]

/-- C83. A new MSP set up from a configuration without signer has no default signer. -/
theorem C83_no_signer_partial (aries : Bool) (version : Int) (m' : IMsp W) (me : Ref) (t : Int) (raw : Bytes) (ρ : SetupRnd W)
    (h : (newMsp W aries version).setup me (some ⟨t, raw⟩) ρ = (m', .ok ())) (conf : IdemixConfig)
    (hc : Wire.configCodec.unmarshal raw = .ok conf) (hs : conf.signer = none) :
    ∃ e, m'.getDefaultSigningIdentity = .err e := by
  obtain ⟨conf', c, ipk, rpk, h1, -, -, -, -, -, h3⟩ := (C58_setup_exact _ _ _ _ _ _).mp h
  rw [hc] at h1; cases h1
  rcases h3 with ⟨-, rfl⟩ | ⟨s', sk, nym, r, proof, ski, h3, -, -⟩
  · exact ⟨_, rfl⟩
  · rw [hs] at h3; cases h3

/-- C83 is violated: set up again from a configuration without signer, under another name, an MSP still has the signer of
the first configuration. That signer then reports two MSPs: its identifier names the first, and it claims to belong to the
second. Its unit is certified by the issuer key of the second. -/
theorem C83_stale_signer_violated (m m₁ m₂ : IMsp W) (me : Ref) (t₁ t₂ : Int) (raw₁ raw₂ : Bytes) (ρ₁ ρ₂ : SetupRnd W)
    (h₁ : m.setup me (some ⟨t₁, raw₁⟩) ρ₁ = (m₁, .ok ())) (h₂ : m₁.setup me (some ⟨t₂, raw₂⟩) ρ₂ = (m₂, .ok ()))
    (conf₁ conf₂ : IdemixConfig) (hc₁ : Wire.configCodec.unmarshal raw₁ = .ok conf₁)
    (hc₂ : Wire.configCodec.unmarshal raw₂ = .ok conf₂) (s : SignerConfig) (hs₁ : conf₁.signer = some s)
    (hs₂ : conf₂.signer = none) (hn : conf₁.name ≠ conf₂.name) :
    ∃ x p ipk, m₂.getDefaultSigningIdentity = .ok x ∧ x.enrollmentId = s.enrollmentId ∧
      (W.B p).issuerPkFromBytes conf₂.ipk names = .ok ipk ∧
      ∀ heap : Heap W, heap me = m₂ → x.identity.idMsp ≠ x.identity.mspIdentifier heap ∧
        x.identity.idMsp = conf₁.name ∧ x.identity.mspIdentifier heap = conf₂.name ∧
        ∀ b, (W.B p).ipkBytes ipk = .ok b → x.identity.organizationalUnits heap = .ok [(b, s.ou)] := by
  obtain ⟨conf, c, ipk, rpk, u₁, -, -, -, -, -, g₁⟩ := (C58_setup_exact _ _ _ _ _ _).mp h₁
  rw [hc₁] at u₁; cases u₁
  rcases g₁ with ⟨g₁, -⟩ | ⟨s', sk, nym, r, proof, ski, g₁, -, rfl⟩
  · rw [hs₁] at g₁; cases g₁
  rw [hs₁] at g₁; cases g₁
  obtain ⟨conf, c₂, ipk₂, rpk₂, u₂, -, -, -, hi, -, g₂⟩ := (C58_setup_exact _ _ _ _ _ _).mp h₂
  rw [hc₂] at u₂; cases u₂
  rcases g₂ with ⟨-, rfl⟩ | ⟨s', sk, nym, r, proof, ski, g₂, -, -⟩
  · refine ⟨_, _, ipk₂, rfl, rfl, hi, fun heap hh => ?_⟩
    have e : (Spec.signer me conf₁.name ⟨m.aries, c⟩ m.exportable s sk nym r proof ski : SigningIdentity W).identity.mspIdentifier
        heap = conf₂.name := by
      simp [Identity.mspIdentifier, Spec.signer, hh, IMsp.getIdentifier, withKeys]
    refine ⟨?_, rfl, e, fun b hb => ?_⟩
    · rw [e]; exact hn
    · refine units_of (ipk := ipk₂) ?_ hb
      change (heap me).ipk = _
      rw [hh]; rfl
  · rw [hs₂] at g₂; cases g₂

/-- C83. An identity read by an MSP that has been set up reports that MSP, and the unit written in it, certified by the
issuer key of that MSP. -/
theorem C83_deserialized (m : IMsp W) (heap : Heap W) (me : Ref) (t : Int) (raw : Bytes) (ρ : SetupRnd W)
    (h : m.setup me (some ⟨t, raw⟩) ρ = (heap me, .ok ())) (b : Bytes) (i : Identity W)
    (hd : deserializeIdentity heap me b = .ok i) :
    ∃ conf p ipk, Wire.configCodec.unmarshal raw = .ok conf ∧ (W.B p).issuerPkFromBytes conf.ipk names = .ok ipk ∧
      Reports heap i conf.name i.ou.ou p ipk := by
  obtain ⟨conf, c, ipk, rpk, h1, -, -, -, h2, -, h3⟩ := (C58_setup_exact _ _ _ _ _ _).mp h
  obtain ⟨d1, d2, d3, d4, -⟩ := C55_deserialized heap me b i hd
  have hm : (heap me).name = conf.name ∧ (heap me).ipk = some ⟨⟨m.aries, c⟩, .issuerPk ipk⟩ := by
    rcases h3 with ⟨-, e⟩ | ⟨s', sk, nym, r, proof, ski, -, -, e⟩ <;> rw [e] <;> exact ⟨rfl, rfl⟩
  refine ⟨conf, ⟨m.aries, c⟩, ipk, h1, h2, ⟨?_, d2.trans hm.1, d4, fun b hb => ?_⟩⟩
  · simp only [Identity.mspIdentifier, d1, IMsp.getIdentifier, hm.1]
  · simp [Identity.organizationalUnits, d1, hm.2, Provider.Key.bytes, hb]

end Idemix.Msp
