import Verif.Msp.PropsSetup
import Verif.Msp.PropsNym
import Verif.Msp.PropsPrincipal

/-!
# MSPs with the same configuration agree: C66

Every peer of a channel sets up its own MSP object, with randomness of its own and possibly with a signer of its own. What
the peers conclude about an identity must not depend on that.

Concrete cases that meet the hypotheses of the theorem are in `Verif/Tools/Examples.lean`.
-/

namespace Idemix.Msp

open Provider (Backend Key SigOpts NymSigOpts SignerOpts ImportOpts DerivOpts Raw)

variable {W : World}

namespace Spec

/-- Two configurations describe the same MSP: they may differ in the signer, and in what set-up ignores. -/
def SameMsp (c₁ c₂ : IdemixConfig) : Prop :=
  c₁.name = c₂.name ∧ c₁.ipk = c₂.ipk ∧ c₁.revocationPk = c₂.revocationPk ∧ c₁.curveId = c₂.curveId

/-- `m` is what set-up of a new MSP makes of a configuration that describes the MSP of `conf`. -/
def SetUpFrom (aries : Bool) (version : Int) (conf : IdemixConfig) (me : Ref) (m : IMsp W) : Prop :=
  ∃ (raw : Bytes) (c : IdemixConfig) (σ : SetupRnd W), Wire.configCodec.unmarshal raw = .ok c ∧ SameMsp conf c ∧
    (newMsp W aries version).setup me (some ⟨configType aries, raw⟩) σ = (m, .ok ())

/-- Two MSP objects, in two processes, conclude the same about two identities: about their validity, the signatures of
their pseudonyms, their organizational units, the principals they satisfy, and their serialized form. -/
structure AgreeOn (h₁ h₂ : Heap W) (me₁ me₂ : Ref) (i₁ i₂ : Identity W) : Prop where
  validate : validate h₁ me₁ (.identity i₁) = validate h₂ me₂ (.identity i₂)
  verify : ∀ msg sig, i₁.verify h₁ msg sig = i₂.verify h₂ msg sig
  units : i₁.organizationalUnits h₁ = i₂.organizationalUnits h₂
  principals : ∀ q, satisfiesPrincipal h₁ me₁ (.identity i₁) (some q) = .ok () ↔
    satisfiesPrincipal h₂ me₂ (.identity i₂) (some q) = .ok ()
  serialize : i₁.serialize h₁ = i₂.serialize h₂

/-- Two outcomes of reading an identity agree: the same error, a panic in both, or identities that differ only in the
reference to their MSP and on which the MSPs agree. -/
def ReadAlike (h₁ h₂ : Heap W) (me₁ me₂ : Ref) : Res (Identity W) → Res (Identity W) → Prop
  | .ok i₁, .ok i₂ => i₂ = { i₁ with msp := me₂ } ∧ i₁.msp = me₁ ∧ AgreeOn h₁ h₂ me₁ me₂ i₁ i₂
  | .err e₁, .err e₂ => e₁ = e₂
  | .panic, .panic => True
  | _, _ => False

end Spec

open Spec

/-- Equal but for the signer. -/
def Twins (m₁ m₂ : IMsp W) : Prop := { m₁ with signer := none } = { m₂ with signer := none }

theorem Twins.fields {m₁ m₂ : IMsp W} (h : Twins m₁ m₂) :
    m₁.csp = m₂.csp ∧ m₁.version = m₂.version ∧ m₁.ipk = m₂.ipk ∧ m₁.name = m₂.name ∧
      m₁.revocationPK = m₂.revocationPK ∧ m₁.epoch = m₂.epoch ∧ m₁.exportable = m₂.exportable := by
  have h' := h
  unfold Twins at h'
  simp only [IMsp.mk.injEq] at h'
  exact ⟨h'.1, h'.2.1, h'.2.2.1, h'.2.2.2.2.1, h'.2.2.2.2.2.1, h'.2.2.2.2.2.2.1, h'.2.2.2.2.2.2.2.2⟩

theorem selects_unique {aries : Bool} {s : Bytes} {c₁ c₂ : CurveId} (h₁ : SelectsCurve aries s c₁)
    (h₂ : SelectsCurve aries s c₂) : c₁ = c₂ := by
  have := (chooseCurve_ok _ _ _).mpr h₁
  rw [(chooseCurve_ok _ _ _).mpr h₂] at this
  exact (Res.ok.inj this).symm

theorem setUpFrom_twins {aries : Bool} {version : Int} {conf : IdemixConfig} {me₁ me₂ : Ref} {m₁ m₂ : IMsp W}
    (h₁ : SetUpFrom aries version conf me₁ m₁) (h₂ : SetUpFrom aries version conf me₂ m₂) : Twins m₁ m₂ := by
  obtain ⟨raw₁, k₁, σ₁, u₁, ⟨n₁, i₁, r₁, c₁⟩, s₁⟩ := h₁
  obtain ⟨raw₂, k₂, σ₂, u₂, ⟨n₂, i₂, r₂, c₂⟩, s₂⟩ := h₂
  obtain ⟨conf₁, cv₁, ipk₁, rpk₁, v₁, -, sc₁, -, hi₁, ⟨-, b₁, hb₁, hr₁⟩, h₁⟩ := (C58_setup_exact _ _ _ _ _ _).mp s₁
  obtain ⟨conf₂, cv₂, ipk₂, rpk₂, v₂, -, sc₂, -, hi₂, ⟨-, b₂, hb₂, hr₂⟩, h₂⟩ := (C58_setup_exact _ _ _ _ _ _).mp s₂
  rw [u₁] at v₁; cases v₁
  rw [u₂] at v₂; cases v₂
  rw [← c₁] at sc₁; rw [← c₂] at sc₂
  cases selects_unique sc₁ sc₂
  rw [← i₁] at hi₁; rw [← i₂, hi₁] at hi₂; cases hi₂
  rw [← r₁] at hb₁; rw [← r₂, hb₁] at hb₂; cases hb₂
  rw [hr₁] at hr₂; cases hr₂
  have key : ∀ {m : IMsp W} {name : Bytes} {me : Ref} {o : Option SignerConfig} {σ : SetupRnd W}, name = conf.name →
      ((o = none ∧ m = withKeys (newMsp W aries version) name ⟨aries, cv₁⟩ ipk₁ rpk₁) ∨
         ∃ s sk nym r proof ski, o = some s ∧
          Signer (W.B ⟨aries, cv₁⟩) ipk₁ s (σ ⟨aries, cv₁⟩) sk nym r proof ski ∧
          m = { withKeys (newMsp W aries version) name ⟨aries, cv₁⟩ ipk₁ rpk₁ with
            signer := some (signer me name ⟨aries, cv₁⟩ (newMsp W aries version).exportable s sk nym r proof ski) }) →
      { m with signer := none } = withKeys (newMsp W aries version) conf.name ⟨aries, cv₁⟩ ipk₁ rpk₁ := by
    rintro m name me o σ rfl (⟨-, rfl⟩ | ⟨s, sk, nym, r, proof, ski, -, -, rfl⟩) <;> rfl
  unfold Twins
  rw [key n₁.symm h₁, key n₂.symm h₂]

section

variable {h₁ h₂ : Heap W} {me₁ me₂ : Ref}

theorem validate_twins (ht : Twins (h₁ me₁) (h₂ me₂)) (i : Identity W) (hi : i.msp = me₁) :
    validate h₁ me₁ (.identity i) = validate h₂ me₂ (.identity { i with msp := me₂ }) := by
  obtain ⟨e1, e2, e3, e4, e5, e6, e7⟩ := ht.fields
  subst hi
  simp only [validate, AnyIdentity.get?, Identity.mspIdentifier, IMsp.getIdentifier, Identity.verifyProof, IMsp.provider,
    IMsp.registry, Res.ofOption_some, Res.ok_bind, e1, e3, e4, e5, e6, e7, ne_eq, not_true_eq_false, decide_false]

theorem verify_twins (ht : Twins (h₁ me₁) (h₂ me₂)) (i : Identity W) (hi : i.msp = me₁) (msg sig : Bytes) :
    i.verify h₁ msg sig = Identity.verify h₂ { i with msp := me₂ } msg sig := by
  obtain ⟨e1, e2, e3, e4, e5, e6, e7⟩ := ht.fields
  subst hi
  simp only [Identity.verify, IMsp.provider, IMsp.registry, e1, e3, e7]

theorem serialize_twins (ht : Twins (h₁ me₁) (h₂ me₂)) (i : Identity W) (hi : i.msp = me₁) :
    i.serialize h₁ = Identity.serialize h₂ { i with msp := me₂ } := by
  obtain ⟨e1, e2, e3, e4, e5, e6, e7⟩ := ht.fields
  subst hi
  simp only [Identity.serialize, Identity.mspIdentifier, IMsp.getIdentifier, e4]

theorem agree_twins (ht : Twins (h₁ me₁) (h₂ me₂)) (i : Identity W) (hi : i.msp = me₁) :
    AgreeOn h₁ h₂ me₁ me₂ i { i with msp := me₂ } := by
  obtain ⟨e1, e2, e3, e4, e5, e6, e7⟩ := ht.fields
  refine ⟨validate_twins ht i hi, verify_twins ht i hi, ?_, fun q => ?_, serialize_twins ht i hi⟩
  · subst hi; simp only [Identity.organizationalUnits, e3]
  · rw [C53_principal_exact, C53_principal_exact, validate_twins ht i hi, serialize_twins ht i hi, e2, e4]

/-- C66. Two MSP objects, in the same or in different processes, that were set up from configurations of the same MSP
(same name, issuer key, revocation key, curve; any signers; any randomness), read every string of bytes alike: both
refuse it for the same reason, or both get the same identity, and then they agree about its validity, about every
signature of its pseudonym, about its units, about every principal, and serialize it to the same bytes. -/
theorem C66_agreement (aries : Bool) (version : Int) (conf : IdemixConfig) (h₁ h₂ : Heap W) (me₁ me₂ : Ref)
    (s₁ : SetUpFrom aries version conf me₁ (h₁ me₁)) (s₂ : SetUpFrom aries version conf me₂ (h₂ me₂)) (b : Bytes) :
    ReadAlike h₁ h₂ me₁ me₂ (deserializeIdentity h₁ me₁ b) (deserializeIdentity h₂ me₂ b) := by
  have ht := setUpFrom_twins s₁ s₂
  obtain ⟨e1, e2, e3, e4, e5, e6, e7⟩ := ht.fields
  have key : deserializeIdentity h₂ me₂ b = (deserializeIdentity h₁ me₁ b) >>= fun i => .ok { i with msp := me₂ } := by
    simp only [deserializeIdentity, e4]
    cases Wire.serialCodec.unmarshal b with
    | err e => rfl
    | panic => rfl
    | ok s =>
      simp only [Res.ok_bind]
      cases hg : Res.guardErr (decide (s.mspid ≠ (h₂ me₂).name)) "expected another MSP ID" with
      | err e => rfl
      | panic => rfl
      | ok u =>
        simp only [Res.ok_bind, deserializeInternal]
        cases Wire.identCodec.unmarshal s.idBytes with
        | err e => rfl
        | panic => rfl
        | ok si =>
          simp only [Res.ok_bind]
          obtain ⟨nx, ny, ou, role, proof, schema⟩ := si
          cases nx with
          | none => rfl
          | some x =>
            cases ny with
            | none => rfl
            | some y =>
              simp only [IMsp.provider, e1]
              cases (h₂ me₂).csp with
              | none => rfl
              | some p =>
                simp only [Res.deref_some, Res.ok_bind]
                have : (h₁ me₁).import p (x ++ y) (.nymPk true) = (h₂ me₂).import p (x ++ y) (.nymPk true) := by
                  simp only [IMsp.import, IMsp.registry, e7]
                rw [this]
                cases (h₂ me₂).import p (x ++ y) (.nymPk true) with
                | err e => rfl
                | panic => rfl
                | ok k =>
                  simp only [Res.ok_bind]
                  cases Wire.unitCodec.unmarshal ou with
                  | err e => rfl
                  | panic => rfl
                  | ok o =>
                    simp only [Res.ok_bind]
                    cases Wire.roleCodec.unmarshal role with
                    | err e => rfl
                    | panic => rfl
                    | ok r =>
                      simp only [Res.ok_bind, newIdentity, e4]
                      cases Key.bytes k <;> rfl
  rw [key]
  cases hd : deserializeIdentity h₁ me₁ b with
  | err e => exact rfl
  | panic => exact trivial
  | ok i =>
    have hi := (C55_deserialized h₁ me₁ b i hd).1
    exact ⟨rfl, hi, agree_twins ht i hi⟩

end

end Idemix.Msp
