import Verif.Msp.Model
import Verif.Provider.PropsKeys

/-!
# Validation, serialization and attribution of identities: C55, C56, C57

Concrete cases that meet the hypotheses of the theorems are in `Verif/Tools/Examples.lean`.
-/

namespace Idemix.Msp

open Provider (Backend Key SigOpts NymSigOpts SignerOpts ImportOpts DerivOpts Raw)
open Proto (utf8Valid)

variable {W : World}

namespace Spec

/-- The role number that credentials carry for an MSP role (`MEMBER` 0, `ADMIN` 1, `CLIENT` 2, `PEER` 3). -/
def credentialRole (role : Int) : Int :=
  if role = 1 then 2 else if role = 2 then 4 else if role = 3 then 8 else 1

/-- `proof` is accepted, under the issuer key of the MSP `m`, as a signature that discloses the unit `ou` and the
role `role` and hides enrolment id and revocation handle. -/
def Proves (m : IMsp W) (ou : Bytes) (role : Int) (proof : Bytes) : Prop :=
  ∃ (p : CspId) (ipk : (W.B p).IPK) (rpk : Option (W.B p).dsa.Pk),
    m.csp = some p ∧ m.ipk = some ⟨p, .issuerPk ipk⟩ ∧ (m.revocationPK = rpk.map fun k => ⟨p, .revPk k⟩) ∧
    proof ≠ [] ∧
    (W.B p).verify ipk proof [] [⟨1, .bytes ou⟩, ⟨2, .int (credentialRole role)⟩, ⟨0, .other⟩, ⟨0, .other⟩] 3 2 0 rpk
      m.epoch .basic none = .ok ()

end Spec

open Spec

/-! ## Validation -/

theorem dec_ne {a b : Bytes} {inst : Decidable (a ≠ b)} : @decide (a ≠ b) inst = false ↔ a = b :=
  ⟨fun h => Classical.not_not.mp (of_decide_eq_false h), fun h => decide_eq_false (Classical.not_not.mpr h)⟩

theorem roleAttr_eq (r : MSPRole) : roleAttr r = ⟨2, .int (credentialRole r.role)⟩ := by
  unfold roleAttr intAttr credentialRole getIdemixRoleFromMSPRoleValue
  by_cases h1 : r.role = 1
  · simp only [h1, if_true]; rfl
  · by_cases h2 : r.role = 2
    · simp only [h2, if_true]; rfl
    · by_cases h0 : r.role = 0
      · simp only [h0, if_true]; rfl
      · by_cases h3 : r.role = 3
        · simp only [h3]; rfl
        · simp only [h1, h2, h0, h3, if_false]; rfl

theorem AnyKey.under_self (p : CspId) (k : Key (W.B p)) : (AnyKey.mk p k).under p = k := by
  simp [AnyKey.under]

theorem AnyKey.eq_of_under {k : AnyKey W} {p : CspId} {x : Key (W.B p)} (h : k.under p = x) (hx : ∀ n, x ≠ .foreign n) :
    k = ⟨p, x⟩ := by
  obtain ⟨q, y⟩ := k
  unfold AnyKey.under at h
  by_cases hq : q = p
  · subst hq; simp only [dif_pos] at h; rw [h]
  · simp only [hq, dif_neg, not_false_eq_true] at h
    exact absurd h.symm (hx 0)

open Provider Provider.Spec in
theorem verify_sig_ok {p : CspId} {e : Bool} {k : Option (Key (W.B p))} {sig : Bytes} {o : SigOpts (W.B p)} {b : Bool} :
    Provider.verify (Provider.provider (W.B p) e) k sig [] (some (.sig o)) = .ok b ↔
      b = true ∧ sig ≠ [] ∧ ∃ ipk rpk, k = some (.issuerPk ipk) ∧ (o.revocationPK = rpk.map fun r => .revPk r) ∧
        (W.B p).verify ipk sig [] o.attributes o.rhIndex o.eidIndex o.skIndex rpk o.epoch o.verType o.metadata =
          .ok () := by
  obtain ⟨h1, h2⟩ := C46_verify_dispatch_partial (B := W.B p) e k sig [] (some (.sig o)) (by simp [NoHandler])
  by_cases hs : sig = []
  · obtain ⟨m, hm⟩ := h1 hs
    rw [hm]; simp [hs]
  · have h2 := h2 hs
    constructor
    · intro h
      rw [h] at h2
      cases k with
      | none => simp [verifyCall, Obeys] at h2
      | some k =>
        cases k with
        | issuerPk ipk =>
          cases hr : o.revocationPK with
          | none =>
            simp only [verifyCall, hr, Option.map_some, Obeys] at h2
            cases hv : (W.B p).verify ipk sig [] o.attributes o.rhIndex o.eidIndex o.skIndex none o.epoch o.verType
              o.metadata with
            | ok u =>
              rw [hv] at h2
              exact ⟨h2, hs, ipk, none, rfl, rfl, hv⟩
            | err m => rw [hv] at h2; exact absurd h2 (by simp [Agree])
            | panic => rw [hv] at h2; exact absurd h2 (by simp [Agree])
          | some r =>
            cases r with
            | revPk rpk =>
              simp only [verifyCall, hr, Option.map_some, Obeys] at h2
              cases hv : (W.B p).verify ipk sig [] o.attributes o.rhIndex o.eidIndex o.skIndex (some rpk) o.epoch
                o.verType o.metadata with
              | ok u =>
                rw [hv] at h2
                exact ⟨h2, hs, ipk, some rpk, rfl, rfl, hv⟩
              | err m => rw [hv] at h2; exact absurd h2 (by simp [Agree])
              | panic => rw [hv] at h2; exact absurd h2 (by simp [Agree])
            | _ => simp only [verifyCall, hr, Option.map_none, Obeys] at h2; obtain ⟨m, hm⟩ := h2; cases hm
        | _ => simp only [verifyCall, Option.map_none, Obeys] at h2; obtain ⟨m, hm⟩ := h2; cases hm
    · rintro ⟨rfl, -, ipk, rpk, rfl, hr, hv⟩
      have hc : verifyCall (W.B p) sig [] (some (.issuerPk ipk)) (some (.sig o)) = some (.ok ()) := by
        cases rpk with
        | none => simp only [Option.map_none] at hr; simp only [verifyCall, hr, hv]
        | some r => simp only [Option.map_some] at hr; simp only [verifyCall, hr, hv]
      rw [hc] at h2
      simp only [Option.map_some, Obeys] at h2
      cases hv2 : Provider.verify (Provider.provider (W.B p) e) (some (.issuerPk ipk)) sig [] (some (.sig o)) with
      | ok x => rw [hv2] at h2; rw [show x = true from h2]
      | err m => rw [hv2] at h2; exact absurd h2 (by simp [Agree])
      | panic => rw [hv2] at h2; exact absurd h2 (by simp [Agree])

theorem verifyProof_ok (h : Heap W) (i : Identity W) :
    i.verifyProof h = .ok () ↔ Proves (h i.msp) i.ou.ou i.role.role i.proof := by
  have hb : ∀ b : Bool, (if b = true then (pure () : Res Unit) else .panic) = .ok () ↔ b = true := by
    intro b; cases b <;> simp [Res.pure_def]
  simp only [Identity.verifyProof, IMsp.provider, IMsp.registry, Res.bind_eq_ok, verify_sig_ok, hb]
  constructor
  · rintro ⟨p, hp, b, ⟨rfl, hs, ipk, rpk, hk, hr, hv⟩, -⟩
    have hp' : (h i.msp).csp = some p := by
      cases hc : (h i.msp).csp with
      | none => rw [hc] at hp; cases hp
      | some q => rw [hc] at hp; cases hp; rfl
    rw [Option.map_eq_some_iff] at hk
    obtain ⟨k, hk, hk'⟩ := hk
    have := AnyKey.eq_of_under hk' (by intro n hn; cases hn)
    refine ⟨p, ipk, rpk, hp', by rw [hk, this], ?_, hs, ?_⟩
    · cases rpk with
      | none =>
        simp only [Option.map_none, Option.map_eq_none_iff] at hr ⊢
        exact hr
      | some r =>
        simp only [Option.map_some, Option.map_eq_some_iff] at hr ⊢
        obtain ⟨k, hk, hk'⟩ := hr
        rw [hk, AnyKey.eq_of_under hk' (by intro n hn; cases hn)]
    · simpa only [roleAttr_eq, bytesAttr, hiddenAttr] using hv
  · rintro ⟨p, ipk, rpk, hp, hk, hr, hs, hv⟩
    refine ⟨p, by rw [hp]; rfl, true, ⟨rfl, hs, ipk, rpk, ?_, ?_, ?_⟩, rfl⟩
    · rw [hk, Option.map_some, AnyKey.under_self]
    · rw [hr]; cases rpk <;> simp [AnyKey.under_self]
    · simpa only [roleAttr_eq, bytesAttr, hiddenAttr] using hv

/-- C56, C57. What validation establishes: the identity's MSP has the name of this MSP, and the identity's proof is
accepted under the issuer key of *the identity's* MSP, with the identity's unit and role. -/
theorem C57_validate_exact (h : Heap W) (me : Ref) (id : AnyIdentity W) :
    validate h me id = .ok () ↔ ∃ i, (id = .identity i ∨ ∃ s, id = .signing s ∧ s.identity = i) ∧
      (h i.msp).name = (h me).name ∧ Proves (h i.msp) i.ou.ou i.role.role i.proof := by
  cases id with
  | other => simp [validate, AnyIdentity.get?, Res.ofOption]
  | identity i => simp [validate, AnyIdentity.get?, Identity.mspIdentifier, verifyProof_ok]; exact fun _ => dec_ne
  | signing s => simp [validate, AnyIdentity.get?, Identity.mspIdentifier, verifyProof_ok]; exact fun _ => dec_ne

/-- C57 for identities that belong to this MSP object: they validate exactly if their proof is accepted under its
issuer key. -/
theorem C57_own_identities_partial (h : Heap W) (me : Ref) (i : Identity W) (hi : i.msp = me) :
    validate h me (.identity i) = .ok () ↔ Proves (h me) i.ou.ou i.role.role i.proof := by
  rw [C57_validate_exact]
  constructor
  · rintro ⟨j, hj | ⟨s, hj, -⟩, -, hp⟩
    · cases hj; rw [← hi]; exact hp
    · cases hj
  · intro hp
    exact ⟨i, .inl rfl, by rw [hi], by rw [hi]; exact hp⟩

/-- C57 is violated: an identity of another MSP object is validated against the issuer key of that object. Whatever
issuer key this MSP has, it accepts what any MSP of the same name accepts. -/
theorem C57_violated (h : Heap W) (me other : Ref) (i : Identity W) (hi : i.msp = other)
    (hn : (h other).name = (h me).name) (hv : validate h other (.identity i) = .ok ()) (ipk : Option (AnyKey W))
    (hne : me ≠ other) :
    validate (fun r => if r = me then { h me with ipk := ipk } else h r) me (.identity i) = .ok () := by
  rw [C57_own_identities_partial h other i hi] at hv
  rw [C57_validate_exact]
  refine ⟨i, .inl rfl, ?_, ?_⟩
  · simp [hi, hne.symm, hn]
  · simp [hi, hne.symm, hv]

/-- C56 is violated: the pseudonym of an identity plays no part in validation. -/
theorem C56_violated (h : Heap W) (me : Ref) (i : Identity W) (nym : AnyKey W) :
    validate h me (.identity { i with nym := nym }) = validate h me (.identity i) := rfl

/-! ## Serialization -/

theorem utf8_nil : utf8Valid [] = true := rfl

theorem serialize_ok {h : Heap W} {i : Identity W} {b : Bytes} (hs : i.serialize h = .ok b) :
    ∃ raw ou role inner, i.nym.key.bytes = .ok raw ∧ Wire.unitCodec.marshal i.ou = .ok ou ∧
      Wire.roleCodec.marshal i.role = .ok role ∧
      Wire.identCodec.marshal ⟨some (raw.take (raw.length / 2)), some (raw.drop (raw.length / 2)), ou, role,
        i.proof, []⟩ = .ok inner ∧ Wire.serialCodec.marshal ⟨(h i.msp).name, inner⟩ = .ok b := by
  simp only [Identity.serialize, Res.bind_eq_ok] at hs
  obtain ⟨raw, h1, ou, h2, role, h3, inner, h4, h5⟩ := hs
  exact ⟨raw, ou, role, inner, h1, h2, h3, h4, h5⟩

open Provider Provider.Spec in
/-- C55. Deserializing a serialized identity in an MSP of the same name that uses the same provider gives an identity
of this MSP with the same pseudonym, unit, role and proof. The hypothesis on the pseudonym is C52
(`C52_dlog_nym`, `C52_aries_nym`); it has two coordinates, and so at least two bytes. -/
theorem C55_round_trip (h : Heap W) (me : Ref) (i : Identity W) (b raw : Bytes) (hs : i.serialize h = .ok b)
    (hn : (h i.msp).name = (h me).name) (hp : (h me).csp = some i.nym.csp) (he : (h me).exportable = true)
    (hraw : i.nym.key.bytes = .ok raw) (h2 : 2 ≤ raw.length)
    (hrt : RoundTrips (W.B i.nym.csp) i.nym.key (.nymPk true)) (hw : i.role.Wire) :
    deserializeIdentity h me b = .ok { i with msp := me, idMsp := (h me).name, idBytes := raw } := by
  obtain ⟨raw', ou, role, inner, h1, h2', h3, h4, h5⟩ := serialize_ok hs
  rw [hraw] at h1; cases h1
  obtain ⟨raw', hr', himp⟩ := hrt
  rw [hraw] at hr'; cases hr'
  have e5 := Wire.serialCodec.rt _ _ trivial h5
  have e2 := Wire.unitCodec.rt _ _ trivial h2'
  have e3 := Wire.roleCodec.rt _ _ hw h3
  have e4 := Wire.identCodec.rt _ _ ⟨by
    simp only [ne_eq, Option.some.injEq, List.take_eq_nil_iff, not_or]
    exact ⟨by omega, by rintro rfl; simp at h2⟩, by
    simp only [ne_eq, Option.some.injEq, List.drop_eq_nil_iff]
    omega⟩ h4
  have ei : (h me).import i.nym.csp raw (.nymPk true) = .ok i.nym.key := by
    simp only [IMsp.import, IMsp.registry, he, himp Unit (dummyStore (W.B i.nym.csp)) ()]
  have ep : (h me).provider = .ok i.nym.csp := by simp [IMsp.provider, hp]
  simp only [deserializeIdentity, e5, Res.ok_bind, hn, ne_eq, not_true_eq_false, decide_false, Res.guardErr_false,
    deserializeInternal, e4, ep, List.take_append_drop, ei, e2, e3, newIdentity, hraw]

/-- C55. Only identities that name this MSP are deserialized. -/
theorem C55_other_msp_refused (h : Heap W) (me : Ref) (s : SerializedIdentity) (b : Bytes)
    (hb : Wire.serialCodec.marshal s = .ok b) (hn : s.mspid ≠ (h me).name) :
    ∃ m, deserializeIdentity h me b = .err m := by
  have := Wire.serialCodec.rt _ _ trivial hb
  simp only [deserializeIdentity, this, Res.ok_bind, hn, ne_eq, not_false_eq_true, decide_true]
  exact ⟨_, rfl⟩

/-- C55, C57. What is deserialized belongs to this MSP: it has its name, refers to it, and holds a key of its
provider. -/
theorem C55_deserialized (h : Heap W) (me : Ref) (b : Bytes) (i : Identity W)
    (hd : deserializeIdentity h me b = .ok i) :
    i.msp = me ∧ i.idMsp = (h me).name ∧ (h me).csp = some i.nym.csp ∧ i.nym.key.bytes = .ok i.idBytes ∧
      ∃ s, Wire.serialCodec.unmarshal b = .ok s ∧ s.mspid = (h me).name := by
  simp only [deserializeIdentity, Res.bind_eq_ok, Res.guardErr_eq_ok, deserializeInternal] at hd
  obtain ⟨s, hs, -, hn, si, hsi, hd⟩ := hd
  have hn' : s.mspid = (h me).name := by simpa using hn
  split at hd
  · simp only [Res.bind_eq_ok, newIdentity] at hd
    obtain ⟨p, hp, nym, -, ou, -, role, -, hd⟩ := hd
    have hp' : (h me).csp = some p := by
      simp only [IMsp.provider] at hp
      cases hc : (h me).csp with
      | none => rw [hc] at hp; cases hp
      | some q => rw [hc] at hp; cases hp; rfl
    split at hd
    · next hraw =>
      cases hd
      exact ⟨rfl, rfl, hp', hraw, s, hs, hn'⟩
    · cases hd
  · cases hd

/-- C57. An identity that this MSP has deserialized validates exactly if its proof is accepted under this MSP's
issuer key. -/
theorem C57_deserialized (h : Heap W) (me : Ref) (b : Bytes) (i : Identity W)
    (hd : deserializeIdentity h me b = .ok i) :
    validate h me (.identity i) = .ok () ↔ Proves (h me) i.ou.ou i.role.role i.proof :=
  C57_own_identities_partial h me i (C55_deserialized h me b i hd).1

end Idemix.Msp
