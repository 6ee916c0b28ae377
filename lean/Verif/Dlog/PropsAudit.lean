import Verif.Dlog.PropsAlter

/-!
# C105: what an audit of an accepted signature reports is true of its signer (dlog scheme)
-/

namespace Idemix.Dlog

open Spec

variable {S : Suite} (E : Env S)

/-- The commitment that opens to `x` with `r`, for the attribute with base `h`; without any proof. -/
def Spec.bare (T : Translator S) (h hRand : S.G1) (x r : S.F) : AttrNym := ⟨some (T.g1ToProto (x • h + r • hRand)), none⟩

theorem audit_bare {T : Translator S} {ipk : IssuerPublicKey} {hE : Option ECP} {h hRand : S.G1} {idx : Nat}
    (hh : ipk.hAttrs[idx]? = some hE) (hd : T.g1FromProto hE = .ok h) (hr : T.g1FromProto ipk.hRand = .ok hRand) (x r : S.F) :
    auditSigNym T (some (Spec.bare T h hRand x r)) ipk x idx r = .ok () :=
  (C15_audit_exact T _ _ _ _ _).mpr ⟨_, _, hE, h, hRand, rfl, rfl, by omega, by simpa using hh, hd, hr, T.g1_rt _⟩

/-- **C105 is violated (dlog, enrollment identifiers).** Basic verification, which MSPs use, does not look at the
commitments in a signature. Whoever has a signature, their own or another's, that is accepted so can put in a
commitment to any enrollment identifier `id` they like, with any randomness `r`. The signature is accepted as
before, and the auditor finds that it is the signature of `id`. -/
theorem C105_enrollment_violated (ipk : IssuerPublicKey) (raw msg : Bytes) (attributes : List IdemixAttribute)
    (rhIndex eidIndex : Int) (revPk : Option E.dsa.Pk) (epoch : Int) (md : Option (SignerMetadata S))
    (acc : E.verify (.val ipk) raw msg attributes rhIndex eidIndex revPk epoch .basic md = .ok ())
    (sig : Signature) (decoded : Wire.sigCodec.unmarshal raw = .ok sig) (hw : sig.Wire)
    (hE : Option ECP) (h hRand : S.G1) (idx : Nat) (hh : ipk.hAttrs[idx]? = some hE) (hd : E.T.g1FromProto hE = .ok h)
    (hr : E.T.g1FromProto ipk.hRand = .ok hRand) (id : Bytes) (r : S.F) (raw' : Bytes)
    (hraw : raw' = Proto.encode (Wire.sig { sig with eidNym := some (Spec.bare E.T h hRand (S.hashToZr id) r) })) :
    E.verify (.val ipk) raw' msg attributes rhIndex eidIndex revPk epoch .basic md = .ok () ∧
      E.auditNymEid (.val ipk) idx raw' id (some r) .expectSignature = .ok () := by
  have d' : Wire.sigCodec.unmarshal raw' = .ok { sig with eidNym := some (Spec.bare E.T h hRand (S.hashToZr id) r) } := by
    rw [hraw]
    refine Wire.sigCodec.rt _ _ ⟨?_, hw.2.1, hw.2.2.1, hw.2.2.2⟩ rfl
    rintro n ⟨⟩
    simp [Spec.bare]
  constructor
  · simp only [Env.verify, Res.recovered_eq_ok, Dyn.get_val, Res.ok_bind, decoded, d', Res.bind_eq_ok] at acc ⊢
    obtain ⟨vals, h1, h2⟩ := acc
    refine ⟨vals, h1, ?_⟩
    obtain ⟨i, k, v, vs, e, sh, a⟩ := ver_ok_iff.mp h2
    refine ver_ok_iff.mpr ⟨i, k, v, vs, e, ?_, a⟩
    obtain ⟨d1, d2, d3, d4, d5, d6, d7, d8, d9, d10, d11, d12, d13⟩ := sh.decodes
    exact
      { reads := sh.reads, decodes := ⟨d1, d2, d3, d4, d5, d6, d7, d8, d9, d10, d11, d12, d13⟩
        eid := .inl ⟨by simp [verifyEid, verifyRh], by simpa [DecodesNym, verifyEid, verifyRh] using sh.eid⟩
        rh := sh.rh, rh_nonneg := sh.rh_nonneg, rh_lt := sh.rh_lt, D_len := sh.D_len, nrp := sh.nrp
        verType := rfl, epochPk := sh.epochPk, sAttrs_len := sh.sAttrs_len, bases_len := sh.bases_len
        rh_resp := sh.rh_resp, eid_range := sh.eid_range, values := sh.values, values_len := sh.values_len
        metaEid := sh.metaEid, metaRh := sh.metaRh }
  · rw [(C15_bridge_audit_eid E ipk idx raw' id r).1]
    exact ⟨_, d', audit_bare hh hd hr _ _⟩

/-- **C105 is violated (dlog, revocation handles).** The same for the revocation handle. Here it also holds for
verification that expects a commitment to the enrollment identifier only. -/
theorem C105_handle_violated (ipk : IssuerPublicKey) (raw msg : Bytes) (attributes : List IdemixAttribute)
    (rhIndex eidIndex : Int) (revPk : Option E.dsa.Pk) (epoch : Int) (vt : VerType) (hvt : vt = .basic ∨ vt = .expectEidNym)
    (md : Option (SignerMetadata S))
    (acc : E.verify (.val ipk) raw msg attributes rhIndex eidIndex revPk epoch vt md = .ok ())
    (sig : Signature) (decoded : Wire.sigCodec.unmarshal raw = .ok sig) (hw : sig.Wire)
    (hE : Option ECP) (h hRand : S.G1) (idx : Nat) (hh : ipk.hAttrs[idx]? = some hE) (hd : E.T.g1FromProto hE = .ok h)
    (hr : E.T.g1FromProto ipk.hRand = .ok hRand) (handle : Bytes) (r : S.F) (raw' : Bytes)
    (hraw : raw' = Proto.encode (Wire.sig { sig with rhNym := some (Spec.bare E.T h hRand (S.hashToZr handle) r) })) :
    E.verify (.val ipk) raw' msg attributes rhIndex eidIndex revPk epoch vt md = .ok () ∧
      E.auditNymRh (.val ipk) idx raw' handle (some r) .expectSignature = .ok () := by
  have d' : Wire.sigCodec.unmarshal raw' = .ok { sig with rhNym := some (Spec.bare E.T h hRand (S.hashToZr handle) r) } := by
    rw [hraw]
    refine Wire.sigCodec.rt _ _ ⟨hw.1, ?_, hw.2.2.1, hw.2.2.2⟩ rfl
    rintro n ⟨⟩
    simp [Spec.bare]
  constructor
  · simp only [Env.verify, Res.recovered_eq_ok, Dyn.get_val, Res.ok_bind, decoded, d', Res.bind_eq_ok] at acc ⊢
    obtain ⟨vals, h1, h2⟩ := acc
    refine ⟨vals, h1, ?_⟩
    obtain ⟨i, k, v, vs, e, sh, a⟩ := ver_ok_iff.mp h2
    refine ver_ok_iff.mpr ⟨i, k, v, vs, e, ?_, a⟩
    obtain ⟨d1, d2, d3, d4, d5, d6, d7, d8, d9, d10, d11, d12, d13⟩ := sh.decodes
    have s1 := sh.eid
    have s2 := sh.rh
    have s3 := sh.verType
    exact
      { reads := sh.reads, decodes := ⟨d1, d2, d3, d4, d5, d6, d7, d8, d9, d10, d11, d12, d13⟩
        eid := by rcases hvt with rfl | rfl <;> simpa [verifyEid, verifyRh] using s1
        rh := by rcases hvt with rfl | rfl <;> simpa [DecodesNym, verifyRh] using s2
        rh_nonneg := sh.rh_nonneg, rh_lt := sh.rh_lt, D_len := sh.D_len, nrp := sh.nrp
        verType := by
          rcases hvt with rfl | rfl
          · simp [verTypeChecks]
          · simpa [verTypeChecks] using s3
        epochPk := sh.epochPk, sAttrs_len := sh.sAttrs_len, bases_len := sh.bases_len
        rh_resp := sh.rh_resp, eid_range := sh.eid_range, values := sh.values, values_len := sh.values_len
        metaEid := sh.metaEid, metaRh := sh.metaRh }
  · rw [(C15_bridge_audit_rh E ipk idx raw' handle r).1]
    exact ⟨_, d', audit_bare hh hd hr _ _⟩

theorem audited {T : Translator S} {b : Bool} {an : Option AttrNym} {P : S.G1} {z : S.F} {ipk : IssuerPublicKey} {k : Spec.Key S}
    (hk : Reads T ipk k) {idx : Int} {x r w : S.F} {attrs : List S.F} (hd : DecodesNym T b an (some (P, z)))
    (ha : auditSigNym T an ipk x idx r = .ok ()) (hc : Spec.CommitsTo k attrs idx.toNat P w) :
    attrs[idx.toNat]? = some x ∨ ∃ a h, attrs[idx.toNat]? = some a ∧ k.hAttrs[idx.toNat]? = some h ∧
      Relation S [x - a, r - w] [h, k.hRand] := by
  obtain ⟨a, en, hE, h, hR, rfl, e2, -, e4, e5, e6, e7⟩ := (C15_audit_exact T _ _ _ _ _).mp ha
  obtain ⟨-, h'⟩ | ⟨-, a', n, h1, h2, h3⟩ := hd
  · cases h'
  cases h1
  cases h3
  rw [e2, e7] at h2
  cases h2
  rw [hk.hRand] at e6
  cases e6
  obtain ⟨y, g, c1, c2, c3⟩ := hc
  have hg : g = h := by
    rcases parseAttrs_getElem hk.hAttrs idx.toNat with ⟨e, Q, q1, q2, q3⟩ | ⟨q1, -⟩
    · rw [e4] at q1; cases q1
      rw [e5] at q3; cases q3
      rw [c2] at q2; cases q2
      rfl
    · rw [e4] at q1; cases q1
  subst hg
  by_cases hx : x = y
  · exact .inl (by rw [hx]; exact c1)
  · exact .inr ⟨y, g, c1, c2, relation_two (R := 0) (by rw [c3]) fun h => hx h.1⟩

/-- **C105 (dlog, partial).** In the situation of C10, let the signature be accepted with a verification type that asks for the
commitment, for no commitments, or for the verification of whatever there is, and let the attribute be hidden. An audit that
succeeds for the value `x` reports the attribute in the very credential that is extracted from the signer, or exhibits a
relation between the bases, computed from the opening and the two signatures. What is missing: the other verification types
(`C105_enrollment_violated`, `C105_handle_violated`). -/
theorem C105_dlog_partial (T : Translator S) (h₁ h₂ : Bytes → S.F) {RevPk : Type} (ipk : IssuerPublicKey)
    (sig₁ sig₂ : Signature) (D msg₁ msg₂ : Bytes) (values : List (Option S.F)) (rhIndex eidIndex : Int)
    (revPk₁ revPk₂ : RevPk) (epoch₁ epoch₂ : Int) (vt : VerType)
    (md₁ : Option (SignerMetadata (S.withHash h₁))) (md₂ : Option (SignerMetadata (S.withHash h₂)))
    (acc₁ : sig₁.ver (T.withHash h₁) D (some ipk) msg₁ values rhIndex eidIndex revPk₁ epoch₁ vt md₁ = .ok ())
    (acc₂ : sig₂.ver (T.withHash h₂) D (some ipk) msg₂ values rhIndex eidIndex revPk₂ epoch₂ vt md₂ = .ok ())
    (k : Spec.Key S) (hk : Reads T ipk k) (v₁ v₂ : Spec.Sig S)
    (hv₁ : Views T sig₁ vt v₁) (hv₂ : Views T sig₂ vt v₂) (hpat : Spec.SamePattern vt v₁ v₂)
    (vs : List S.F) (hvs : vs.map some = dis D values) (q₁ q₂ : Bytes)
    (hq₁ : q₁ = v₁.transcript (sigLabelOf v₁) k ipk.hash D vs eidIndex.toNat rhIndex.toNat msg₁)
    (hq₂ : q₂ = v₂.transcript (sigLabelOf v₂) k ipk.hash D vs eidIndex.toNat rhIndex.toNat msg₂)
    (sameQuery : q₁ = q₂)
    (differentAnswers : h₁ (Spec.second (S.withHash h₁) q₁ v₁.nonce) ≠ h₂ (Spec.second (S.withHash h₂) q₂ v₂.nonce))
    (hvt : vt ∈ [VerType.bestEffort, .expectStandard, .expectEidNym, .expectEidNymRhNym]) :
    let e := v₁.extract v₂
    ∃ attrs : List S.F, Spec.Discloses D values attrs ∧ hid D attrs = e.hidden ∧
      Spec.IsCredential k e.A e.e e.s e.sk attrs ∧
      (D[eidIndex.toNat]? = some 0 → ∀ x r, sig₁.auditNymEid T ipk x eidIndex r = .ok () →
        attrs[eidIndex.toNat]? = some x ∨ ∃ P Q z₁ z₂ a h, v₁.eid = some (P, z₁) ∧ v₂.eid = some (Q, z₂) ∧
          attrs[eidIndex.toNat]? = some a ∧ k.hAttrs[eidIndex.toNat]? = some h ∧
          Relation S [x - a, r - Spec.witness v₁.c v₂.c z₁ z₂] [h, k.hRand]) ∧
      (vt ≠ .expectEidNym → D[rhIndex.toNat]? = some 0 → ∀ x r, sig₁.auditNymRh T ipk x rhIndex r = .ok () →
        attrs[rhIndex.toNat]? = some x ∨ ∃ P Q z₁ z₂ a h, v₁.rh = some (P, z₁) ∧ v₂.rh = some (Q, z₂) ∧
          attrs[rhIndex.toNat]? = some a ∧ k.hAttrs[rhIndex.toNat]? = some h ∧
          Relation S [x - a, r - Spec.witness v₁.c v₂.c z₁ z₂] [h, k.hRand]) := by
  obtain ⟨attrs, r1, r2, r3, r4, r5⟩ := C14_pseudonyms_bound_to_credential T h₁ h₂ ipk sig₁ sig₂ D msg₁ msg₂ values rhIndex
    eidIndex revPk₁ revPk₂ epoch₁ epoch₂ vt md₁ md₂ acc₁ acc₂ k hk v₁ v₂ hv₁ hv₂
    hpat vs hvs q₁ q₂ hq₁ hq₂ sameQuery differentAnswers
  obtain ⟨p1, p2⟩ := samePattern_iff hv₁ hv₂ hpat
  have hchk : verTypeChecks sig₁ vt = .ok () := by
    obtain ⟨_, _, _, _, _, sh, _⟩ := ver_ok_iff.mp acc₁
    exact sh.verType
  have sE : ∀ {x idx r}, sig₁.auditNymEid T ipk x idx r = .ok () → (∃ p, v₁.eid = some p) ∧ ∃ p, v₂.eid = some p := by
    intro x idx r ha
    obtain ⟨a, en, -, -, -, e1, -⟩ := (C15_audit_exact T _ _ _ _ _).mp ha
    have h1 : v₁.eid.isSome = true := by
      rw [hv₁.eid.isSome]
      simp only [List.mem_cons, List.not_mem_nil, or_false] at hvt
      rcases hvt with rfl | rfl | rfl | rfl
      · simp [verifyEid, e1]
      · simp [verTypeChecks, e1] at hchk
      · simp [verifyEid]
      · simp [verifyEid]
    exact ⟨Option.isSome_iff_exists.mp h1, Option.isSome_iff_exists.mp (p1 ▸ h1)⟩
  have sR : vt ≠ .expectEidNym → ∀ {x idx r}, sig₁.auditNymRh T ipk x idx r = .ok () →
      (∃ p, v₁.rh = some p) ∧ ∃ p, v₂.rh = some p := by
    intro hne x idx r ha
    obtain ⟨a, en, -, -, -, e1, -⟩ := (C15_audit_exact T _ _ _ _ _).mp ha
    have h1 : v₁.rh.isSome = true := by
      rw [hv₁.rh.isSome]
      simp only [List.mem_cons, List.not_mem_nil, or_false] at hvt
      rcases hvt with rfl | rfl | rfl | rfl
      · simp [verifyRh, e1]
      · simp [verTypeChecks, e1] at hchk
      · exact absurd rfl hne
      · simp [verifyRh]
    exact ⟨Option.isSome_iff_exists.mp h1, Option.isSome_iff_exists.mp (p2 ▸ h1)⟩
  refine ⟨attrs, r1, r2, r3, fun h0 x r ha => ?_, fun hr h0 x r ha => ?_⟩
  · obtain ⟨⟨⟨P, z₁⟩, e1⟩, ⟨Q, z₂⟩, e2⟩ := sE ha
    have hd := hv₁.eid
    rw [e1] at hd
    rcases audited hk hd ha (r4 P Q z₁ z₂ e1 e2 h0) with h | ⟨a, h, h1, h2, h3⟩
    · exact .inl h
    · exact .inr ⟨P, Q, z₁, z₂, a, h, e1, e2, h1, h2, h3⟩
  · obtain ⟨⟨⟨P, z₁⟩, e1⟩, ⟨Q, z₂⟩, e2⟩ := sR hr ha
    have hd := hv₁.rh
    rw [e1] at hd
    rcases audited hk hd ha (r5 P Q z₁ z₂ e1 e2 h0) with h | ⟨a, h, h1, h2, h3⟩
    · exact .inl h
    · exact .inr ⟨P, Q, z₁, z₂, a, h, e1, e2, h1, h2, h3⟩

/-! ## Examples -/

namespace Ex

/-- What an honest signer signs: of the given kind, for the message `[8]`. -/
def audSig (ty : SigType) : Signature :=
  match newSignature env.T cred (4 : Toy.K) nym (2 : Toy.K) key.ipk discl [8] 2 1 cri
      ⟨(2 : Toy.K), (3 : Toy.K), 1, 4, 5, 6, 1, 2, 3, [4, 5], 2, 3, 4, 5⟩ ty none with
  | .ok (s, _) => s
  | _ => ⟨none, none, none, [], [], [], [], [], [], [], [], none, [], none, [], 0, none, none, none⟩

/-- The first attribute is disclosed. -/
def audAttrs : List IdemixAttribute := [⟨2, .int 1⟩, ⟨0, .int 0⟩, ⟨0, .int 0⟩]

theorem audSig_wire : (audSig .standard).Wire ∧ (audSig .eidNym).Wire := by
  simp only [Signature.Wire]
  have e : ∀ ty ∈ [SigType.standard, .eidNym], (audSig ty).epoch = 5 := by decide +kernel
  rw [e _ (by simp), e _ (by simp)]
  exact ⟨⟨by rintro _ ⟨⟩, by rintro _ ⟨⟩, by simp [Proto.Int64], by rintro _ ⟨⟩; simp [Proto.Int32]⟩,
    by rintro _ ⟨⟩; decide +kernel, by rintro _ ⟨⟩, by simp [Proto.Int64], by rintro _ ⟨⟩; simp [Proto.Int32]⟩

end Ex

/-- A signature without commitments is accepted by basic verification; with a commitment to another's enrollment identifier it
still is, and passes the audit. -/
example (id : Bytes) (r : Toy.K) :
    let raw' := Proto.encode (Wire.sig { Ex.audSig .standard with
      eidNym := some (Spec.bare (S := Toy.suite) Toy.tr (4 : Toy.K) (6 : Toy.K) (Toy.suite.hashToZr id) r) })
    Ex.env.verify (.val Ex.key.ipk) raw' [8] Ex.audAttrs 2 1 none 0 .basic none = .ok () ∧
      Ex.env.auditNymEid (.val Ex.key.ipk) 1 raw' id (some r) .expectSignature = .ok () :=
  C105_enrollment_violated Ex.env Ex.key.ipk (Proto.encode (Wire.sig (Ex.audSig .standard))) [8] Ex.audAttrs 2 1 none 0 none
    (by decide +kernel) (Ex.audSig .standard) (by decide +kernel) Ex.audSig_wire.1 _ _ _ 1 rfl rfl rfl id r _ rfl

/-- The same with a commitment to another's revocation handle, in a signature with an honest commitment to the enrollment identifier. -/
example (handle : Bytes) (r : Toy.K) :
    let raw' := Proto.encode (Wire.sig { Ex.audSig .eidNym with
      rhNym := some (Spec.bare (S := Toy.suite) Toy.tr (5 : Toy.K) (6 : Toy.K) (Toy.suite.hashToZr handle) r) })
    Ex.env.verify (.val Ex.key.ipk) raw' [8] Ex.audAttrs 2 1 none 0 .expectEidNym none = .ok () ∧
      Ex.env.auditNymRh (.val Ex.key.ipk) 2 raw' handle (some r) .expectSignature = .ok () :=
  C105_handle_violated Ex.env Ex.key.ipk (Proto.encode (Wire.sig (Ex.audSig .eidNym))) [8] Ex.audAttrs 2 1 none 0 .expectEidNym
    (.inr rfl) none (by decide +kernel) (Ex.audSig .eidNym) (by decide +kernel) Ex.audSig_wire.2 _ _ _ 2 rfl rfl rfl handle r _ rfl

set_option maxRecDepth 8000 in
/-- The signatures of the example of C14, which are accepted, pass the audits for the attributes of the credential, and for no others
with the same randomness. -/
example : ∃ s1 m1,
    newSignature (Toy.tr.withHash fun _ => (1 : Toy.K)) Ex.cred (4 : Toy.K) Ex.nym (2 : Toy.K) Ex.key.ipk
      Ex.discl [8] 2 1 Ex.cri ⟨(2 : Toy.K), (3 : Toy.K), 1, 4, 5, 6, 1, 2, 3, [4, 5], 2, 3, 4, 5⟩
      .eidNymRhNym none = .ok (s1, m1) ∧
    s1.ver (Toy.tr.withHash fun _ => (1 : Toy.K)) Ex.discl (some Ex.key.ipk) [8] Ex.vals 2 1 () 0
      .expectEidNymRhNym none = .ok () ∧
    (∃ r, ∀ x, s1.auditNymEid Toy.tr Ex.key.ipk x 1 r = .ok () ↔ x = (2 : Toy.K)) ∧
    ∃ r, ∀ x, s1.auditNymRh Toy.tr Ex.key.ipk x 2 r = .ok () ↔ x = (3 : Toy.K) :=
  ⟨_, _, rfl, by decide, by decide, by decide⟩

end Idemix.Dlog
