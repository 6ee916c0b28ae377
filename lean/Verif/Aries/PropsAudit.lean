import Verif.Aries.PropsAlterComm

/-!
# C105: what an audit of an accepted signature reports is true of its signer (aries scheme)
-/

namespace Idemix.Aries

open Bbs
open Dlog (SigType VerType AuditData SignerMetadata AuditType)

variable {S : Suite} (L : Lib S)

/-- Verification reads the commitment to the revocation handle only if the verification type asks for it. -/
theorem verify_drop_rh (ipk : IPK S) {raw raw' msg : Bytes} {attributes : List IdemixAttribute} {rh eid k : Int} {v : VerType}
    {md : Option (SignerMetadata S)} (hv : v = .basic ∨ v = .expectEidNym ∨ v = .expectSmartcard) {sig : Signature}
    (d : Wire.sigCodec.unmarshal raw = .ok sig) {x : Bytes} (d' : Wire.sigCodec.unmarshal raw' = .ok { sig with nymRh := x })
    (acc : verify L (.val ipk) raw msg attributes rh eid k v md = .ok ()) :
    verify L (.val ipk) raw' msg attributes rh eid k v md = .ok () := by
  obtain ⟨sig', ms, p, c, h1, h2, h3, h4, h5, h6, h7, h8, h9, h10, h11, h12⟩ := verify_iff.mp acc
  cases d.symm.trans h1
  have hp : p.rh = none := by
    obtain ⟨-, -, -, -, -, -, -, pr⟩ := parseParts_ok h5
    rcases onlyIf_comm pr with ⟨-, h⟩ | ⟨h, -⟩
    · exact h
    · rcases hv with rfl | rfl | rfl <;> simp [wantRh] at h
  refine verify_iff.mpr ⟨_, ms, p, c, d', h2, ?_, h4, ?_, ?_, h7, h8, h9, h10, h11, h12⟩
  · rcases hv with rfl | rfl | rfl
    · simp [checkPresence]
    · simpa [checkPresence] using h3
    · simp [checkPresence]
  · rcases hv with rfl | rfl | rfl <;> simpa [parseParts, wantEid, wantRh, onlyIf] using h5
  · rcases hv with rfl | rfl | rfl <;> simpa [verChallenge, verLabel, wantEid, wantRh, hp, commBytes] using h6

/-- The same for the commitment to the enrollment identifier. -/
theorem verify_drop_eid (ipk : IPK S) {raw raw' msg : Bytes} {attributes : List IdemixAttribute} {rh eid k : Int}
    {md : Option (SignerMetadata S)} {sig : Signature} (d : Wire.sigCodec.unmarshal raw = .ok sig) {x : Bytes}
    (d' : Wire.sigCodec.unmarshal raw' = .ok { sig with nymEid := x })
    (acc : verify L (.val ipk) raw msg attributes rh eid k .basic md = .ok ()) :
    verify L (.val ipk) raw' msg attributes rh eid k .basic md = .ok () := by
  obtain ⟨sig', ms, p, c, h1, h2, h3, h4, h5, h6, h7, h8, h9, h10, h11, h12⟩ := verify_iff.mp acc
  cases d.symm.trans h1
  have hp : p.eid = none := by
    obtain ⟨-, -, -, -, -, -, pe, -⟩ := parseParts_ok h5
    rcases onlyIf_comm pe with ⟨-, h⟩ | ⟨h, -⟩
    · exact h
    · simp [wantEid, wantRh] at h
  refine verify_iff.mpr ⟨_, ms, p, c, d', h2, ?_, h4, ?_, ?_, h7, h8, h9, ?_, h11, h12⟩
  · simp [checkPresence]
  · simpa [parseParts, wantEid, wantRh, onlyIf] using h5
  · simpa [verChallenge, verLabel, wantEid, wantRh, hp, commBytes] using h6
  · simp [hp, checkAttrComm]

/-- **C105 is violated (aries).** Basic verification, which MSPs use, does not look at the commitments in a signature; nor does
verification look at the commitment to the revocation handle when the type expects one to the enrollment identifier, with or
without a smart card. Whoever has a signature, their own or another's, that is accepted so can put in a commitment to any
revocation handle they like (for basic verification: to any enrollment identifier), with any randomness `r`. The signature is
accepted as before, and the auditor finds that it is the signature of whoever has that handle. -/
theorem C105_aries_violated (ipk : IPK S) (raw msg : Bytes) (attributes : List IdemixAttribute) (rh eid k : Nat)
    (v : VerType) (md : Option (SignerMetadata S)) (acc : verify L (.val ipk) raw msg attributes rh eid k v md = .ok ())
    (sig : Signature) (decoded : Wire.sigCodec.unmarshal raw = .ok sig) (hw : sig.Wire) (value : Bytes) (r : S.F) :
    (v = .basic ∨ v = .expectEidNym ∨ v = .expectSmartcard → ∀ h raw', ipk.pkg.h[Spec.slot k rh]? = some h →
      raw' = Proto.encode (Wire.sig { sig with nymRh := S.g1Bytes (frFromOKM L value • h + r • ipk.pkg.h0) }) →
      verify L (.val ipk) raw' msg attributes rh eid k v md = .ok () ∧
        auditNymRh L (.val ipk) rh k raw' value r .expectSignature = .ok ()) ∧
    (v = .basic → ∀ h raw', ipk.pkg.h[Spec.slot k eid]? = some h →
      raw' = Proto.encode (Wire.sig { sig with nymEid := S.g1Bytes (frFromOKM L value • h + r • ipk.pkg.h0) }) →
      verify L (.val ipk) raw' msg attributes rh eid k v md = .ok () ∧
        auditNymEid L (.val ipk) eid k raw' value r .expectSignature = .ok ()) := by
  constructor
  · rintro hv h raw' hh rfl
    have d' := Wire.sigCodec_rt { sig with nymRh := S.g1Bytes (frFromOKM L value • h + r • ipk.pkg.h0) } hw
    refine ⟨verify_drop_rh L ipk hv decoded d' acc, ?_⟩
    rw [C15_aries_rh_exact]
    exact ⟨_, h, .inl ⟨rfl, _, d', by simp⟩, hh, rfl⟩
  · rintro rfl h raw' hh rfl
    have d' := Wire.sigCodec_rt { sig with nymEid := S.g1Bytes (frFromOKM L value • h + r • ipk.pkg.h0) } hw
    refine ⟨verify_drop_eid L ipk decoded d' acc, ?_⟩
    rw [C15_aries_eid_exact]
    exact ⟨_, h, .inl ⟨rfl, _, d', by simp⟩, hh, rfl⟩

/-- **C105 (aries, partial), enrollment identifier.** In the situation of `C41_eid_partial`, an audit of the signature that
succeeds for `id` reports the value at the position of `eid` in the very vector of values that the issuer signed and
that is extracted from the signer, or the generator of the attribute is a multiple of the blinding generator by a factor
computed from the opening and the two signatures. What is missing: verification types that do not ask for the commitment
(`C105_aries_violated`), and what is missing in `C41_eid_partial`. -/
theorem C105_aries_eid_partial (L₁ L₂ : Lib S) (ipk : IPK S) (w : S.G2) (n k : Nat) (hkey : Spec.IsKey ipk w n)
    (attributes : List IdemixAttribute) (sig₁ sig₂ : Signature) (P₁ P₂ : Parsed S) (pn₁ pn₂ pe₁ pe₂ : ProofG1 S)
    (nymEid : S.G1) (msg₁ msg₂ raw₁ raw₂ : Bytes) (eid : Nat) (rh : Int) (v : VerType) (m : Nat)
    (md₁ md₂ : Option (SignerMetadata S)) (hv : Spec.NoCard v)
    (h₁ : verify L₁ (.val ipk) raw₁ msg₁ attributes rh eid k v md₁ = .ok ())
    (h₂ : verify L₂ (.val ipk) raw₂ msg₂ attributes rh eid k v md₂ = .ok ())
    (u₁ : Wire.sigCodec.unmarshal raw₁ = .ok sig₁) (u₂ : Wire.sigCodec.unmarshal raw₂ = .ok sig₂)
    (p₁ : parseParts S sig₁ v m = .ok P₁) (p₂ : parseParts S sig₂ v m = .ok P₂)
    (ht : Spec.TwoSignatures L₁ L₂ w n k attributes sig₁ sig₂ P₁ P₂ pn₁ pn₂ msg₁ msg₂)
    (e₁ : P₁.eid = some (pe₁, nymEid)) (e₂ : P₂.eid = some (pe₂, nymEid)) (hf : pe₁.commitment = pe₂.commitment)
    (l₁ : pe₁.responses.length = 2) (l₂ : pe₂.responses.length = 2) (hh : Spec.Hides attributes eid)
    (i₁ : sig₁.nymEidIdx = (2 + (Bbs.Spec.unshown P₁.rev (List.range (Spec.slot k eid))).length : Nat))
    (i₂ : sig₂.nymEidIdx = sig₁.nymEidIdx)
    (id : Bytes) (r' : S.F) (audited : auditNymEid L₁ (.val ipk) eid k raw₁ id r' .expectSignature = .ok ()) :
    let c₁ := Spec.signChallenge L₁ w n sig₁ P₁.sp P₁.rev pn₁.commitment (P₁.eid.map (·.1.commitment))
      (P₁.rh.map (·.1.commitment)) msg₁
    let c₂ := Spec.signChallenge L₂ w n sig₂ P₂.sp P₂.rev pn₂.commitment (P₂.eid.map (·.1.commitment))
      (P₂.rh.map (·.1.commitment)) msg₂
    let x := Bbs.Spec.extract P₁.sp P₂.sp c₁ c₂
    ∃ ms, Bbs.Spec.Signature w ipk.pkg.h0 ipk.pkg.h x.A x.e x.s ms ∧ Bbs.Spec.unshown P₁.rev ms = x.hidden ∧
      (ms[Spec.slot k eid]? = some (frFromOKM L₁ id) ∨
        ∃ r value h, Bbs.Spec.witness c₁ c₂ pe₁.responses pe₂.responses = [r, value] ∧
          ipk.pkg.h[Spec.slot k eid]? = some h ∧
          h = ((r - r') * (frFromOKM L₁ id - value)⁻¹) • ipk.pkg.h0) := by
  intro c₁ c₂ x
  obtain ⟨ms, r1, r2, r, value, h, q1, q2, q3, q4⟩ := C41_eid_partial L₁ L₂ ipk w n k hkey attributes sig₁ sig₂ P₁ P₂ pn₁ pn₂
    pe₁ pe₂ nymEid msg₁ msg₂ raw₁ raw₂ eid rh v m md₁ md₂ hv h₁ h₂ u₁ u₂ p₁ p₂ ht e₁ e₂ hf l₁ l₂ hh i₁ i₂
  refine ⟨ms, r1, r2, ?_⟩
  obtain ⟨P, h', a1, a2, a3⟩ := (C15_aries_eid_exact L₁ _ _ _ _ _ _ _).mp audited
  rw [q3] at a2
  cases a2
  have hP : P = nymEid := by
    obtain ⟨-, -, -, -, -, -, pe, -⟩ := parseParts_ok p₁
    rcases onlyIf_comm pe with ⟨-, h'⟩ | ⟨-, q, P', b1, b2⟩
    · rw [e₁] at h'; cases h'
    · rw [e₁] at b1
      cases b1
      rcases a1 with ⟨-, s, c1, c2⟩ | ⟨c1, -⟩
      · rw [u₁] at c1; cases c1
        rw [b2] at c2; cases c2; rfl
      · rcases c1 with c1 | c1 <;> cases c1
  subst hP
  by_cases hx : frFromOKM L₁ id = value
  · exact .inl (by rw [hx]; exact q2)
  · refine .inr ⟨r, value, h, q1, q3, two_openings ?_ hx⟩
    rw [← a3, q4]
    exact add_comm _ _

/-- **C105 (aries, partial), revocation handle.** See `C105_aries_eid_partial`. -/
theorem C105_aries_rh_partial (L₁ L₂ : Lib S) (ipk : IPK S) (w : S.G2) (n k : Nat) (hkey : Spec.IsKey ipk w n)
    (attributes : List IdemixAttribute) (sig₁ sig₂ : Signature) (P₁ P₂ : Parsed S) (pn₁ pn₂ pr₁ pr₂ : ProofG1 S)
    (nymRh : S.G1) (msg₁ msg₂ raw₁ raw₂ : Bytes) (eid : Int) (rh : Nat) (v : VerType) (m : Nat)
    (md₁ md₂ : Option (SignerMetadata S)) (hv : Spec.NoCard v)
    (h₁ : verify L₁ (.val ipk) raw₁ msg₁ attributes rh eid k v md₁ = .ok ())
    (h₂ : verify L₂ (.val ipk) raw₂ msg₂ attributes rh eid k v md₂ = .ok ())
    (u₁ : Wire.sigCodec.unmarshal raw₁ = .ok sig₁) (u₂ : Wire.sigCodec.unmarshal raw₂ = .ok sig₂)
    (p₁ : parseParts S sig₁ v m = .ok P₁) (p₂ : parseParts S sig₂ v m = .ok P₂)
    (ht : Spec.TwoSignatures L₁ L₂ w n k attributes sig₁ sig₂ P₁ P₂ pn₁ pn₂ msg₁ msg₂)
    (e₁ : P₁.rh = some (pr₁, nymRh)) (e₂ : P₂.rh = some (pr₂, nymRh)) (hf : pr₁.commitment = pr₂.commitment)
    (l₁ : pr₁.responses.length = 2) (l₂ : pr₂.responses.length = 2) (hh : Spec.Hides attributes rh)
    (i₁ : sig₁.nymRhIdx = (2 + (Bbs.Spec.unshown P₁.rev (List.range (Spec.slot k rh))).length : Nat))
    (i₂ : sig₂.nymRhIdx = sig₁.nymRhIdx)
    (handle : Bytes) (r' : S.F) (audited : auditNymRh L₁ (.val ipk) rh k raw₁ handle r' .expectSignature = .ok ()) :
    let c₁ := Spec.signChallenge L₁ w n sig₁ P₁.sp P₁.rev pn₁.commitment (P₁.eid.map (·.1.commitment))
      (P₁.rh.map (·.1.commitment)) msg₁
    let c₂ := Spec.signChallenge L₂ w n sig₂ P₂.sp P₂.rev pn₂.commitment (P₂.eid.map (·.1.commitment))
      (P₂.rh.map (·.1.commitment)) msg₂
    let x := Bbs.Spec.extract P₁.sp P₂.sp c₁ c₂
    ∃ ms, Bbs.Spec.Signature w ipk.pkg.h0 ipk.pkg.h x.A x.e x.s ms ∧ Bbs.Spec.unshown P₁.rev ms = x.hidden ∧
      (ms[Spec.slot k rh]? = some (frFromOKM L₁ handle) ∨
        ∃ r value h, Bbs.Spec.witness c₁ c₂ pr₁.responses pr₂.responses = [r, value] ∧
          ipk.pkg.h[Spec.slot k rh]? = some h ∧
          h = ((r - r') * (frFromOKM L₁ handle - value)⁻¹) • ipk.pkg.h0) := by
  intro c₁ c₂ x
  obtain ⟨ms, r1, r2, r, value, h, q1, q2, q3, q4⟩ := C41_rh_partial L₁ L₂ ipk w n k hkey attributes sig₁ sig₂ P₁ P₂ pn₁ pn₂
    pr₁ pr₂ nymRh msg₁ msg₂ raw₁ raw₂ eid rh v m md₁ md₂ hv h₁ h₂ u₁ u₂ p₁ p₂ ht e₁ e₂ hf l₁ l₂ hh i₁ i₂
  refine ⟨ms, r1, r2, ?_⟩
  obtain ⟨P, h', a1, a2, a3⟩ := (C15_aries_rh_exact L₁ _ _ _ _ _ _ _).mp audited
  rw [q3] at a2
  cases a2
  have hP : P = nymRh := by
    obtain ⟨-, -, -, -, -, -, -, pr⟩ := parseParts_ok p₁
    rcases onlyIf_comm pr with ⟨-, h'⟩ | ⟨-, q, P', b1, b2⟩
    · rw [e₁] at h'; cases h'
    · rw [e₁] at b1
      cases b1
      rcases a1 with ⟨-, s, c1, c2⟩ | ⟨c1, -⟩
      · rw [u₁] at c1; cases c1
        rw [b2] at c2; cases c2; rfl
      · cases c1
  subst hP
  by_cases hx : frFromOKM L₁ handle = value
  · exact .inl (by rw [hx]; exact q2)
  · refine .inr ⟨r, value, h, q1, q3, two_openings ?_ hx⟩
    rw [← a3, q4]
    exact add_comm _ _

/-! ## Examples -/

set_option maxRecDepth 40000 in
theorem Ex.wire_sample : (Ex.sampleSig [9]).Wire := by
  have e : (Ex.sampleSig [9]).nymEidIdx = 3 := by rfl
  have e1 : (Ex.sampleSig [9]).nymRhIdx = 0 := by rfl
  have e2 : (Ex.sampleSig [9]).epoch = 3 := by rfl
  refine ⟨by simp [e, Proto.Int32], by simp [e1, Proto.Int32], by simp [e2, Proto.Int64], ?_⟩
  intro p hp
  have e3 : (Ex.sampleSig [9]).nonRevocationProof.map (·.alg) = some 0 := by rfl
  rw [hp] at e3
  cases p
  simp at e3
  simp [e3, Proto.Int32]

set_option maxRecDepth 40000 in
/-- The sample, which commits to the enrollment identifier, with a commitment to any revocation handle put in. -/
example (handle : Bytes) (r : Toy.K) : ∃ raw',
    verify Ex.L32 (.val Ex.ipk2) raw' [9] Ex.shown2 (0 : Nat) (1 : Nat) (0 : Nat) .expectEidNym none = .ok () ∧
      auditNymRh Ex.L32 (.val Ex.ipk2) (0 : Nat) (0 : Nat) raw' handle r .expectSignature = .ok () :=
  ⟨_, (C105_aries_violated Ex.L32 Ex.ipk2 (Ex.sample [9]) [9] Ex.shown2 0 1 0 .expectEidNym none (by decide) (Ex.sampleSig [9])
    (by rfl) Ex.wire_sample handle r).1 (.inr (.inl rfl)) _ _ rfl rfl⟩

open Ex in
set_option maxRecDepth 40000 in
/-- The audit of the samples of `C41_eid_partial`: besides the identifier that the issuer signed, none with the same
randomness passes. -/
example : auditNymEid L32 (.val ipk2) (1 : Nat) (0 : Nat) (sample [9]) [5] (2 : Toy.K) .expectSignature = .ok () ∧
    vals[1]? = some (frFromOKM L32 [5]) ∧
    auditNymEid L32 (.val ipk2) (1 : Nat) (0 : Nat) (sample [9]) [6] (2 : Toy.K) .expectSignature ≠ .ok () := by
  decide

end Idemix.Aries
