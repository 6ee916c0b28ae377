import Verif.Base.ProtoExact
import Verif.Aries.PropsExtra

/-!
# Malformed messages of the aries scheme

See `Verif/Dlog/PropsMalformed.lean`.
-/

namespace Idemix.Aries

open Bbs Bbs.Ex Proto Proto.Spec

namespace Spec

/-- The bytes are a message of this kind, with well formed strings and messages in it. -/
abbrev Valid := Proto.Spec.Valid schema

end Spec

theorem schema_unique : ∀ k n f f', (n, f) ∈ Spec.schema k → (n, f') ∈ Spec.schema k → f' = f := by
  intro k n f f' h h'
  have : ((Spec.schema k).map Prod.fst).Nodup := by cases k <;> decide
  have := List.inj_on_of_nodup_map this h h' rfl
  simp only [Prod.mk.injEq, true_and] at this
  exact this.symm

theorem deep_cred (m : Msg) : (Wire.credOf m).isSome ↔ Deep Spec.schema .credential m :=
  ⟨fun _ => deep_leaf (by simp [Spec.schema]) m, fun _ => rfl⟩

theorem deep_nymSig (m : Msg) : (Wire.nymSigOf m).isSome ↔ Deep Spec.schema .nymSignature m :=
  ⟨fun _ => deep_leaf (by simp [Spec.schema]) m, fun _ => rfl⟩

theorem deep_cri (m : Msg) : (Wire.criOf m).isSome ↔ Deep Spec.schema .credentialRevocationInformation m :=
  ⟨fun _ => deep_leaf (by simp [Spec.schema]) m, fun _ => rfl⟩

theorem deep_sig (m : Msg) : (Wire.sigOf m).isSome ↔ Deep Spec.schema .signature m := by
  have : Deep Spec.schema .signature m ↔ (getMsg 14 m).isSome := by
    rw [← sub_leaf (σ := Spec.schema) (c := .nonRevocationProof) (by simp [Spec.schema])]
    simp only [deep_iff, Spec.schema, List.mem_cons, Prod.mk.injEq, FieldType.msg.injEq, List.not_mem_nil, or_false,
      reduceCtorEq, and_false, false_or, or_self, IsEmpty.forall_iff, implies_true, true_and]
    exact ⟨fun h => h 14 _ ⟨rfl, rfl⟩, by rintro h1 n c ⟨rfl, rfl⟩; assumption⟩
  rw [this, Wire.sigOf]
  cases getMsg 14 m <;> simp

theorem ofOption_ok {α : Type} {e : String} {o : Option α} {a : α} (h : Res.ofOption e o = .ok a) : o.isSome := by
  cases o with
  | none => cases h
  | some _ => rfl

theorem isSome_ok {α : Type} {e : String} {o : Option α} (h : o.isSome) : ∃ a, Res.ofOption e o = .ok a := by
  cases o with
  | none => cases h
  | some a => exact ⟨a, rfl⟩

/-- **C101 (aries, exactness).** Credentials, signatures, pseudonym signatures and revocation information are understood
exactly if their bytes are messages of that kind. Byte strings of 2^64 bytes or more, which no program meets, are left
out. -/
theorem C101_aries_exact (b : Bytes) (hb : b.length < 2 ^ 64) :
    ((∃ c, Wire.credCodec.unmarshal b = .ok c) ↔ Spec.Valid .credential b) ∧
    ((∃ s, Wire.sigCodec.unmarshal b = .ok s) ↔ Spec.Valid .signature b) ∧
    ((∃ s, Wire.nymSigCodec.unmarshal b = .ok s) ↔ Spec.Valid .nymSignature b) ∧
    ((∃ c, Wire.criCodec.unmarshal b = .ok c) ↔ Spec.Valid .credentialRevocationInformation b) := by
  have hb : b.length < 18446744073709551616 := hb
  exact ⟨⟨fun ⟨_, h⟩ => parse_valid (fun m => (deep_cred m).mp) hb (ofOption_ok h),
      fun h => isSome_ok (valid_parse schema_unique (fun m => (deep_cred m).mpr) h)⟩,
    ⟨fun ⟨_, h⟩ => parse_valid (fun m => (deep_sig m).mp) hb (ofOption_ok h),
      fun h => isSome_ok (valid_parse schema_unique (fun m => (deep_sig m).mpr) h)⟩,
    ⟨fun ⟨_, h⟩ => parse_valid (fun m => (deep_nymSig m).mp) hb (ofOption_ok h),
      fun h => isSome_ok (valid_parse schema_unique (fun m => (deep_nymSig m).mpr) h)⟩,
    ⟨fun ⟨_, h⟩ => parse_valid (fun m => (deep_cri m).mp) hb (ofOption_ok h),
      fun h => isSome_ok (valid_parse schema_unique (fun m => (deep_cri m).mpr) h)⟩⟩

variable {S : Suite} (L : Lib S)

/-- **C101 (aries).** Whatever an operation receives as a credential, revocation information, a signature or a pseudonym
signature is a message of that kind, with well formed messages in it, if the operation succeeds. -/
theorem C101_aries (key : Dyn (IPK S)) (b : Bytes) (hb : b.length < 2 ^ 64) :
    (∀ sk attributes, credVerify L sk key b attributes = .ok () → Spec.Valid .credential b) ∧
    (∀ blinding out, unblind S b blinding = .ok out → Spec.Valid .credential b) ∧
    (∀ cri sk nym rNym attributes msg rhIndex eidIndex t md ρ out,
      sign L b sk nym rNym key attributes msg rhIndex eidIndex cri t md ρ = .ok out → Spec.Valid .credential b) ∧
    (∀ cred sk nym rNym attributes msg rhIndex eidIndex t md ρ out,
      sign L cred sk nym rNym key attributes msg rhIndex eidIndex b t md ρ = .ok out →
        Spec.Valid .credentialRevocationInformation b) ∧
    (∀ msg attributes rhIndex eidIndex skIndex v md,
      verify L key b msg attributes rhIndex eidIndex skIndex v md = .ok () → Spec.Valid .signature b) ∧
    (∀ index skIndex value r, auditNymEid L key index skIndex b value r .expectSignature = .ok () → Spec.Valid .signature b) ∧
    (∀ index skIndex value r, auditNymRh L key index skIndex b value r .expectSignature = .ok () → Spec.Valid .signature b) ∧
    (∀ nym digest skIndex, nymVerify L key nym b digest skIndex = .ok () → Spec.Valid .nymSignature b) ∧
    (∀ (dsa : Ecdsa) (pk : Option dsa.Pk) epoch alg, revVerify dsa pk b epoch alg = .ok () →
      Spec.Valid .credentialRevocationInformation b) := by
  obtain ⟨e1, e2, e3, e4⟩ := C101_aries_exact b hb
  refine ⟨?_, ?_, ?_, ?_, ?_, ?_, ?_, ?_, ?_⟩
  · intro sk attributes h
    simp only [credVerify, Res.bind_eq_ok] at h
    obtain ⟨_, -, c, h, -⟩ := h
    exact e1.mp ⟨c, h⟩
  · intro blinding out h
    simp only [unblind, Res.bind_eq_ok] at h
    obtain ⟨c, h, -⟩ := h
    exact e1.mp ⟨c, h⟩
  · intro cri sk nym rNym attributes msg rhIndex eidIndex t md ρ out h
    simp only [sign, Res.bind_eq_ok] at h
    obtain ⟨_, -, _, -, _, -, _, -, c, h, -⟩ := h
    exact e1.mp ⟨c, h⟩
  · intro cred sk nym rNym attributes msg rhIndex eidIndex t md ρ out h
    simp only [sign, Res.bind_eq_ok] at h
    obtain ⟨_, -, _, -, c, h, -⟩ := h
    exact e4.mp ⟨c, h⟩
  · intro msg attributes rhIndex eidIndex skIndex v md h
    simp only [verify, Res.bind_eq_ok] at h
    obtain ⟨_, -, c, h, -⟩ := h
    exact e2.mp ⟨c, h⟩
  · intro index skIndex value r h
    simp only [auditNymEid, Res.bind_eq_ok] at h
    obtain ⟨_, -, _, h, -⟩ := h
    obtain ⟨c, h, -⟩ := Res.bind_eq_ok.mp h
    exact e2.mp ⟨c, h⟩
  · intro index skIndex value r h
    simp only [auditNymRh, Res.bind_eq_ok] at h
    obtain ⟨_, -, _, h, -⟩ := h
    obtain ⟨c, h, -⟩ := Res.bind_eq_ok.mp h
    exact e2.mp ⟨c, h⟩
  · intro nym digest skIndex h
    simp only [nymVerify, Res.bind_eq_ok] at h
    obtain ⟨_, -, c, h, -⟩ := h
    exact e3.mp ⟨c, h⟩
  · intro dsa pk epoch alg h
    simp only [revVerify, Res.bind_eq_ok] at h
    obtain ⟨_, -, c, h, -⟩ := h
    exact e4.mp ⟨c, h⟩

/-- Revocation information that is accepted. -/
example : ∃ raw, revSign S32 Ecdsa.toy (some (9 : UInt8)) 3 0 (1 : Toy.K) () = .ok raw ∧ raw.length < 2 ^ 64 ∧
    revVerify Ecdsa.toy (some (9 : UInt8)) raw 3 0 = .ok () := ⟨_, rfl, by decide, by decide⟩

/-- A pseudonym signature that ends within a field is no message. -/
example : ¬ Spec.Valid .nymSignature [10, 2, 7] := by
  intro h
  obtain ⟨m, hm, -⟩ := deep_of_valid schema_unique h
  revert hm
  simp [show decode [10, 2, 7] = none from by decide]

end Idemix.Aries
