import Verif.Base.ProtoExact
import Verif.Dlog.PropsExtra

/-!
# Malformed messages of the dlog scheme

What every operation that receives a message requires of its bytes: that they are a message of the kind in question, and
that the same holds of all messages in it.
-/

namespace Idemix.Dlog

open Proto Proto.Spec

namespace Spec

/-- The bytes are a message of this kind, with well formed strings and messages in it. -/
abbrev Valid := Proto.Spec.Valid schema

end Spec

theorem schema_unique : ∀ k n f f', (n, f) ∈ Spec.schema k → (n, f') ∈ Spec.schema k → f' = f := by
  intro k n f f' h h'
  have : ((Spec.schema k).map Prod.fst).Nodup := by cases k <;> decide
  have := List.inj_on_of_nodup_map this h h' rfl
  simp only [Prod.mk.injEq, true_and] at this
  exact this.symm

theorem leaf_ecp : ∀ n, (n, .text) ∉ Spec.schema .ecp ∧ ∀ c, (n, .msg c) ∉ Spec.schema .ecp := by simp [Spec.schema]
theorem leaf_ecp2 : ∀ n, (n, .text) ∉ Spec.schema .ecp2 ∧ ∀ c, (n, .msg c) ∉ Spec.schema .ecp2 := by simp [Spec.schema]
theorem leaf_nonRev : ∀ n, (n, .text) ∉ Spec.schema .nonRevocationProof ∧
    ∀ c, (n, .msg c) ∉ Spec.schema .nonRevocationProof := by simp [Spec.schema]

theorem sub_ecp (n : Nat) (m : Msg) : Sub Spec.schema n .ecp m ↔ (Wire.getEcp n m).isSome := by
  rw [sub_leaf leaf_ecp, Wire.getEcp, Option.isSome_map]

theorem sub_ecp2 (n : Nat) (m : Msg) : Sub Spec.schema n .ecp2 m ↔ (Wire.getEcp2 n m).isSome := by
  rw [sub_leaf leaf_ecp2, Wire.getEcp2, Option.isSome_map]

/-- The kinds of message in a message. -/
macro "deep_schema" : tactic => `(tactic| simp only [deep_iff, Spec.schema, List.mem_cons, Prod.mk.injEq,
  FieldType.msg.injEq, List.not_mem_nil, or_false, reduceCtorEq, and_false, false_or, and_true, or_self,
  IsEmpty.forall_iff, implies_true, true_and])

theorem deep_cred (m : Msg) : (Wire.credOf m).isSome ↔ Deep Spec.schema .credential m := by
  have : Deep Spec.schema .credential m ↔ (Wire.getEcp 1 m).isSome ∧ (Wire.getEcp 2 m).isSome := by
    rw [← sub_ecp, ← sub_ecp]
    deep_schema
    constructor
    · exact fun h => ⟨h 1 _ (.inl ⟨rfl, rfl⟩), h 2 _ (.inr ⟨rfl, rfl⟩)⟩
    · rintro ⟨h1, h2⟩ n c (⟨rfl, rfl⟩ | ⟨rfl, rfl⟩) <;> assumption
  rw [this, Wire.credOf]
  cases Wire.getEcp 1 m <;> cases Wire.getEcp 2 m <;> simp

theorem deep_req (m : Msg) : (Wire.reqOf m).isSome ↔ Deep Spec.schema .credRequest m := by
  have : Deep Spec.schema .credRequest m ↔ (Wire.getEcp 1 m).isSome := by
    rw [← sub_ecp]
    deep_schema
    exact ⟨fun h => h 1 _ ⟨rfl, rfl⟩, by rintro h1 n c ⟨rfl, rfl⟩; assumption⟩
  rw [this, Wire.reqOf]
  cases Wire.getEcp 1 m <;> simp

theorem deep_nymSig (m : Msg) : (Wire.nymSigOf m).isSome ↔ Deep Spec.schema .nymSignature m :=
  ⟨fun _ => deep_leaf (by simp [Spec.schema]) m, fun _ => rfl⟩

theorem deep_cri (m : Msg) : (Wire.criOf m).isSome ↔ Deep Spec.schema .credentialRevocationInformation m := by
  have : Deep Spec.schema .credentialRevocationInformation m ↔ (Wire.getEcp2 2 m).isSome := by
    rw [← sub_ecp2]
    deep_schema
    exact ⟨fun h => h 2 _ ⟨rfl, rfl⟩, by rintro h1 n c ⟨rfl, rfl⟩; assumption⟩
  rw [this, Wire.criOf]
  cases Wire.getEcp2 2 m <;> simp

theorem deep_eidNym (m : Msg) : (Wire.attrNymOf m).isSome ↔ Deep Spec.schema .eidNym m := by
  have : Deep Spec.schema .eidNym m ↔ (Wire.getEcp 1 m).isSome := by
    rw [← sub_ecp]
    deep_schema
    exact ⟨fun h => h 1 _ ⟨rfl, rfl⟩, by rintro h1 n c ⟨rfl, rfl⟩; assumption⟩
  rw [this, Wire.attrNymOf]
  cases Wire.getEcp 1 m <;> simp

theorem deep_rhNym (m : Msg) : (Wire.attrNymOf m).isSome ↔ Deep Spec.schema .rhNym m := by
  rw [deep_eidNym]
  deep_schema

theorem sub_attrNym {c : Spec.Name} (hc : ∀ f, (Wire.attrNymOf f).isSome ↔ Deep Spec.schema c f) (n : Nat) (m : Msg) :
    Sub Spec.schema n c m ↔ (Wire.getAttrNym n m).isSome := by
  rw [sub_iff, Wire.getAttrNym]
  cases getMsg n m with
  | none => simp
  | some o => cases o with
    | none => simp
    | some f =>
      simp only [Option.some.injEq, exists_eq_left', forall_eq', ← hc f, Option.bind_eq_bind, Option.bind_some]
      cases Wire.attrNymOf f <;> simp

theorem deep_sig (m : Msg) : (Wire.sigOf m).isSome ↔ Deep Spec.schema .signature m := by
  have : Deep Spec.schema .signature m ↔ (Wire.getEcp 1 m).isSome ∧ (Wire.getEcp 2 m).isSome ∧ (Wire.getEcp 3 m).isSome ∧
      (Wire.getEcp 12 m).isSome ∧ (Wire.getEcp2 14 m).isSome ∧ (getMsg 17 m).isSome ∧ (Wire.getAttrNym 18 m).isSome ∧
      (Wire.getAttrNym 19 m).isSome := by
    rw [← sub_ecp, ← sub_ecp, ← sub_ecp, ← sub_ecp, ← sub_ecp2, ← sub_leaf leaf_nonRev, ← sub_attrNym deep_eidNym,
      ← sub_attrNym deep_rhNym]
    deep_schema
    constructor
    · intro h
      refine ⟨h 1 _ ?_, h 2 _ ?_, h 3 _ ?_, h 12 _ ?_, h 14 _ ?_, h 17 _ ?_, h 18 _ ?_, h 19 _ ?_⟩ <;> simp
    · rintro ⟨h1, h2, h3, h4, h5, h6, h7, h8⟩ n c h
      rcases h with ⟨rfl, rfl⟩ | ⟨rfl, rfl⟩ | ⟨rfl, rfl⟩ | ⟨rfl, rfl⟩ | ⟨rfl, rfl⟩ | ⟨rfl, rfl⟩ | ⟨rfl, rfl⟩ | ⟨rfl, rfl⟩ <;>
        assumption
  rw [this, Wire.sigOf]
  cases Wire.getEcp 1 m <;> [simp; skip]
  cases Wire.getEcp 2 m <;> [simp; skip]
  cases Wire.getEcp 3 m <;> [simp; skip]
  cases Wire.getEcp 12 m <;> [simp; skip]
  cases Wire.getEcp2 14 m <;> [simp; skip]
  cases getMsg 17 m <;> [simp; skip]
  cases Wire.getAttrNym 18 m <;> [simp; skip]
  cases Wire.getAttrNym 19 m <;> simp

theorem deep_ipk (m : Msg) : (Wire.ipkOf m).isSome ↔ Deep Spec.schema .issuerPublicKey m := by
  have : (Wire.ipkOf m).isSome ↔ (lens 1 m).all utf8Valid = true ∧ (Wire.getEcp 2 m).isSome ∧ (Wire.getEcp 3 m).isSome ∧ ((lens 4 m).mapM decode).isSome ∧
      (Wire.getEcp2 5 m).isSome ∧ (Wire.getEcp 6 m).isSome ∧ (Wire.getEcp 7 m).isSome := by
    unfold Wire.ipkOf
    split
    · next h =>
      rw [h]
      cases Wire.getEcp 2 m <;> [simp; skip]
      cases Wire.getEcp 3 m <;> [simp; skip]
      cases (lens 4 m).mapM decode <;> [simp; skip]
      cases Wire.getEcp2 5 m <;> [simp; skip]
      cases Wire.getEcp 6 m <;> [simp; skip]
      cases Wire.getEcp 7 m <;> simp
    · next h => simp [h]
  rw [this, ← str_iff, ← sub_ecp, ← sub_ecp, ← sub_leaves leaf_ecp, ← sub_ecp2, ← sub_ecp, ← sub_ecp]
  deep_schema
  constructor
  · rintro ⟨h0, h1, h2, h3, h4, h5, h6⟩
    refine ⟨by rintro n rfl; exact h0, ?_⟩
    intro n c h
    rcases h with ⟨rfl, rfl⟩ | ⟨rfl, rfl⟩ | ⟨rfl, rfl⟩ | ⟨rfl, rfl⟩ | ⟨rfl, rfl⟩ | ⟨rfl, rfl⟩ <;> assumption
  · rintro ⟨h0, h⟩
    refine ⟨h0 1 rfl, h 2 _ ?_, h 3 _ ?_, h 4 _ ?_, h 5 _ ?_, h 6 _ ?_, h 7 _ ?_⟩ <;> simp

theorem deep_key (m : Msg) (h : (Wire.keyOf m).isSome) : Deep Spec.schema .issuerKey m := by
  deep_schema
  rintro n c ⟨rfl, rfl⟩
  rw [sub_iff]
  unfold Wire.keyOf at h
  revert h
  cases getMsg 2 m with
  | none => simp
  | some o => cases o with
    | none => simp
    | some f =>
      intro h
      refine ⟨some f, rfl, ?_⟩
      rintro f' hf
      cases hf
      refine (deep_ipk f).mp ?_
      cases hi : Wire.ipkOf f with
      | none => simp [hi] at h
      | some i => rfl

theorem ofOption_ok {α : Type} {e : String} {o : Option α} {a : α} (h : Res.ofOption e o = .ok a) : o.isSome := by
  cases o with
  | none => cases h
  | some _ => rfl

theorem isSome_ok {α : Type} {e : String} {o : Option α} (h : o.isSome) : ∃ a, Res.ofOption e o = .ok a := by
  cases o with
  | none => cases h
  | some a => exact ⟨a, rfl⟩

variable {b : Bytes} (hb : b.length < 18446744073709551616)
include hb

theorem valid_req {r : CredRequest} (h : Wire.reqCodec.unmarshal b = .ok r) : Spec.Valid .credRequest b :=
  parse_valid (fun m => (deep_req m).mp) hb (ofOption_ok h)
theorem valid_cred {r : Credential} (h : Wire.credCodec.unmarshal b = .ok r) : Spec.Valid .credential b :=
  parse_valid (fun m => (deep_cred m).mp) hb (ofOption_ok h)
theorem valid_sig {r : Signature} (h : Wire.sigCodec.unmarshal b = .ok r) : Spec.Valid .signature b :=
  parse_valid (fun m => (deep_sig m).mp) hb (ofOption_ok h)
theorem valid_nymSig {r : NymSignature} (h : Wire.nymSigCodec.unmarshal b = .ok r) : Spec.Valid .nymSignature b :=
  parse_valid (fun m => (deep_nymSig m).mp) hb (ofOption_ok h)
theorem valid_cri {r : CRI} (h : Wire.criCodec.unmarshal b = .ok r) :
    Spec.Valid .credentialRevocationInformation b :=
  parse_valid (fun m => (deep_cri m).mp) hb (ofOption_ok h)
theorem valid_key {r : IssuerKey} (h : Wire.keyCodec.unmarshal b = .ok r) : Spec.Valid .issuerKey b :=
  parse_valid deep_key hb (ofOption_ok h)
theorem valid_ipk {r : IssuerPublicKey} (h : Wire.ipkCodec.unmarshal b = .ok r) : Spec.Valid .issuerPublicKey b := by
  have := ofOption_ok h
  rw [Option.isSome_map] at this
  exact parse_valid (fun m => (deep_ipk m).mp) hb this

omit hb

variable {S : Suite} (E : Env S)

/-- **C101 (dlog).** Whatever an operation receives as an issuer key, a credential request, a credential, revocation
information, a signature or a pseudonym signature is a message of that kind, with well formed messages in it, if the
operation succeeds. Byte strings of 2^64 bytes or more, which no program meets, are left out. -/
theorem C101_dlog (ipk : Dyn IssuerPublicKey) (b : Bytes) (hb : b.length < 2 ^ 64) :
    (∀ names i, E.newPublicKeyFromBytes b names = .ok i → Spec.Valid .issuerPublicKey b) ∧
    (∀ k, E.newKeyFromBytes b = .ok k → Spec.Valid .issuerKey b) ∧
    (∀ nonce, E.requestVerify b ipk nonce = .ok () → Spec.Valid .credRequest b) ∧
    (∀ key attributes e s out, E.credSign key b attributes e s = .ok out → Spec.Valid .credRequest b) ∧
    (∀ sk attributes, E.credVerify sk ipk b attributes = .ok () → Spec.Valid .credential b) ∧
    (∀ cri sk nym rNym attributes msg rhIndex eidIndex ρ sigType md out,
      E.sign b sk nym rNym ipk attributes msg rhIndex eidIndex cri ρ sigType md = .ok out → Spec.Valid .credential b) ∧
    (∀ cred sk nym rNym attributes msg rhIndex eidIndex ρ sigType md out,
      E.sign cred sk nym rNym ipk attributes msg rhIndex eidIndex b ρ sigType md = .ok out →
        Spec.Valid .credentialRevocationInformation b) ∧
    (∀ digest attributes rhIndex eidIndex revPk epoch verType md,
      E.verify ipk b digest attributes rhIndex eidIndex revPk epoch verType md = .ok () → Spec.Valid .signature b) ∧
    (∀ index value r, E.auditNymEid ipk index b value r .expectSignature = .ok () → Spec.Valid .signature b) ∧
    (∀ index value r, E.auditNymRh ipk index b value r .expectSignature = .ok () → Spec.Valid .signature b) ∧
    (∀ nym digest, E.nymVerify ipk nym b digest = .ok () → Spec.Valid .nymSignature b) ∧
    (∀ pk epoch alg, E.revVerify pk b epoch alg = .ok () → Spec.Valid .credentialRevocationInformation b) := by
  have hb : b.length < 18446744073709551616 := hb
  refine ⟨?_, ?_, ?_, ?_, ?_, ?_, ?_, ?_, ?_, ?_, ?_, ?_⟩
  · intro names i h
    simp only [Env.newPublicKeyFromBytes, Res.recovered_eq_ok, Res.bind_eq_ok, wrapErr_eq_ok] at h
    obtain ⟨i', h, -⟩ := h
    exact valid_ipk hb h
  · intro k h
    simp only [Env.newKeyFromBytes, Res.recovered_eq_ok] at h
    exact valid_key hb h
  · intro nonce h
    simp only [Env.requestVerify, Res.recovered_eq_ok, Res.bind_eq_ok] at h
    obtain ⟨r, h, -⟩ := h
    exact valid_req hb h
  · intro key attributes e s out h
    simp only [Env.credSign, Res.recovered_eq_ok, Res.bind_eq_ok] at h
    obtain ⟨_, -, r, h, -⟩ := h
    exact valid_req hb h
  · intro sk attributes h
    simp only [Env.credVerify, Res.recovered_eq_ok, Res.bind_eq_ok] at h
    obtain ⟨_, -, r, h, -⟩ := h
    exact valid_cred hb h
  · intro cri sk nym rNym attributes msg rhIndex eidIndex ρ sigType md out h
    simp only [Env.sign, Res.recovered_eq_ok, Res.bind_eq_ok] at h
    obtain ⟨_, -, r, h, -⟩ := h
    exact valid_cred hb h
  · intro cred sk nym rNym attributes msg rhIndex eidIndex ρ sigType md out h
    simp only [Env.sign, Res.recovered_eq_ok, Res.bind_eq_ok] at h
    obtain ⟨_, -, _, -, r, h, -⟩ := h
    exact valid_cri hb h
  · intro digest attributes rhIndex eidIndex revPk epoch verType md h
    simp only [Env.verify, Res.recovered_eq_ok, Res.bind_eq_ok] at h
    obtain ⟨_, -, r, h, -⟩ := h
    exact valid_sig hb h
  · intro index value r h
    simp only [Env.auditNymEid, Res.recovered_eq_ok, Res.bind_eq_ok] at h
    obtain ⟨_, -, s, h, -⟩ := h
    exact valid_sig hb h
  · intro index value r h
    simp only [Env.auditNymRh, Res.recovered_eq_ok, Res.bind_eq_ok] at h
    obtain ⟨_, -, s, h, -⟩ := h
    exact valid_sig hb h
  · intro nym digest h
    simp only [Env.nymVerify, Res.recovered_eq_ok, Res.bind_eq_ok] at h
    obtain ⟨_, -, s, h, -⟩ := h
    exact valid_nymSig hb h
  · intro pk epoch alg h
    simp only [Env.revVerify, Res.recovered_eq_ok, Res.bind_eq_ok] at h
    obtain ⟨s, h, -⟩ := h
    exact valid_cri hb h

/-- **C101 (dlog, exactness).** Issuer public keys, credential requests, credentials, signatures, pseudonym signatures and revocation
information are understood exactly if their bytes are messages of that kind. -/
theorem C101_dlog_exact (b : Bytes) (hb : b.length < 2 ^ 64) :
    ((∃ i, Wire.ipkCodec.unmarshal b = .ok i) ↔ Spec.Valid .issuerPublicKey b) ∧
    ((∃ r, Wire.reqCodec.unmarshal b = .ok r) ↔ Spec.Valid .credRequest b) ∧
    ((∃ c, Wire.credCodec.unmarshal b = .ok c) ↔ Spec.Valid .credential b) ∧
    ((∃ s, Wire.sigCodec.unmarshal b = .ok s) ↔ Spec.Valid .signature b) ∧
    ((∃ s, Wire.nymSigCodec.unmarshal b = .ok s) ↔ Spec.Valid .nymSignature b) ∧
    ((∃ c, Wire.criCodec.unmarshal b = .ok c) ↔ Spec.Valid .credentialRevocationInformation b) := by
  have hb : b.length < 18446744073709551616 := hb
  exact ⟨⟨fun ⟨_, h⟩ => valid_ipk hb h, fun h => isSome_ok (by
      rw [Option.isSome_map]; exact valid_parse schema_unique (fun m => (deep_ipk m).mpr) h)⟩,
    ⟨fun ⟨_, h⟩ => valid_req hb h, fun h => isSome_ok (valid_parse schema_unique (fun m => (deep_req m).mpr) h)⟩,
    ⟨fun ⟨_, h⟩ => valid_cred hb h, fun h => isSome_ok (valid_parse schema_unique (fun m => (deep_cred m).mpr) h)⟩,
    ⟨fun ⟨_, h⟩ => valid_sig hb h, fun h => isSome_ok (valid_parse schema_unique (fun m => (deep_sig m).mpr) h)⟩,
    ⟨fun ⟨_, h⟩ => valid_nymSig hb h, fun h => isSome_ok (valid_parse schema_unique (fun m => (deep_nymSig m).mpr) h)⟩,
    ⟨fun ⟨_, h⟩ => valid_cri hb h, fun h => isSome_ok (valid_parse schema_unique (fun m => (deep_cri m).mpr) h)⟩⟩

/-! ## Examples -/

set_option maxRecDepth 20000 in
/-- A key that is imported. -/
example : ∃ i, Ex.env.newPublicKeyFromBytes Ex.rawKey Ex.utfNames = .ok i := ⟨_, rfl⟩

/-- A signature of one byte after the tag of its first field is no message: the point in it is missing. -/
example : ¬ Spec.Valid .signature [10] := by
  intro h
  obtain ⟨m, hm, -⟩ := deep_of_valid schema_unique h
  revert hm
  simp [show decode [10] = none from by decide]

/-- Nor is a signature of which the first point has a field without its value. -/
example : ¬ Spec.Valid .signature [10, 1, 10] := by
  intro h
  obtain ⟨m, hm, hd⟩ := deep_of_valid schema_unique h
  rw [show decode [10, 1, 10] = some [(1, .len [10])] from by decide, Option.some.injEq] at hm
  subst hm
  obtain ⟨f, hf, -⟩ := ((deep_iff _ _).mp hd).2 1 .ecp (by simp [Spec.schema]) [10] (by simp)
  rw [show decode [10] = none from by decide] at hf
  cases hf

/-- Nor is an issuer key with a name that is no text. -/
example : ¬ Spec.Valid .issuerPublicKey [10, 1, 200] := by
  intro h
  obtain ⟨m, hm, hd⟩ := deep_of_valid schema_unique h
  rw [show decode [10, 1, 200] = some [(1, .len [200])] from by decide, Option.some.injEq] at hm
  subst hm
  have := ((deep_iff _ _).mp hd).1 1 (by simp [Spec.schema])
  rw [str_iff] at this
  revert this
  decide

/-- A signature in eleven bytes that has number 16 with a number of ten digits is a message, one with eleven digits is
not. -/
example : (decode [128, 1, 128, 128, 128, 128, 128, 128, 128, 128, 128, 1]).isSome ∧
    decode [128, 1, 128, 128, 128, 128, 128, 128, 128, 128, 128, 2] = none ∧
    decode [128, 1, 128, 128, 128, 128, 128, 128, 128, 128, 128, 128, 0] = none := by decide

end Idemix.Dlog
