import Verif.Base.ProtoSchema
import Verif.Aries.PropsIssue
import Verif.Aries.Signer

/-!
# Undeclared fields in the messages of the aries scheme

See `Verif/Dlog/PropsExtra.lean`.
-/

namespace Idemix.Aries

open Bbs Bbs.Ex Proto Proto.Spec

namespace Spec

/-- The messages of `cred.proto`. -/
inductive Name
  | credential | signature | nonRevocationProof | credentialRevocationInformation | nymSignature

/-- `cred.proto`. -/
def schema : Schema Name
  | .credential => [(1, .bytes), (2, .bytes), (3, .int)]
  | .signature => [(1, .bytes), (2, .bytes), (3, .bytes), (4, .bytes), (5, .bytes), (6, .bytes), (7, .int), (8, .bytes),
      (9, .bytes), (10, .int), (11, .bytes), (12, .bytes), (13, .int), (14, .msg .nonRevocationProof)]
  | .nonRevocationProof => [(1, .int), (2, .bytes)]
  | .credentialRevocationInformation => [(1, .int), (2, .bytes), (3, .bytes), (4, .int), (5, .bytes)]
  | .nymSignature => [(1, .bytes), (2, .bytes)]

/-- One encoding of a message with undeclared fields added. -/
abbrev Widened := Proto.Spec.Widened schema

end Spec

/-- Number `j` is declared with the given wire type. -/
macro "decl" : tactic => `(tactic| simp [Schema.declared, Spec.schema, FieldType.wire])
/-- Side conditions on the schema. -/
macro "schm" : tactic => `(tactic| simp [Spec.schema])

theorem sim_cred {m m' : Msg} (h : Sim Spec.schema .credential m m') : Wire.credOf m' = Wire.credOf m := by
  simp only [Wire.credOf, h.bytes (j := 1) (by decl) (by schm), h.lens (j := 2) (by decl) (by schm),
    h.int32 (j := 3) (by decl)]

theorem sim_nonRev {m m' : Msg} (h : Sim Spec.schema .nonRevocationProof m m') : Wire.nonRevOf m' = Wire.nonRevOf m := by
  simp only [Wire.nonRevOf, h.int32 (j := 1) (by decl), h.bytes (j := 2) (by decl) (by schm)]

theorem sim_cri {m m' : Msg} (h : Sim Spec.schema .credentialRevocationInformation m m') :
    Wire.criOf m' = Wire.criOf m := by
  simp only [Wire.criOf, h.int64 (j := 1) (by decl), h.bytes (j := 2) (by decl) (by schm),
    h.bytes (j := 3) (by decl) (by schm), h.int32 (j := 4) (by decl), h.bytes (j := 5) (by decl) (by schm)]

theorem sim_nymSig {m m' : Msg} (h : Sim Spec.schema .nymSignature m m') : Wire.nymSigOf m' = Wire.nymSigOf m := by
  simp only [Wire.nymSigOf, h.bytes (j := 1) (by decl) (by schm), h.bytes (j := 2) (by decl) (by schm)]

theorem sim_sig {m m' : Msg} (h : Sim Spec.schema .signature m m') : Wire.sigOf m' = Wire.sigOf m := by
  have e14 : ((getMsg 14 m').map fun o => o.map Wire.nonRevOf) = (getMsg 14 m).map fun o => o.map Wire.nonRevOf :=
    h.sub (c := .nonRevocationProof) (by schm) (by schm) fun _ _ => sim_nonRev
  have key : ∀ n : Msg, Wire.sigOf n = ((getMsg 14 n).map fun o => o.map Wire.nonRevOf).map fun nr =>
      ⟨getBytes 1 n, getBytes 2 n, getBytes 3 n, getBytes 4 n, getBytes 5 n, getBytes 6 n, getInt32 7 n,
        getBytes 8 n, getBytes 9 n, getInt32 10 n, getBytes 11 n, getBytes 12 n, getInt64 13 n, nr⟩ := by
    intro n
    unfold Wire.sigOf
    cases getMsg 14 n <;> rfl
  rw [key, key, e14]
  simp only [h.bytes (j := 1) (by decl) (by schm), h.bytes (j := 2) (by decl) (by schm),
    h.bytes (j := 3) (by decl) (by schm), h.bytes (j := 4) (by decl) (by schm), h.bytes (j := 5) (by decl) (by schm),
    h.bytes (j := 6) (by decl) (by schm), h.int32 (j := 7) (by decl), h.bytes (j := 8) (by decl) (by schm),
    h.bytes (j := 9) (by decl) (by schm), h.int32 (j := 10) (by decl), h.bytes (j := 11) (by decl) (by schm),
    h.bytes (j := 12) (by decl) (by schm), h.int64 (j := 13) (by decl)]

theorem widened_cred {b b' : Bytes} (h : Spec.Widened .credential b b') :
    Wire.credCodec.unmarshal b' = Wire.credCodec.unmarshal b := by
  simp only [Wire.credCodec, codec, parse_widened (fun _ _ => sim_cred) h]

theorem widened_cri {b b' : Bytes} (h : Spec.Widened .credentialRevocationInformation b b') :
    Wire.criCodec.unmarshal b' = Wire.criCodec.unmarshal b := by
  simp only [Wire.criCodec, codec, parse_widened (fun _ _ => sim_cri) h]

theorem widened_sig {b b' : Bytes} (h : Spec.Widened .signature b b') :
    Wire.sigCodec.unmarshal b' = Wire.sigCodec.unmarshal b := by
  simp only [Wire.sigCodec, codec, parse_widened (fun _ _ => sim_sig) h]

theorem widened_nymSig {b b' : Bytes} (h : Spec.Widened .nymSignature b b') :
    Wire.nymSigCodec.unmarshal b' = Wire.nymSigCodec.unmarshal b := by
  simp only [Wire.nymSigCodec, codec, parse_widened (fun _ _ => sim_nymSig) h]

theorem credOf_append {m u : Msg} (hu : ∀ t ∈ u, (t.1, t.2.wireType) ∉ [(1, 2), (2, 2), (3, 0)]) :
    Wire.credOf (m ++ u) = Wire.credOf m := by
  have l1 := lens_insert hu m [] (k := 1) (by simp)
  have l2 := lens_insert hu m [] (k := 2) (by simp)
  have v3 := varints_insert hu m [] (k := 3) (by simp)
  simp only [List.append_nil] at l1 l2 v3
  simp only [Wire.credOf, getBytes, getInt32, l1, l2, v3]

variable {S : Suite} (L : Lib S)

/-- What unblinding gives says what unblinding the message without its undeclared fields gives. -/
theorem unblind_reads (signature blinding : Bytes) (out : Bytes) (h : unblind S signature blinding = .ok out) :
    ∃ c sig, Wire.credCodec.unmarshal signature = .ok c ∧ unblindSign S c.cred (S.zrOfBytes blinding) = .ok sig ∧
      Wire.credCodec.unmarshal out = Wire.credCodec.unmarshal (encode (Wire.cred { c with cred := sig })) := by
  simp only [unblind, Res.bind_eq_ok, Wire.credCodec_marshal, Res.ok.injEq, exists_eq_left', Res.pure_def] at h
  obtain ⟨c, h1, sig, h2, rfl⟩ := h
  refine ⟨c, sig, h1, h2, ?_⟩
  obtain ⟨m, hm⟩ : ∃ m, decode signature = some m := by
    cases hd : decode signature with
    | none => simp [Wire.credCodec, codec, hd] at h1
    | some m => exact ⟨m, rfl⟩
  have hu := unknown_decodes Wire.credKnown hm
  simp only [Wire.credCodec, codec, decode_append (decode_encode _ (Wire.cred_plain _)), hu, Option.map_some,
    Option.bind_some, decode_encode _ (Wire.cred_plain _)]
  rw [credOf_append]
  intro t ht
  have := (List.mem_filter.mp ht).2
  simpa [Wire.credKnown, imp_iff_not_or] using this

/-- Outcomes that are the same, or bytes that read as the same credential. -/
def Spec.SameCredential : Res Bytes → Res Bytes → Prop
  | .ok b, .ok b' => Wire.credCodec.unmarshal b' = Wire.credCodec.unmarshal b
  | x, y => x = y

/-- **C95 (aries, partial).** Undeclared fields, anywhere in a credential, revocation information, a signature or a
pseudonym signature, and of any wire type, change nothing in the outcome of the operations that receive these: what they
return and, for signing, the bytes that they make. Unblinding passes them on. What is missing: the verification of
revocation information (`C95_aries_revocation_violated`). -/
theorem C95_aries_partial (key : Dyn (IPK S)) :
    (∀ b b' sk attributes, Spec.Widened .credential b b' →
      credVerify L sk key b' attributes = credVerify L sk key b attributes) ∧
    (∀ b b' blinding, Spec.Widened .credential b b' →
      Spec.SameCredential (unblind S b blinding) (unblind S b' blinding)) ∧
    (∀ cred cred' cri cri' sk nym rNym attributes msg rhIndex eidIndex t md ρ, Spec.Widened .credential cred cred' →
      Spec.Widened .credentialRevocationInformation cri cri' →
      sign L cred' sk nym rNym key attributes msg rhIndex eidIndex cri' t md ρ =
        sign L cred sk nym rNym key attributes msg rhIndex eidIndex cri t md ρ) ∧
    (∀ b b' msg attributes rhIndex eidIndex skIndex v md, Spec.Widened .signature b b' →
      verify L key b' msg attributes rhIndex eidIndex skIndex v md =
        verify L key b msg attributes rhIndex eidIndex skIndex v md) ∧
    (∀ b b' index skIndex value r, Spec.Widened .signature b b' →
      auditNymEid L key index skIndex b' value r .expectSignature = auditNymEid L key index skIndex b value r .expectSignature ∧
      auditNymRh L key index skIndex b' value r .expectSignature = auditNymRh L key index skIndex b value r .expectSignature) ∧
    (∀ b b' nym digest skIndex, Spec.Widened .nymSignature b b' →
      nymVerify L key nym b' digest skIndex = nymVerify L key nym b digest skIndex) := by
  refine ⟨?_, ?_, ?_, ?_, ?_, ?_⟩
  · intro b b' sk attributes h
    simp only [credVerify, widened_cred h]
  · intro b b' blinding h
    have hu := widened_cred h
    cases h1 : unblind S b blinding with
    | ok out =>
      obtain ⟨c, sig, e1, e2, e3⟩ := unblind_reads _ _ _ h1
      cases h2 : unblind S b' blinding with
      | ok out' =>
        obtain ⟨c', sig', e1', e2', e3'⟩ := unblind_reads _ _ _ h2
        rw [hu, e1, Res.ok.injEq] at e1'
        subst e1'
        rw [e2, Res.ok.injEq] at e2'
        subst e2'
        exact e3'.trans e3.symm
      | err m => simp [unblind, hu, e1, e2, Wire.credCodec_marshal] at h2
      | panic => simp [unblind, hu, e1, e2, Wire.credCodec_marshal] at h2
    | err m | panic =>
      have : unblind S b' blinding = unblind S b blinding := by
        rw [unblind, hu, h1]
        rw [unblind] at h1
        cases hc : Wire.credCodec.unmarshal b with
        | ok c =>
          simp only [hc, Res.ok_bind] at h1 ⊢
          cases hs : unblindSign S c.cred (S.zrOfBytes blinding) with
          | ok s => simp [hs, Wire.credCodec_marshal] at h1
          | err m => simpa [hs] using h1
          | panic => simpa [hs] using h1
        | err m => simpa [hc] using h1
        | panic => simpa [hc] using h1
      rw [this, h1]
      exact rfl
  · intro cred cred' cri cri' sk nym rNym attributes msg rhIndex eidIndex t md ρ h h'
    simp only [sign, widened_cred h, widened_cri h']
  · intro b b' msg attributes rhIndex eidIndex skIndex v md h
    simp only [verify, widened_sig h]
  · intro b b' index skIndex value r h
    constructor
    · simp only [auditNymEid, auditTarget, widened_sig h, if_true]
    · simp only [auditNymRh, auditTarget, widened_sig h, if_true]
  · intro b b' nym digest skIndex h
    simp only [nymVerify, widened_nymSig h]

/-! ## Examples and violations -/

namespace Ex

/-- Field 11, the integer 7. -/
theorem extra {declared : List (Nat × Nat)} (h : (11, 0) ∉ declared) : Undeclared declared [88, 7] :=
  .varint (t := [88]) (v := [7]) (r := []) (k := 11) ⟨by decide, by decide, .last 88 (by decide), by decide, by decide⟩ h
    ⟨.last 7 (by decide), by decide, by decide⟩ .nil

end Ex

example (b : Bytes) : Spec.Widened .signature b ([88, 7] ++ b) := .insert (b₁ := []) b .nil (Ex.extra (by decl))

set_option maxRecDepth 20000 in
/-- C95 is violated for the verification of revocation information: with an undeclared field it is rejected. -/
theorem C95_aries_revocation_violated : ∃ raw raw',
    revSign S32 Ecdsa.toy (some (9 : UInt8)) 3 0 (1 : Toy.K) () = .ok raw ∧
    Spec.Widened .credentialRevocationInformation raw raw' ∧
    revVerify Ecdsa.toy (some (9 : UInt8)) raw 3 0 = .ok () ∧ revVerify Ecdsa.toy (some (9 : UInt8)) raw' 3 0 ≠ .ok () :=
  ⟨_, _, rfl, .insert (b₁ := []) _ .nil (Ex.extra (by decl)), by decide, by decide⟩

end Idemix.Aries
