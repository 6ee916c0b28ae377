import Verif.Base.ProtoSchema
import Verif.Dlog.PropsBridge2

/-!
# Undeclared fields in the messages of the dlog scheme

Implementations of later versions may send more fields. This file shows what becomes of messages with fields that this
version does not declare.
-/

namespace Idemix.Dlog

open Proto Proto.Spec

namespace Spec

/-- The messages of `idemix.proto` and `amcl.proto`. -/
inductive Name
  | ecp | ecp2 | issuerPublicKey | issuerKey | credential | credRequest | eidNym | rhNym | signature | nonRevocationProof
  | nymSignature | credentialRevocationInformation

/-- `idemix.proto` and `amcl.proto`. -/
def schema : Schema Name
  | .ecp => [(1, .bytes), (2, .bytes)]
  | .ecp2 => [(1, .bytes), (2, .bytes), (3, .bytes), (4, .bytes)]
  | .issuerPublicKey => [(1, .text), (2, .msg .ecp), (3, .msg .ecp), (4, .msg .ecp), (5, .msg .ecp2), (6, .msg .ecp),
      (7, .msg .ecp), (8, .bytes), (9, .bytes), (10, .bytes)]
  | .issuerKey => [(1, .bytes), (2, .msg .issuerPublicKey)]
  | .credential => [(1, .msg .ecp), (2, .msg .ecp), (3, .bytes), (4, .bytes), (5, .bytes)]
  | .credRequest => [(1, .msg .ecp), (2, .bytes), (3, .bytes), (4, .bytes)]
  | .eidNym => [(1, .msg .ecp), (2, .bytes)]
  | .rhNym => [(1, .msg .ecp), (2, .bytes)]
  | .signature => [(1, .msg .ecp), (2, .msg .ecp), (3, .msg .ecp), (4, .bytes), (5, .bytes), (6, .bytes), (7, .bytes),
      (8, .bytes), (9, .bytes), (10, .bytes), (11, .bytes), (12, .msg .ecp), (13, .bytes), (14, .msg .ecp2), (15, .bytes),
      (16, .int), (17, .msg .nonRevocationProof), (18, .msg .eidNym), (19, .msg .rhNym)]
  | .nonRevocationProof => [(1, .int), (2, .bytes)]
  | .nymSignature => [(1, .bytes), (2, .bytes), (3, .bytes), (4, .bytes)]
  | .credentialRevocationInformation => [(1, .int), (2, .msg .ecp2), (3, .bytes), (4, .int), (5, .bytes)]

/-- One encoding of a message with undeclared fields added. -/
abbrev Widened := Proto.Spec.Widened schema

end Spec

/-! ## Parsers -/

theorem sim_ecp {m m' : Msg} (h : Sim Spec.schema .ecp m m') : Wire.ecpOf m' = Wire.ecpOf m := by
  simp only [Wire.ecpOf, h.bytes (j := 1) (by simp [Schema.declared, Spec.schema, FieldType.wire]) (by simp [Spec.schema]),
    h.bytes (j := 2) (by simp [Schema.declared, Spec.schema, FieldType.wire]) (by simp [Spec.schema])]

/-- Number `j` is declared with the given wire type. -/
macro "decl" : tactic => `(tactic| simp [Schema.declared, Spec.schema, FieldType.wire])
/-- Side conditions on the schema. -/
macro "schm" : tactic => `(tactic| simp [Spec.schema])

theorem sim_ecp2 {m m' : Msg} (h : Sim Spec.schema .ecp2 m m') : Wire.ecp2Of m' = Wire.ecp2Of m := by
  simp only [Wire.ecp2Of, h.bytes (j := 1) (by decl) (by schm), h.bytes (j := 2) (by decl) (by schm),
    h.bytes (j := 3) (by decl) (by schm), h.bytes (j := 4) (by decl) (by schm)]

theorem sim_getEcp {k : Spec.Name} {m m' : Msg} (h : Sim Spec.schema k m m') {j : Nat}
    (hj : (j, .msg .ecp) ∈ Spec.schema k) (hu : ∀ c', (j, .msg c') ∈ Spec.schema k → c' = .ecp) :
    Wire.getEcp j m' = Wire.getEcp j m := h.sub hj hu fun _ _ => sim_ecp

theorem sim_getEcp2 {k : Spec.Name} {m m' : Msg} (h : Sim Spec.schema k m m') {j : Nat}
    (hj : (j, .msg .ecp2) ∈ Spec.schema k) (hu : ∀ c', (j, .msg c') ∈ Spec.schema k → c' = .ecp2) :
    Wire.getEcp2 j m' = Wire.getEcp2 j m := h.sub hj hu fun _ _ => sim_ecp2

theorem sim_cred {m m' : Msg} (h : Sim Spec.schema .credential m m') : Wire.credOf m' = Wire.credOf m := by
  simp only [Wire.credOf, sim_getEcp h (j := 1) (by schm) (by schm), sim_getEcp h (j := 2) (by schm) (by schm),
    h.bytes (j := 3) (by decl) (by schm), h.bytes (j := 4) (by decl) (by schm), h.lens (j := 5) (by decl) (by schm)]

theorem sim_req {m m' : Msg} (h : Sim Spec.schema .credRequest m m') : Wire.reqOf m' = Wire.reqOf m := by
  simp only [Wire.reqOf, sim_getEcp h (j := 1) (by schm) (by schm), h.bytes? (j := 2) (by decl) (by schm),
    h.bytes (j := 3) (by decl) (by schm), h.bytes (j := 4) (by decl) (by schm)]

theorem sim_nonRev {m m' : Msg} (h : Sim Spec.schema .nonRevocationProof m m') : Wire.nonRevOf m' = Wire.nonRevOf m := by
  simp only [Wire.nonRevOf, h.int32 (j := 1) (by decl), h.bytes (j := 2) (by decl) (by schm)]

theorem sim_nymSig {m m' : Msg} (h : Sim Spec.schema .nymSignature m m') : Wire.nymSigOf m' = Wire.nymSigOf m := by
  simp only [Wire.nymSigOf, h.bytes (j := 1) (by decl) (by schm), h.bytes (j := 2) (by decl) (by schm),
    h.bytes (j := 3) (by decl) (by schm), h.bytes (j := 4) (by decl) (by schm)]

theorem sim_cri {m m' : Msg} (h : Sim Spec.schema .credentialRevocationInformation m m') :
    Wire.criOf m' = Wire.criOf m := by
  simp only [Wire.criOf, h.int64 (j := 1) (by decl), sim_getEcp2 h (j := 2) (by schm) (by schm),
    h.bytes (j := 3) (by decl) (by schm), h.int32 (j := 4) (by decl), h.bytes (j := 5) (by decl) (by schm)]

theorem sim_eidNym {m m' : Msg} (h : Sim Spec.schema .eidNym m m') : Wire.attrNymOf m' = Wire.attrNymOf m := by
  simp only [Wire.attrNymOf, sim_getEcp h (j := 1) (by schm) (by schm), h.bytes? (j := 2) (by decl) (by schm)]

theorem sim_rhNym {m m' : Msg} (h : Sim Spec.schema .rhNym m m') : Wire.attrNymOf m' = Wire.attrNymOf m := by
  simp only [Wire.attrNymOf, sim_getEcp h (j := 1) (by schm) (by schm), h.bytes? (j := 2) (by decl) (by schm)]

theorem getAttrNym_eq (j : Nat) (m : Msg) : Wire.getAttrNym j m =
    ((getMsg j m).map fun o => o.map Wire.attrNymOf).bind fun o => match o with
      | none => some none
      | some n => n.map some := by
  simp only [Wire.getAttrNym, Option.bind_eq_bind, Option.bind_map]
  cases getMsg j m with
  | none => rfl
  | some o => cases o with
    | none => rfl
    | some f => simp only [Option.bind_some, Function.comp, Option.map_some]; cases Wire.attrNymOf f <;> rfl

theorem nonRev_eq (j : Nat) (m : Msg) : ((getMsg j m).map fun o => o.map Wire.nonRevOf) = (getMsg j m).bind fun o =>
    some (o.map Wire.nonRevOf) := by
  cases getMsg j m <;> rfl

theorem sim_sig {m m' : Msg} (h : Sim Spec.schema .signature m m') : Wire.sigOf m' = Wire.sigOf m := by
  have e17 : ((getMsg 17 m').map fun o => o.map Wire.nonRevOf) = (getMsg 17 m).map fun o => o.map Wire.nonRevOf :=
    h.sub (c := .nonRevocationProof) (by schm) (by schm) fun _ _ => sim_nonRev
  have e18 : Wire.getAttrNym 18 m' = Wire.getAttrNym 18 m := by
    rw [getAttrNym_eq, getAttrNym_eq, h.sub (c := .eidNym) (by schm) (by schm) fun _ _ => sim_eidNym]
  have e19 : Wire.getAttrNym 19 m' = Wire.getAttrNym 19 m := by
    rw [getAttrNym_eq, getAttrNym_eq, h.sub (c := .rhNym) (by schm) (by schm) fun _ _ => sim_rhNym]
  have key : ∀ n : Msg, Wire.sigOf n = (do
      let aPrime ← Wire.getEcp 1 n
      let aBar ← Wire.getEcp 2 n
      let bPrime ← Wire.getEcp 3 n
      let nym ← Wire.getEcp 12 n
      let epk ← Wire.getEcp2 14 n
      let nr ← (getMsg 17 n).map fun o => o.map Wire.nonRevOf
      let eid ← Wire.getAttrNym 18 n
      let rh ← Wire.getAttrNym 19 n
      some ⟨aPrime, aBar, bPrime, getBytes 4 n, getBytes 5 n, getBytes 6 n, getBytes 7 n, getBytes 8 n,
        getBytes 9 n, lens 10 n, getBytes 11 n, nym, getBytes 13 n, epk, getBytes 15 n, getInt64 16 n, nr, eid, rh⟩) := by
    intro n
    unfold Wire.sigOf
    cases getMsg 17 n <;> rfl
  rw [key, key, e17, e18, e19]
  simp only [sim_getEcp h (j := 1) (by schm) (by schm), sim_getEcp h (j := 2) (by schm) (by schm),
    sim_getEcp h (j := 3) (by schm) (by schm), sim_getEcp h (j := 12) (by schm) (by schm),
    sim_getEcp2 h (j := 14) (by schm) (by schm),
    h.bytes (j := 4) (by decl) (by schm), h.bytes (j := 5) (by decl) (by schm), h.bytes (j := 6) (by decl) (by schm),
    h.bytes (j := 7) (by decl) (by schm), h.bytes (j := 8) (by decl) (by schm), h.bytes (j := 9) (by decl) (by schm),
    h.lens (j := 10) (by decl) (by schm), h.bytes (j := 11) (by decl) (by schm), h.bytes (j := 13) (by decl) (by schm),
    h.bytes (j := 15) (by decl) (by schm), h.int64 (j := 16) (by decl)]

theorem widened_req {b b' : Bytes} (h : Spec.Widened .credRequest b b') :
    Wire.reqCodec.unmarshal b' = Wire.reqCodec.unmarshal b := by
  simp only [Wire.reqCodec, codec, parse_widened (fun _ _ => sim_req) h]

theorem widened_cred {b b' : Bytes} (h : Spec.Widened .credential b b') :
    Wire.credCodec.unmarshal b' = Wire.credCodec.unmarshal b := by
  simp only [Wire.credCodec, codec, parse_widened (fun _ _ => sim_cred) h]

theorem widened_cri {b b' : Bytes} (h : Spec.Widened .credentialRevocationInformation b b') :
    Wire.criCodec.unmarshal b' = Wire.criCodec.unmarshal b := by
  simp only [Wire.criCodec, codec, parse_widened (fun _ _ => sim_cri) h]

theorem widened_sig {b b' : Bytes} (h : Spec.Widened .signature b b') :
    Wire.sigCodec.unmarshal b' = Wire.sigCodec.unmarshal b := by
  simp only [Wire.sigCodec, codec, parse_widened (fun _ _ => sim_sig) h]

theorem widened_nymSig {b b' : Bytes} (h : Spec.Widened .nymSignature b b') :
    Wire.nymSigCodec.unmarshal b' = Wire.nymSigCodec.unmarshal b := by
  simp only [Wire.nymSigCodec, codec, parse_widened (fun _ _ => sim_nymSig) h]

variable {S : Suite} (E : Env S)

/-- **C95 (dlog, partial).** Undeclared fields, anywhere in a credential request, a credential, revocation information,
a signature or a pseudonym signature, and of any wire type, change nothing in the outcome of the operations that receive
these: what they return and, for signing, the bytes that they make. What is missing: the issuer public key
(`C95_dlog_issuer_key_partial`, `C95_dlog_issuer_key_violated`) and the verification of revocation information with such
fields in its epoch key (`C95_dlog_revocation_violated`). -/
theorem C95_dlog_partial (ipk : Dyn IssuerPublicKey) :
    (∀ b b' nonce, Spec.Widened .credRequest b b' → E.requestVerify b' ipk nonce = E.requestVerify b ipk nonce) ∧
    (∀ b b' key attributes e s, Spec.Widened .credRequest b b' →
      E.credSign key b' attributes e s = E.credSign key b attributes e s) ∧
    (∀ b b' sk attributes, Spec.Widened .credential b b' →
      E.credVerify sk ipk b' attributes = E.credVerify sk ipk b attributes) ∧
    (∀ cred cred' cri cri' sk nym rNym attributes msg rhIndex eidIndex ρ sigType md, Spec.Widened .credential cred cred' →
      Spec.Widened .credentialRevocationInformation cri cri' →
      E.sign cred' sk nym rNym ipk attributes msg rhIndex eidIndex cri' ρ sigType md =
        E.sign cred sk nym rNym ipk attributes msg rhIndex eidIndex cri ρ sigType md) ∧
    (∀ b b' digest attributes rhIndex eidIndex revPk epoch verType md, Spec.Widened .signature b b' →
      E.verify ipk b' digest attributes rhIndex eidIndex revPk epoch verType md =
        E.verify ipk b digest attributes rhIndex eidIndex revPk epoch verType md) ∧
    (∀ b b' index value r, Spec.Widened .signature b b' →
      E.auditNymEid ipk index b' value r .expectSignature = E.auditNymEid ipk index b value r .expectSignature ∧
      E.auditNymRh ipk index b' value r .expectSignature = E.auditNymRh ipk index b value r .expectSignature) ∧
    (∀ b b' nym digest, Spec.Widened .nymSignature b b' → E.nymVerify ipk nym b' digest = E.nymVerify ipk nym b digest) := by
  refine ⟨?_, ?_, ?_, ?_, ?_, ?_, ?_⟩
  · intro b b' nonce h
    simp only [Env.requestVerify, widened_req h]
  · intro b b' key attributes e s h
    simp only [Env.credSign, widened_req h]
  · intro b b' sk attributes h
    simp only [Env.credVerify, widened_cred h]
  · intro cred cred' cri cri' sk nym rNym attributes msg rhIndex eidIndex ρ sigType md h h'
    simp only [Env.sign, widened_cred h, widened_cri h']
  · intro b b' digest attributes rhIndex eidIndex revPk epoch verType md h
    simp only [Env.verify, widened_sig h]
  · intro b b' index value r h
    constructor
    · simp only [Env.auditNymEid, widened_sig h]
    · simp only [Env.auditNymRh, widened_sig h]
  · intro b b' nym digest h
    simp only [Env.nymVerify, widened_nymSig h]

/-! ## The issuer public key -/

/-- What a key says: all but its hash and the undeclared fields. -/
def Spec.content (i : IssuerPublicKey) : IssuerPublicKey := { i with hash := [], unknown := {} }

theorem sim_ipk {m m' : Msg} (h : Sim Spec.schema .issuerPublicKey m m') :
    (Wire.ipkOf m').map Spec.content = (Wire.ipkOf m).map Spec.content := by
  have h4 : (((lens 4 m').mapM decode).map fun l => l.map fun a => some (Wire.ecpOf a)) =
      ((lens 4 m).mapM decode).map fun l => l.map fun a => some (Wire.ecpOf a) := by
    obtain ⟨-, hb⟩ := h.msgs (j := 4) (c := .ecp) (by schm) (by schm)
    generalize (lens 4 m).mapM decode = o, (lens 4 m').mapM decode = o' at hb
    cases hb with
    | none => rfl
    | some hf =>
      simp only [Option.map_some, Option.some.injEq]
      induction hf with
      | nil => rfl
      | cons hd _ ih => simp only [List.map_cons, ih, sim_ecp hd]
  have key : ∀ n : Msg, (Wire.ipkOf n).map Spec.content = if (lens 1 n).all utf8Valid then (do
      let hSk ← Wire.getEcp 2 n
      let hRand ← Wire.getEcp 3 n
      let hAttrs ← ((lens 4 n).mapM decode).map fun l => l.map fun a => some (Wire.ecpOf a)
      let w ← Wire.getEcp2 5 n
      let barG1 ← Wire.getEcp 6 n
      let barG2 ← Wire.getEcp 7 n
      some ⟨lens 1 n, hSk, hRand, hAttrs, w, barG1, barG2, getBytes 8 n, getBytes 9 n, [], {}⟩) else none := by
    intro n
    unfold Wire.ipkOf
    split
    · cases Wire.getEcp 2 n <;> [rfl; skip]
      cases Wire.getEcp 3 n <;> [rfl; skip]
      cases (lens 4 n).mapM decode <;> [rfl; skip]
      cases Wire.getEcp2 5 n <;> [rfl; skip]
      cases Wire.getEcp 6 n <;> [rfl; skip]
      cases Wire.getEcp 7 n <;> rfl
    · rfl
  rw [key, key, h4]
  simp only [h.lens (j := 1) (by decl) (by schm), sim_getEcp h (j := 2) (by schm) (by schm),
    sim_getEcp h (j := 3) (by schm) (by schm), sim_getEcp2 h (j := 5) (by schm) (by schm),
    sim_getEcp h (j := 6) (by schm) (by schm), sim_getEcp h (j := 7) (by schm) (by schm),
    h.bytes (j := 8) (by decl) (by schm), h.bytes (j := 9) (by decl) (by schm)]

theorem setHash_eq (i : IssuerPublicKey) : setHash (S := S) Wire.ipkCodec.marshal i =
    if i.attributeNames.all utf8Valid then
      .ok { i with hash := S.zrBytes (S.hashToZr (encode (Wire.ipk { i with hash := [] }) ++ i.unknown.top)) }
    else .err "string field contains invalid UTF-8" := by
  simp only [setHash, Wire.ipkCodec]
  split <;> rfl

/-- What is done with a key after parsing, with the outcome reduced to what the key says. -/
def rest (names : List Bytes) (i : IssuerPublicKey) : Res IssuerPublicKey := do
  let ipk ← wrapErr ImportError.hash.msg (setHash (S := S) Wire.ipkCodec.marshal i)
  let ipk ← wrapErr ImportError.validation.msg (ipk.check E.T Wire.ipkCodec.marshal)
  checkNames names ipk.attributeNames
  pure (Spec.content ipk)

theorem check_content {i i' : IssuerPublicKey} (h : Spec.content i' = Spec.content i) :
    (do let k ← i'.check E.T Wire.ipkCodec.marshal; pure (Spec.content k)) =
      (do let k ← i.check E.T Wire.ipkCodec.marshal; pure (Spec.content k)) := by
  obtain ⟨a1, a2, a3, a4, a5, a6, a7, a8, a9, a10, a11⟩ := i
  obtain ⟨b1, b2, b3, b4, b5, b6, b7, b8, b9, b10, b11⟩ := i'
  simp only [Spec.content, IssuerPublicKey.mk.injEq] at h
  obtain ⟨rfl, rfl, rfl, rfl, rfl, rfl, rfl, rfl, rfl, -, -⟩ := h
  simp only [IssuerPublicKey.check, bind_assoc]
  have e : ∀ (u u' : IpkUnknown) (x x' : Bytes),
      (setHash (S := S) Wire.ipkCodec.marshal ⟨b1, b2, b3, b4, b5, b6, b7, b8, b9, x', u'⟩ >>= fun k => pure (Spec.content k)) =
      (setHash (S := S) Wire.ipkCodec.marshal ⟨b1, b2, b3, b4, b5, b6, b7, b8, b9, x, u⟩ >>= fun k => pure (Spec.content k)) := by
    intro u u' x x'
    simp only [setHash_eq]
    by_cases hc : b1.all utf8Valid <;> simp [hc, Spec.content]
  rw [e a11 b11 a10 b10]

theorem rest_content (names : List Bytes) {i i' : IssuerPublicKey} (h : Spec.content i' = Spec.content i) :
    rest E names i' = rest E names i := by
  obtain ⟨a1, a2, a3, a4, a5, a6, a7, a8, a9, a10, a11⟩ := i
  obtain ⟨b1, b2, b3, b4, b5, b6, b7, b8, b9, b10, b11⟩ := i'
  simp only [Spec.content, IssuerPublicKey.mk.injEq] at h
  obtain ⟨rfl, rfl, rfl, rfl, rfl, rfl, rfl, rfl, rfl, -, -⟩ := h
  simp only [rest, setHash_eq]
  by_cases hv : b1.all utf8Valid
  · simp only [hv, if_true, wrapErr, Res.ok_bind]
    generalize S.zrBytes (S.hashToZr (encode (Wire.ipk ⟨b1, b2, b3, b4, b5, b6, b7, b8, b9, [], a11⟩) ++ a11.top)) = k
    generalize S.zrBytes (S.hashToZr (encode (Wire.ipk ⟨b1, b2, b3, b4, b5, b6, b7, b8, b9, [], b11⟩) ++ b11.top)) = k'
    have hc := check_content E (i := ⟨b1, b2, b3, b4, b5, b6, b7, b8, b9, k, a11⟩)
      (i' := ⟨b1, b2, b3, b4, b5, b6, b7, b8, b9, k', b11⟩) rfl
    cases h1 : IssuerPublicKey.check E.T Wire.ipkCodec.marshal ⟨b1, b2, b3, b4, b5, b6, b7, b8, b9, k, a11⟩ <;>
      cases h2 : IssuerPublicKey.check E.T Wire.ipkCodec.marshal ⟨b1, b2, b3, b4, b5, b6, b7, b8, b9, k', b11⟩ <;>
      simp only [h1, h2, Res.ok_bind, Res.err_bind, Res.panic_bind, Res.pure_def, Res.ok.injEq, Res.err.injEq, reduceCtorEq] at hc ⊢
    · rename_i x y
      have hn : y.attributeNames = x.attributeNames := by
        have := congrArg IssuerPublicKey.attributeNames hc
        exact this
      rw [hc, hn]
  · simp only [hv]; rfl

/-- The outcome of an import, reduced to what the key says. -/
def Spec.imported (x : Res IssuerPublicKey) : Res IssuerPublicKey := do
  let i ← x
  pure (Spec.content i)

theorem import_content (names : List Bytes) (b : Bytes) : Spec.imported (E.newPublicKeyFromBytes b names) =
    (Res.recovered do
      let i ← wrapErr ImportError.unmarshalling.msg (Res.ofOption "cannot parse invalid wire-format data"
        (((decode b).bind Wire.ipkOf).map fun i => Wire.withTop i (unknown Wire.ipkKnown b)))
      rest E names i) := by
  simp only [Spec.imported, Env.newPublicKeyFromBytes, Wire.ipkCodec]
  have hr : ∀ x : Res IssuerPublicKey, (do let i ← x.recovered; pure (Spec.content i)) =
      (do let i ← x; pure (Spec.content i)).recovered := by intro x; cases x <;> rfl
  rw [hr]
  simp only [bind_assoc, rest, Wire.ipkCodec, pure_bind]

theorem import_widened (names : List Bytes) {b b' : Bytes} (h : Spec.Widened .issuerPublicKey b b') :
    Spec.imported (E.newPublicKeyFromBytes b' names) = Spec.imported (E.newPublicKeyFromBytes b names) := by
  rw [import_content, import_content]
  have h2 : ((decode b').bind Wire.ipkOf).map Spec.content = ((decode b).bind Wire.ipkOf).map Spec.content := by
    have := widened_sim h
    generalize decode b = o, decode b' = o' at this
    cases this with
    | none => rfl
    | some h => exact sim_ipk h
  generalize (decode b).bind Wire.ipkOf = o, (decode b').bind Wire.ipkOf = o' at h2
  cases o <;> cases o' <;> simp only [Option.map_none, Option.map_some, Option.some.injEq, reduceCtorEq] at h2
  · rfl
  · simp only [Option.map_some, Res.ofOption_some, wrapErr, Res.ok_bind]
    rw [rest_content E names]
    simpa [Spec.content, Wire.withTop] using h2

/-- What is hashed for a key: its fields, without the hash and with the undeclared fields `e` at the end. -/
def Spec.hashed (S : Suite) (key : IssuerPublicKey) (e : Bytes) : Bytes :=
  S.zrBytes (S.hashToZr (encode (Wire.ipk { key with hash := [] }) ++ e))

/-- **C95 (dlog, issuer keys, partial).** Undeclared fields anywhere in an issuer public key change nothing in whether it
is imported, in the error otherwise, and in what the imported key says; but its hash is another one. The second part
has the hash of a generated key that is sent with undeclared fields at its end. What is missing: keys that say the same
are not interchangeable, see `C95_dlog_issuer_key_violated`. -/
theorem C95_dlog_issuer_key_partial (names : List Bytes) :
    (∀ b b', Spec.Widened .issuerPublicKey b b' →
      Spec.imported (E.newPublicKeyFromBytes b' names) = Spec.imported (E.newPublicKeyFromBytes b names)) ∧
    (∀ ρ key raw e, E.newKey names ρ = .ok key → Wire.ipkCodec.marshal key.ipk = .ok raw →
      Undeclared (Spec.schema.declared .issuerPublicKey) e → ∀ i, E.newPublicKeyFromBytes (raw ++ e) names = .ok i →
      i.hash = Spec.hashed S key.ipk e ∧ key.ipk.hash = Spec.hashed S key.ipk []) := by
  refine ⟨fun b b' h => import_widened E names h, ?_⟩
  intro ρ key raw e hk hr he i hi
  have hk := Res.recovered_eq_ok.mp hk
  have hu := newIssuerKey_unknown hk
  have hc : key.ipk.attributeNames.all utf8Valid = true ∧ encode (Wire.ipk key.ipk) = raw := by
    simp only [Wire.ipkCodec] at hr
    split at hr
    · next hc =>
      rw [hu] at hr
      simp only [List.append_nil, Res.ok.injEq] at hr
      exact ⟨hc, hr⟩
    · cases hr
  obtain ⟨hc, rfl⟩ := hc
  obtain ⟨m, hm, hmu⟩ := FieldsIn.decodes he
  have hkn : unknown Wire.ipkKnown (encode (Wire.ipk key.ipk) ++ e) = e := by
    rw [unknown_append _ (decode_encode _ (Wire.ipk_plain _)) hm, Wire.ipk_unknown, List.nil_append,
      FieldsIn.unknown_all he]
    intro k w hkw
    simp only [Schema.declared, Spec.schema, FieldType.wire, List.map_cons, List.map_nil, List.mem_cons, Prod.mk.injEq,
      List.not_mem_nil, or_false, not_or, not_and] at hkw
    simp only [Wire.ipkKnown, Bool.and_eq_false_iff, decide_eq_false_iff_not, beq_eq_false_iff_ne]
    omega
  have hw : key.ipk.Wire := ⟨by
    simp only [newIssuerKey, Res.bind_eq_ok, Res.pure_def, Res.ok.injEq] at hk
    obtain ⟨_, -, _, -, _, -, _, -, rfl⟩ := hk
    intro x hx
    simp only [unhashedIpk, List.mem_map] at hx
    obtain ⟨_, -, rfl⟩ := hx
    rfl, hu⟩
  have hd : Wire.ipkOf (Wire.ipk key.ipk ++ m) = some key.ipk := by
    rw [← Wire.ipkOf_ipk key.ipk hw hc]
    have l : ∀ k, (k, 2) ∈ Spec.schema.declared .issuerPublicKey →
        lens k (Wire.ipk key.ipk ++ m) = lens k (Wire.ipk key.ipk) := fun k hk2 => by
      have := lens_insert hmu (Wire.ipk key.ipk) [] hk2
      simpa using this
    simp only [Wire.ipkOf, Wire.getEcp, Wire.getEcp2, getMsg, getBytes, l 1 (by decl), l 2 (by decl), l 3 (by decl),
      l 4 (by decl), l 5 (by decl), l 6 (by decl), l 7 (by decl), l 8 (by decl), l 9 (by decl), l 10 (by decl)]
  have hun : Wire.ipkCodec.unmarshal (encode (Wire.ipk key.ipk) ++ e) = .ok (Wire.withTop key.ipk e) := by
    simp only [Wire.ipkCodec, hkn, decode_append (decode_encode _ (Wire.ipk_plain _)), hm, Option.map_some, Option.bind_some,
      hd, Res.ofOption_some]
  constructor
  · simp only [Env.newPublicKeyFromBytes, hun, setHash_eq, Res.recovered_eq_ok, Res.bind_eq_ok, wrapErr_eq_ok, Res.ok.injEq,
      Res.pure_def, exists_eq_left', Wire.withTop, hc, if_true] at hi
    obtain ⟨i2, h2, _, -, rfl⟩ := hi
    obtain ⟨_, _, _, -, -, -, -, -, -, hs⟩ := check_ok_iff.mp h2
    simp only [setHash_eq, hc, if_true, Res.ok.injEq] at hs
    rw [← hs]
    rfl
  · simp only [newIssuerKey, Res.bind_eq_ok, Res.pure_def, Res.ok.injEq] at hk
    obtain ⟨_, -, _, -, _, -, ser, hs, rfl⟩ := hk
    simp only [Wire.ipkCodec] at hs
    split at hs
    · simp only [Res.ok.injEq] at hs
      rw [← hs]
      rfl
    · next hx => exact absurd hc hx

/-! ## Revocation information -/

theorem epochPkUnknown_insert {b₁ e : Bytes} (b₂ : Bytes) (h₁ : Message b₁)
    (he : Undeclared (Spec.schema.declared .credentialRevocationInformation) e) :
    Wire.epochPkUnknown (b₁ ++ (e ++ b₂)) = Wire.epochPkUnknown (b₁ ++ b₂) := by
  obtain ⟨m₁, d₁, -⟩ := FieldsIn.decodes h₁
  obtain ⟨u, du, hu⟩ := FieldsIn.decodes he
  simp only [Wire.epochPkUnknown, decode_append d₁, decode_append du]
  cases decode b₂ with
  | none => rfl
  | some m₂ => simp only [Option.map_some, Option.getD_some, lens_insert hu m₁ m₂ (k := 2) (by decl)]

/-- **C95 (dlog, revocation information, partial).** Undeclared fields between those of revocation information change
nothing in its verification. What is missing: such fields in its epoch key are part of what is hashed
(`C95_dlog_revocation_violated`). -/
theorem C95_dlog_revocation_partial (pk : Option E.dsa.Pk) (epoch alg : Int) {b₁ e : Bytes} (b₂ : Bytes) (h₁ : Message b₁)
    (he : Undeclared (Spec.schema.declared .credentialRevocationInformation) e) :
    E.revVerify pk (b₁ ++ (e ++ b₂)) epoch alg = E.revVerify pk (b₁ ++ b₂) epoch alg := by
  simp only [Env.revVerify, widened_cri (Proto.Spec.Widened.insert b₂ h₁ he), epochPkUnknown_insert b₂ h₁ he]

/-! ## Examples and violations -/

namespace Ex

/-- Field 11, the integer 7. -/
theorem tag11 : Tag 11 0 [88] := ⟨by decide, by decide, .last 88 (by decide), by decide, by decide⟩
/-- A varint of one byte. -/
theorem varint1 (b : UInt8) (h : b.toNat < 128) : Varint b.toNat [b] := ⟨.last b h, by simp, by omega⟩

/-- Undeclared in all messages of which the integer fields do not include number 11. -/
theorem extra {declared : List (Nat × Nat)} (h : (11, 0) ∉ declared) : Undeclared declared [88, 7] :=
  .varint tag11 h (varint1 7 (by decide)) .nil

/-- A group with number 20 that contains 8 bytes under number 1, and then 4 bytes under number 1. -/
theorem odd {declared : List (Nat × Nat)} (h : (20, 3) ∉ declared) (h' : (1, 5) ∉ declared) :
    Undeclared declared [163, 1, 9, 1, 2, 3, 4, 5, 6, 7, 8, 164, 1, 13, 1, 2, 3, 4] := by
  refine .group (t := [163, 1]) (g := [9, 1, 2, 3, 4, 5, 6, 7, 8]) (t' := [164, 1]) (r := [13, 1, 2, 3, 4]) (k := 20)
    ⟨by decide, by decide, .more 163 (by decide) (.last 1 (by decide)), by decide, by decide⟩ h
    (.fixed64 (t := [9]) (b := [1, 2, 3, 4, 5, 6, 7, 8]) (r := []) (k := 1)
      ⟨by decide, by decide, .last 9 (by decide), by decide, by decide⟩ trivial rfl .nil)
    ⟨by decide, by decide, .more 164 (by decide) (.last 1 (by decide)), by decide, by decide⟩
    (.fixed32 (t := [13]) (b := [1, 2, 3, 4]) (r := []) (k := 1)
      ⟨by decide, by decide, .last 13 (by decide), by decide, by decide⟩ h' rfl .nil)

/-- The encoded key of the examples. -/
def rawKey : Bytes := [10, 1, 97, 10, 1, 98, 10, 1, 99, 18, 3, 10, 1, 3, 26, 3, 10, 1, 6, 34, 3, 10, 1, 2, 34, 3, 10, 1, 4,
  34, 3, 10, 1, 5, 42, 3, 10, 1, 3, 50, 3, 10, 1, 2, 58, 3, 10, 1, 6, 66, 1, 1, 74, 1, 1, 82, 1, 6]

end Ex

set_option maxRecDepth 20000 in
/-- The second part of `C95_dlog_issuer_key_partial`. -/
example : Ex.env.newKey Ex.utfNames Ex.rnd = .ok Ex.bkey ∧ Wire.ipkCodec.marshal Ex.bkey.ipk = .ok Ex.rawKey ∧
    Undeclared (Spec.schema.declared .issuerPublicKey) [88, 7] ∧
    ∃ i, Ex.env.newPublicKeyFromBytes (Ex.rawKey ++ [88, 7]) Ex.utfNames = .ok i ∧ i.hash ≠ Ex.bkey.ipk.hash :=
  ⟨by decide, by decide, Ex.extra (by simp [Schema.declared, Spec.schema, FieldType.wire]), _, rfl, by decide⟩

/-- A pseudonym signature with a group, eight and four bytes that nobody declared, in front of its first field. -/
example (b : Bytes) : Spec.Widened .nymSignature b
    ([163, 1, 9, 1, 2, 3, 4, 5, 6, 7, 8, 164, 1, 13, 1, 2, 3, 4] ++ b) :=
  .insert (b₁ := []) b .nil (Ex.odd (by simp [Schema.declared, Spec.schema, FieldType.wire])
    (by simp [Schema.declared, Spec.schema, FieldType.wire]))

set_option maxRecDepth 20000 in
/-- C95 is violated for issuer public keys: a key is accepted with and without a field that is not declared, the two
keys say the same, but a pseudonym signature that is accepted for one is rejected for the other. -/
theorem C95_dlog_issuer_key_violated : ∃ ipk ipk' raw, Spec.Widened .issuerPublicKey Ex.rawKey ([88, 7] ++ Ex.rawKey) ∧
    Ex.env.newPublicKeyFromBytes Ex.rawKey Ex.utfNames = .ok ipk ∧
    Ex.env.newPublicKeyFromBytes ([88, 7] ++ Ex.rawKey) Ex.utfNames = .ok ipk' ∧
    Spec.content ipk' = Spec.content ipk ∧
    Ex.env.nymSign (some (4 : Toy.K)) (some Ex.nym) (some (2 : Toy.K)) (.val ipk) [9] Ex.nymRnd = .ok raw ∧
    Ex.env.nymVerify (.val ipk) (some Ex.nym) raw [9] = .ok () ∧
    Ex.env.nymVerify (.val ipk') (some Ex.nym) raw [9] ≠ .ok () := by
  refine ⟨_, _, _, ?_, rfl, rfl, by decide, rfl, by decide, by decide⟩
  exact .insert (b₁ := []) Ex.rawKey .nil (Ex.extra (by simp [Schema.declared, Spec.schema, FieldType.wire]))

set_option maxRecDepth 20000 in
/-- C95 is violated for the verification of revocation information: with an undeclared field in its epoch key it is
rejected. -/
theorem C95_dlog_revocation_violated : ∃ raw raw',
    Ex.env.revSign (some (9 : UInt8)) 3 0 (1 : Toy.K) () = .ok raw ∧
    Spec.Widened .credentialRevocationInformation raw raw' ∧
    Ex.env.revVerify (some (9 : UInt8)) raw 3 0 = .ok () ∧ Ex.env.revVerify (some (9 : UInt8)) raw' 3 0 ≠ .ok () := by
  refine ⟨[8, 3, 18, 3, 10, 1, 1, 26, 8, 9, 8, 3, 18, 3, 10, 1, 1],
    [8, 3, 18, 5, 88, 7, 10, 1, 1, 26, 8, 9, 8, 3, 18, 3, 10, 1, 1], by decide, ?_, by decide, by decide⟩
  have h₁ : Message [8, 3] := .varint (t := [8]) (v := [3]) (r := []) (k := 1)
    ⟨by decide, by decide, .last 8 (by decide), by decide, by decide⟩ trivial (Ex.varint1 3 (by decide)) .nil
  exact .inner (b₁ := [8, 3]) (t := [18]) (v := [3]) (v' := [5]) (x := [10, 1, 1]) (x' := [88, 7, 10, 1, 1]) (n := 2)
    (c := .ecp2) _ h₁ (by simp [Spec.schema]) ⟨by decide, by decide, .last 18 (by decide), by decide, by decide⟩
    (Ex.varint1 3 (by decide)) (Ex.varint1 5 (by decide))
    (.insert (b₁ := []) [10, 1, 1] .nil (Ex.extra (by simp [Schema.declared, Spec.schema, FieldType.wire])))

end Idemix.Dlog
