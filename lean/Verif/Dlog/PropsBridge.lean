import Verif.Dlog.Bridge
import Verif.Dlog.PropsIssue
import Verif.Dlog.PropsCred
import Verif.Dlog.PropsNym
import Verif.Dlog.PropsSign

/-!
# dlog scheme: properties of the byte-level interface
-/

namespace Idemix.Dlog

variable {S : Suite}

/-- The scalar an attribute stands for: byte attributes are hashed, integers are embedded. -/
inductive Spec.Denotes (S : Suite) : IdemixAttribute → S.F → Prop
  | bytes (b : Bytes) : Denotes S ⟨1, .bytes b⟩ (S.hashToZr b)
  | int (i : Int) : Denotes S ⟨2, .int i⟩ (S.zrOfInt i)
  | int64 (i : Int) : Denotes S ⟨2, .int64 i⟩ (S.zrOfInt i)

/-- The attribute is withheld. -/
def Spec.Hidden (a : IdemixAttribute) : Prop := a.type = 0

/-! ## Lemmas -/

theorem bytesAttr_ok {v : AttrValue} {x : S.F} :
    bytesAttr S v = .ok x ↔ ∃ b, v = .bytes b ∧ S.hashToZr b = x := by
  cases v <;> simp [bytesAttr]

theorem intAttr_ok {v : AttrValue} {x : S.F} :
    intAttr S v = .ok x ↔ ∃ i, (v = .int i ∨ v = .int64 i) ∧ S.zrOfInt i = x := by
  cases v <;> simp [intAttr]

theorem signAttr_ok {a : IdemixAttribute} {x : S.F} : signAttr S a = .ok x ↔ Spec.Denotes S a x := by
  obtain ⟨t, v⟩ := a
  unfold signAttr
  simp only
  constructor
  · intro h
    split at h
    · next ht =>
      obtain ⟨b, rfl, rfl⟩ := bytesAttr_ok.mp h
      subst ht; exact .bytes b
    · split at h
      · next ht =>
        obtain ⟨i, rfl | rfl, rfl⟩ := intAttr_ok.mp h
        · subst ht; exact .int i
        · subst ht; exact .int64 i
      · cases h
  · rintro (_ | _ | _) <;> simp [bytesAttr, intAttr]

theorem Spec.Denotes.not_hidden {a : IdemixAttribute} {x : S.F} (h : Spec.Denotes S a x) :
    ¬ Spec.Hidden a := by
  cases h <;> simp [Spec.Hidden]

theorem verifyAttr_ok {a : IdemixAttribute} {o : Option S.F} :
    verifyAttr S a = .ok o ↔ (Spec.Hidden a ∧ o = none) ∨ ∃ x, Spec.Denotes S a x ∧ o = some x := by
  by_cases ht : a.type = 0
  · have h1 : verifyAttr S a = .ok none := by simp [verifyAttr, ht]
    rw [h1]
    constructor
    · intro h; cases h; exact .inl ⟨ht, rfl⟩
    · rintro (⟨-, rfl⟩ | ⟨x, hx, -⟩)
      · rfl
      · exact absurd ht hx.not_hidden
  · have h1 : verifyAttr S a = (do let v ← signAttr S a; pure (some v)) := by
      unfold verifyAttr signAttr
      simp only [ht, if_false]
      split
      · rfl
      · split <;> rfl
    rw [h1]
    simp only [Res.bind_eq_ok, Res.pure_def, Res.ok.injEq, signAttr_ok]
    constructor
    · rintro ⟨x, h, rfl⟩; exact .inr ⟨x, h, rfl⟩
    · rintro (⟨h, -⟩ | ⟨x, h, rfl⟩)
      · exact absurd h ht
      · exact ⟨x, h, rfl⟩

theorem verAttr_ok {cred : Credential} {i : Nat} {a : IdemixAttribute} :
    verAttr S cred i a = .ok () ↔
      Spec.Hidden a ∨ ∃ x : S.F, Spec.Denotes S a x ∧ cred.attrs[i]? = some (S.zrBytes x) := by
  by_cases ht : a.type = 0
  · have h1 : verAttr S cred i a = .ok () := by simp [verAttr, ht]
    simp [h1, Spec.Hidden, ht]
  · have h1 : verAttr S cred i a = (do
        let v ← signAttr S a
        let c ← Res.nth cred.attrs i
        Res.guardErr (decide (S.zrBytes v ≠ c)) "credential does not contain the correct attribute value") := by
      unfold verAttr signAttr
      simp only [ht, if_false]
      split
      · rfl
      · split <;> rfl
    rw [h1]
    simp only [Res.bind_eq_ok, signAttr_ok, Res.nth_eq_ok, Res.guardErr_eq_ok, decide_eq_false_iff_not,
      ne_eq, not_not, Spec.Hidden, ht, false_or]
    constructor
    · rintro ⟨x, h, c, hc, rfl⟩; exact ⟨x, h, hc⟩
    · rintro ⟨x, h, hc⟩; exact ⟨x, h, _, hc, rfl⟩

theorem verAttrs_ok {cred : Credential} {k : Nat} {l : List IdemixAttribute} :
    verAttrs S cred k l = .ok () ↔ ∀ (i : Nat) (a : IdemixAttribute), l[i]? = some a →
      Spec.Hidden a ∨ ∃ x : S.F, Spec.Denotes S a x ∧ cred.attrs[k + i]? = some (S.zrBytes x) := by
  induction l generalizing k with
  | nil => simp [verAttrs]
  | cons b l ih =>
    simp only [verAttrs, Res.bind_eq_ok, ih]
    constructor
    · rintro ⟨_, h1, h2⟩ (_ | i) a ha
      · cases ha; exact verAttr_ok.mp h1
      · have := h2 i a (by simpa using ha)
        rwa [show k + 1 + i = k + (i + 1) by omega] at this
    · intro h
      refine ⟨(), verAttr_ok.mpr (h 0 b rfl), fun i a ha => ?_⟩
      have := h (i + 1) a (by simpa using ha)
      rwa [show k + (i + 1) = k + 1 + i by omega] at this

@[simp] theorem req_marshal (r : CredRequest) : Wire.reqCodec.marshal r = .ok (Proto.encode (Wire.req r)) := rfl
@[simp] theorem cred_marshal (c : Credential) : Wire.credCodec.marshal c = .ok (Proto.encode (Wire.cred c)) := rfl
@[simp] theorem sig_marshal (s : Signature) : Wire.sigCodec.marshal s = .ok (Proto.encode (Wire.sig s)) := rfl
@[simp] theorem nymSig_marshal (s : NymSignature) :
    Wire.nymSigCodec.marshal s = .ok (Proto.encode (Wire.nymSig s)) := rfl
@[simp] theorem cri_marshal (c : CRI) : Wire.criCodec.marshal c = .ok (Proto.encode (Wire.cri c)) := rfl

theorem ipk_marshal {i : IssuerPublicKey} (h : ∀ n ∈ i.attributeNames, Proto.utf8Valid n = true) :
    Wire.ipkCodec.marshal i = .ok (Proto.encode (Wire.ipk i) ++ i.unknown.top) := by
  simpa [Wire.ipkCodec] using h

theorem key_marshal {k : IssuerKey} (h : ∀ n ∈ k.ipk.attributeNames, Proto.utf8Valid n = true) :
    Wire.keyCodec.marshal k = .ok (Proto.encode (Wire.key k)) := by
  simpa [Wire.keyCodec, Proto.codec] using h

theorem ipk_marshal_ok {i : IssuerPublicKey} {b : Bytes} (h : Wire.ipkCodec.marshal i = .ok b) :
    ∀ n ∈ i.attributeNames, Proto.utf8Valid n = true := by
  simp only [Wire.ipkCodec] at h
  split at h
  · next hc => exact List.all_eq_true.mp hc
  · cases h

theorem check_wire {T : Translator S} {m : IpkMarshal} {ipk out : IssuerPublicKey}
    (h : ipk.check T m = .ok out) (hu : ipk.unknown = {}) : ipk.Wire := by
  obtain ⟨k, b1, b2, hr, -⟩ := check_ok_iff.mp h
  exact ⟨parseAttrs_some hr.hAttrs, hu⟩

/-- A generated key has no unknown fields. -/
theorem newIssuerKey_unknown {T : Translator S} {m : IpkMarshal} {names : List Bytes} {ρ : IssuerRand S} {key : IssuerKey}
    (h : newIssuerKey T m names ρ = .ok key) : key.ipk.unknown = {} := by
  simp only [newIssuerKey, Res.bind_eq_ok, Res.pure_def, Res.ok.injEq] at h
  obtain ⟨_, -, _, -, _, -, _, -, rfl⟩ := h
  rfl

theorem check_setHash {T : Translator S} {m : IpkMarshal} {ipk out : IssuerPublicKey}
    (h : ipk.check T m = .ok out) : setHash (S := S) m ipk = .ok out := by
  obtain ⟨k, b1, b2, -, -, -, -, -, -, h⟩ := check_ok_iff.mp h
  exact h

theorem setHash_names {m : IpkMarshal} {ipk out : IssuerPublicKey}
    (h : setHash (S := S) m ipk = .ok out) : out.attributeNames = ipk.attributeNames := by
  simp only [setHash, Res.bind_eq_ok, Res.pure_def, Res.ok.injEq] at h
  obtain ⟨b, -, rfl⟩ := h
  rfl

theorem zrBytes_ne_nil (x : S.F) : S.zrBytes x ≠ [] := by
  intro h
  have := congrArg List.length h
  have h2 := S.scalarLen_pos
  simp at this
  omega

theorem signed64_range (n : Nat) : Proto.Int64 (Proto.signed64 n) := by
  unfold Proto.signed64 Proto.Int64
  simp only
  split <;> omega

theorem signed32_range (n : Nat) : Proto.Int32 (Proto.signed32 n) := by
  unfold Proto.signed32 Proto.Int32
  simp only
  split <;> omega

theorem cri_unmarshal_wire {b : Bytes} {c : CRI} (h : Wire.criCodec.unmarshal b = .ok c) : c.Wire := by
  simp only [Wire.criCodec, Proto.codec, Res.ofOption_eq_ok, Option.bind_eq_some_iff, Wire.criOf,
    Option.bind_eq_bind] at h
  obtain ⟨m, -, pk, -, h⟩ := h
  cases h
  exact ⟨signed64_range _, signed32_range _⟩

theorem finalise_wire {T : Translator S} {cred : Credential} {sk : S.F} {nym : S.G1} {rNym : S.F}
    {ipk : IssuerPublicKey} {D msg : Bytes} {rh eid : Int} {cri : CRI} {ρ : SigRand S} {p : Prepared S}
    {st : SigType} {md m : Option (SignerMetadata S)} {sig : Signature} (hc : Proto.Int64 cri.epoch)
    (h : finalise T cred sk nym rNym ipk D msg rh eid cri ρ p st md = .ok (sig, m)) : sig.Wire := by
  simp only [finalise, Res.bind_eq_ok, Res.pure_def, Res.ok.injEq, Prod.mk.injEq] at h
  obtain ⟨e, -, r, -, lb, -, np, -, pd, -, pd2, -, sa, -, rfl, -⟩ := h
  refine ⟨?_, ?_, hc, ?_⟩
  · intro n hn
    simp only [Option.map_eq_some_iff] at hn
    obtain ⟨q, -, rfl⟩ := hn
    simp [AttrNymPart.toWire, zrBytes_ne_nil]
  · intro n hn
    simp only [Option.map_eq_some_iff] at hn
    obtain ⟨q, -, rfl⟩ := hn
    simp [AttrNymPart.toWire, zrBytes_ne_nil]
  · intro n hn
    cases hn
    simp [Proto.Int32]

/-- Every signature the signer returns survives the wire. -/
theorem newSignature_wire {T : Translator S} {cred : Credential} {sk : S.F} {nym : S.G1} {rNym : S.F}
    {ipk : IssuerPublicKey} {D msg : Bytes} {rh eid : Int} {cri : CRI} {ρ : SigRand S}
    {st : SigType} {md m : Option (SignerMetadata S)} {sig : Signature} (hc : Proto.Int64 cri.epoch)
    (h : newSignature T cred sk nym rNym ipk D msg rh eid cri ρ st md = .ok (sig, m)) : sig.Wire := by
  cases st with
  | standard =>
    simp only [newSignature, Res.bind_eq_ok] at h
    obtain ⟨p, -, h⟩ := h
    exact finalise_wire hc h
  | eidNym =>
    simp only [newSignature, Res.bind_eq_ok] at h
    obtain ⟨_, -, _, -, p, -, h⟩ := h
    exact finalise_wire hc h
  | eidNymRhNym =>
    simp only [newSignature, Res.bind_eq_ok] at h
    obtain ⟨_, -, _, -, _, -, _, -, p, -, h⟩ := h
    exact finalise_wire hc h
  | smartcard => cases h
  | smartcardNoNyms => cases h
  | unknown n => cases h

variable (E : Env S)

/-! ## C01 -/

/-- C01. A generated key can be exported and imported: the public key imports to itself, with or without
naming the expected attributes, and so does the issuer key. Names are valid UTF-8. -/
theorem C01_generated_issuer_key_imports (names : List Bytes) (ρ : IssuerRand S)
    (hnodup : names.Nodup) (hutf : ∀ n ∈ names, Proto.utf8Valid n = true)
    (hlen : ρ.attrs.length = names.length) (hbar : ρ.barG1 ≠ 0) :
    ∃ key rawIpk rawKey, E.newKey names ρ = .ok key ∧
      Wire.ipkCodec.marshal key.ipk = .ok rawIpk ∧ Wire.keyCodec.marshal key = .ok rawKey ∧
      E.newPublicKeyFromBytes rawIpk [] = .ok key.ipk ∧
      E.newPublicKeyFromBytes rawIpk names = .ok key.ipk ∧ E.newKeyFromBytes rawKey = .ok key := by
  obtain ⟨key, h1, h2, h3⟩ := C01_generated_issuer_key_validates E.T Wire.ipkCodec.marshal names ρ hnodup hlen
    hbar (fun i hi => ⟨_, ipk_marshal (hi ▸ hutf)⟩)
  have hw := check_wire h3 (newIssuerKey_unknown h1)
  have hm := ipk_marshal (i := key.ipk) (h2 ▸ hutf)
  have hk := key_marshal (k := key) (h2 ▸ hutf)
  have hu := Wire.ipkCodec.rt _ _ hw hm
  refine ⟨key, _, _, by simp [Env.newKey, h1], hm, hk, ?_, ?_, ?_⟩
  · simp [Env.newPublicKeyFromBytes, hu, wrapErr, check_setHash h3, h3, checkNames]
  · simp [Env.newPublicKeyFromBytes, hu, wrapErr, check_setHash h3, h3, checkNames, h2]
  · simp [Env.newKeyFromBytes, Wire.keyCodec.rt key _ hw hk]

/-! ## C02 -/

theorem ImportError.msg_inj {a b : ImportError} (h : a.msg = b.msg) : a = b := by
  cases a <;> cases b <;> first | rfl | (exfalso; revert h; decide)

/-- What importing a key gives when the names are compared with an expected list. -/
def Spec.importOutcome (ipk : IssuerPublicKey) (expected : List Bytes) : Res IssuerPublicKey :=
  if expected = [] ∨ expected = ipk.attributeNames then .ok ipk
  else if expected.length ≠ ipk.attributeNames.length then .err ImportError.numAttributes.msg
  else .err ImportError.attributeName.msg

/-- C02. Importing with a list of expected names gives what importing without gives, compared with the list:
success if the lists are equal, else the number-of-attributes or the attribute-name error. If the import
without names fails, so does the one with names, with the same error. -/
theorem C02_import_attribute_names (raw : Bytes) (expected : List Bytes) :
    E.newPublicKeyFromBytes raw expected = match E.newPublicKeyFromBytes raw [] with
      | .ok ipk => Spec.importOutcome ipk expected
      | other => other := by
  unfold Env.newPublicKeyFromBytes Spec.importOutcome
  cases h1 : wrapErr ImportError.unmarshalling.msg (Wire.ipkCodec.unmarshal raw) with
  | err m => rfl
  | panic => rfl
  | ok i1 =>
    simp only [Res.ok_bind]
    cases h2 : wrapErr ImportError.hash.msg (setHash (S := S) Wire.ipkCodec.marshal i1) with
    | err m => rfl
    | panic => rfl
    | ok i2 =>
      simp only [Res.ok_bind]
      cases h3 : wrapErr ImportError.validation.msg (i2.check E.T Wire.ipkCodec.marshal) with
      | err m => rfl
      | panic => rfl
      | ok i3 =>
        simp only [Res.ok_bind, checkNames, List.length_nil, if_true, Res.pure_def, Res.recovered_ok]
        by_cases e0 : expected = []
        · simp [e0]
        · have : ¬ expected.length = 0 := by simpa using e0
          simp only [this, if_false, e0, false_or]
          by_cases el : expected.length = i3.attributeNames.length
          · by_cases en : expected = i3.attributeNames
            · simp [en]
            · simp [en, el]
          · have en : expected ≠ i3.attributeNames := fun h => el (congrArg _ h)
            simp [el, en]

/-- C02. A successful import with a non-empty list of expected names returns a key with exactly these
names, in order. -/
theorem C02_import_success (raw : Bytes) (expected : List Bytes) (ipk : IssuerPublicKey)
    (hne : expected ≠ []) (h : E.newPublicKeyFromBytes raw expected = .ok ipk) :
    ipk.attributeNames = expected := by
  rw [C02_import_attribute_names] at h
  cases h0 : E.newPublicKeyFromBytes raw [] with
  | ok i =>
    rw [h0] at h
    simp only [Spec.importOutcome, hne, false_or] at h
    split at h
    · next e => cases h; exact e.symm
    · split at h <;> cases h
  | err m => rw [h0] at h; cases h
  | panic => rw [h0] at h; cases h

/-- C02. The five documented categories: bytes that do not parse, a key that does not hash, and a key that
fails validation are reported with the first three. -/
theorem C02_import_categories (raw : Bytes) (expected : List Bytes) :
    (∀ m, Wire.ipkCodec.unmarshal raw = .err m →
      E.newPublicKeyFromBytes raw expected = .err ImportError.unmarshalling.msg) ∧
    (∀ i m, Wire.ipkCodec.unmarshal raw = .ok i → setHash (S := S) Wire.ipkCodec.marshal i = .err m →
      E.newPublicKeyFromBytes raw expected = .err ImportError.hash.msg) ∧
    (∀ i j m, Wire.ipkCodec.unmarshal raw = .ok i → setHash (S := S) Wire.ipkCodec.marshal i = .ok j →
      j.check E.T Wire.ipkCodec.marshal = .err m →
      E.newPublicKeyFromBytes raw expected = .err ImportError.validation.msg) := by
  refine ⟨fun m h => ?_, fun i m h h' => ?_, fun i j m h h' h'' => ?_⟩
  · simp [Env.newPublicKeyFromBytes, h, wrapErr]
  · simp [Env.newPublicKeyFromBytes, h, h', wrapErr]
  · simp [Env.newPublicKeyFromBytes, h, h', h'', wrapErr]

/-! ## C04 -/

/-- C04. At the byte level, a request is accepted for a nonce exactly when it parses, its proof is valid and
it carries that nonce, which has the scalar length. -/
theorem C04_bridge_request_nonce (raw : Bytes) (ipk : IssuerPublicKey) (nonce : Bytes) :
    E.requestVerify raw (.val ipk) nonce = .ok () ↔ ∃ req, Wire.reqCodec.unmarshal raw = .ok req ∧
      req.check E.T ipk = .ok () ∧ req.issuerNonce = some nonce ∧ nonce.length = S.scalarLen := by
  simp only [Env.requestVerify, Res.recovered_eq_ok, Res.bind_eq_ok, Dyn.get_val, Res.ok.injEq,
    Res.guardErr_eq_ok, decide_eq_false_iff_not, ne_eq, not_not, exists_eq_left']
  constructor
  · rintro ⟨req, h1, _, h2, _, h3, h4⟩
    refine ⟨req, h1, h2, ?_, h3⟩
    cases hn : req.issuerNonce with
    | none => exact absurd h2 (C04_request_without_nonce_refused E.T ipk req hn)
    | some b => rw [h4, hn]; rfl
  · rintro ⟨req, h1, h2, h3, h4⟩
    exact ⟨req, h1, (), h2, (), h4, by rw [h3]; rfl⟩

/-- C04. A request made for a nonce of the scalar length is produced, accepted for this nonce and for no
other. -/
theorem C04_bridge_request_roundtrip (sk rSk : S.F) (ipk : IssuerPublicKey) (hSk : S.G1)
    (hk : E.T.g1FromProto ipk.hSk = .ok hSk) (nonce : Bytes) (hn : nonce.length = S.scalarLen) :
    ∃ raw, E.requestSign (some sk) (.val ipk) nonce rSk = .ok raw ∧
      ∀ nonce', E.requestVerify raw (.val ipk) nonce' = .ok () ↔ nonce' = nonce := by
  obtain ⟨req, h1, h2, h3⟩ := C04_request_accepted E.T ipk sk rSk nonce hSk hk (by omega)
  have hw : req.Wire := by
    have := S.scalarLen_pos
    unfold CredRequest.Wire
    rw [h2]; rintro ⟨⟩; simp at hn; omega
  refine ⟨Proto.encode (Wire.req req), ?_, fun nonce' => ?_⟩
  · simp [Env.requestSign, hn, h1]
  · have hu := Wire.reqCodec.rt req _ hw (req_marshal req)
    rw [C04_bridge_request_nonce, hu]
    simp only [Res.ok.injEq, exists_eq_left', h3, h2, true_and, Option.some.injEq]
    constructor
    · rintro ⟨h, -⟩; exact h.symm
    · rintro rfl; exact ⟨rfl, hn⟩

/-- C04. Requests with a nonce of another length are not made. -/
theorem C04_bridge_request_bad_length (sk : Option S.F) (rSk : S.F) (ipk : Dyn IssuerPublicKey) (nonce : Bytes)
    (hn : nonce.length ≠ S.scalarLen) (raw : Bytes) : E.requestSign sk ipk nonce rSk ≠ .ok raw := by
  intro h
  simp only [Env.requestSign, Res.recovered_eq_ok, Res.bind_eq_ok, Res.guardErr_eq_ok,
    decide_eq_false_iff_not] at h
  obtain ⟨_, -, _, h, -⟩ := h
  exact h hn

/-! ## C06, C07 -/

/-- C07. The issuer's byte-level signing succeeds only for a request that parses and whose proof is valid for
the issuer's key, and for one typed attribute per name of the key (none hidden); the credential carries
these attributes. -/
theorem C07_bridge_issuer_refuses (key : Dyn IssuerKey) (request : Bytes) (attributes : List IdemixAttribute)
    (e s : S.F) (raw : Bytes) (h : E.credSign key request attributes e s = .ok raw) :
    ∃ k req values cred, key = .val k ∧ Wire.reqCodec.unmarshal request = .ok req ∧
      req.check E.T k.ipk = .ok () ∧ List.Forall₂ (Spec.Denotes S) attributes values ∧
      attributes.length = k.ipk.attributeNames.length ∧ Wire.credCodec.unmarshal raw = .ok cred ∧
      cred.attrs = values.map S.zrBytes := by
  simp only [Env.credSign, Res.recovered_eq_ok, Res.bind_eq_ok, Dyn.get_eq_ok] at h
  obtain ⟨k, h1, req, h2, vals, h3, cred, h4, h5⟩ := h
  obtain ⟨h6, h7, h8⟩ := C07_issuer_refuses_bad_requests E.T k req vals e s cred h4
  have h9 : List.Forall₂ (Spec.Denotes S) attributes vals := by
    refine (Res.mapM'_eq_ok.mp h3).imp fun a b hab => signAttr_ok.mp hab
  exact ⟨k, req, vals, cred, h1, h2, h6, h9, by rw [h9.length_eq, h7], Wire.credCodec.rt _ _ trivial h5, h8⟩

/-- C06. Issuance end to end through serialised messages: for distinct names, valid randomness and typed
attributes, one per name, the key is generated, the request accepted, the credential issued, and the user
accepts it against these attributes, any of which it may leave out of the comparison. -/
theorem C06_bridge_issuance (names : List Bytes) (ρ : IssuerRand S) (hnodup : names.Nodup)
    (hutf : ∀ n ∈ names, Proto.utf8Valid n = true) (hlen : ρ.attrs.length = names.length)
    (sk rSk : S.F) (nonce : Bytes) (hnonce : nonce.length = S.scalarLen)
    (attributes : List IdemixAttribute) (values : List S.F)
    (hden : List.Forall₂ (Spec.Denotes S) attributes values) (hattrs : attributes.length = names.length)
    (e s : S.F) (he : ρ.isk + e ≠ 0) (compared : List IdemixAttribute)
    (hcmp : ∀ (i : Nat) (a : IdemixAttribute), compared[i]? = some a → Spec.Hidden a ∨ attributes[i]? = some a) :
    ∃ key rawReq rawCred, E.newKey names ρ = .ok key ∧
      E.requestSign (some sk) (.val key.ipk) nonce rSk = .ok rawReq ∧
      E.requestVerify rawReq (.val key.ipk) nonce = .ok () ∧
      E.credSign (.val key) rawReq attributes e s = .ok rawCred ∧
      E.credVerify (some sk) (.val key.ipk) rawCred compared = .ok () := by
  obtain ⟨key, req, cred, h1, h2, h3, h4⟩ := C06_issued_credential_verifies E.T Wire.ipkCodec.marshal names ρ
    hnodup hlen (fun i hi => ⟨_, ipk_marshal (hi ▸ hutf)⟩) sk rSk nonce hnonce values
    (by rw [← hden.length_eq, hattrs]) e s he
  obtain ⟨h5, h6, h7⟩ := C07_issuer_refuses_bad_requests E.T key req values e s cred h3
  have hnon : req.issuerNonce = some nonce := by
    simp only [newCredRequest, Res.bind_eq_ok, Res.pure_def, Res.ok.injEq] at h2
    obtain ⟨_, -, _, -, rfl⟩ := h2
    rfl
  have hw : req.Wire := by
    have := S.scalarLen_pos
    unfold CredRequest.Wire
    rw [hnon]; rintro ⟨⟩; simp at hnonce; omega
  have hu := Wire.reqCodec.rt req _ hw (req_marshal req)
  have hm : Res.mapM' (signAttr S) attributes = .ok values :=
    Res.mapM'_eq_ok.mpr (hden.imp fun a b hab => signAttr_ok.mpr hab)
  refine ⟨key, Proto.encode (Wire.req req), Proto.encode (Wire.cred cred), by simp [Env.newKey, h1],
    ?_, ?_, ?_, ?_⟩
  · simp [Env.requestSign, hnonce, h2]
  · exact (C04_bridge_request_nonce E _ _ _).mpr ⟨req, hu, h5, hnon, hnonce⟩
  · simp [Env.credSign, hu, hm, h3]
  · have hc := Wire.credCodec.rt cred _ trivial (cred_marshal cred)
    have hv : verAttrs S cred 0 compared = .ok () := by
      rw [verAttrs_ok]
      intro i a ha
      rcases hcmp i a ha with h | h
      · exact .inl h
      · right
        obtain ⟨hi, hia⟩ := List.getElem?_eq_some_iff.mp h
        have hi' : i < values.length := by rw [← hden.length_eq]; exact hi
        have := List.forall₂_iff_get.mp hden
        refine ⟨values[i], ?_, ?_⟩
        · have := this.2 i hi hi'
          simpa [hia] using this
        · simp [h7, hi']
    simp [Env.credVerify, hc, hv, h4.2]

/-! ## C08 -/

/-- C08. The user's byte-level verification accepts exactly the bytes that parse to a credential which is
valid for the user's secret and the issuer's key and whose attribute at every position the caller did not
hide is the scalar of the caller's attribute. -/
theorem C08_bridge_attributes (sk : S.F) (ipk : IssuerPublicKey) (raw : Bytes)
    (attributes : List IdemixAttribute) :
    E.credVerify (some sk) (.val ipk) raw attributes = .ok () ↔
      ∃ cred, Wire.credCodec.unmarshal raw = .ok cred ∧ cred.ver E.T sk ipk = .ok () ∧
        ∀ (i : Nat) (a : IdemixAttribute), attributes[i]? = some a →
          Spec.Hidden a ∨ ∃ x : S.F, Spec.Denotes S a x ∧ cred.attrs[i]? = some (S.zrBytes x) := by
  simp only [Env.credVerify, Res.recovered_eq_ok, Res.bind_eq_ok, Dyn.get_val, Res.ok.injEq,
    exists_eq_left', Res.deref_some]
  constructor
  · rintro ⟨cred, h1, _, h2, h3⟩; 
    exact ⟨cred, h1, h3, by simpa using verAttrs_ok.mp h2⟩
  · rintro ⟨cred, h1, h3, h2⟩; 
    exact ⟨cred, h1, (), verAttrs_ok.mpr (by simpa using h2), h3⟩

/-! ## C09, C17 through bytes -/

theorem disclosureOf_getElem {attributes : List IdemixAttribute} {i : Nat} {d : UInt8}
    (h : (disclosureOf attributes)[i]? = some d) :
    ∃ a, attributes[i]? = some a ∧ (d = 0 ↔ Spec.Hidden a) := by
  simp only [disclosureOf, List.getElem?_map, Option.map_eq_some_iff] at h
  obtain ⟨a, ha, rfl⟩ := h
  refine ⟨a, ha, ?_⟩
  unfold Spec.Hidden
  split <;> simp_all

/-- The verifier reads the values of the disclosed attributes. -/
theorem shown_values {cred : Credential} {attributes : List IdemixAttribute}
    (hshown : ∀ (i : Nat) (a : IdemixAttribute), attributes[i]? = some a → Spec.Hidden a ∨
      ∃ x : S.F, Spec.Denotes S a x ∧ cred.attrs[i]?.map S.zrOfBytes = some x) :
    ∃ values, Res.mapM' (verifyAttr S) attributes = .ok values ∧
      Spec.SuppliesDisclosed (disclosureOf attributes) cred values := by
  obtain ⟨values, hvals⟩ : ∃ values, Res.mapM' (verifyAttr S) attributes = .ok values := by
    have : ∀ a ∈ attributes, ∃ o, verifyAttr S a = .ok o := by
      intro a ha
      obtain ⟨i, hi, hia⟩ := List.mem_iff_getElem.mp ha
      rcases hshown i a (by rw [List.getElem?_eq_getElem hi, hia]) with hh | ⟨x, hx, -⟩
      · exact ⟨none, verifyAttr_ok.mpr (.inl ⟨hh, rfl⟩)⟩
      · exact ⟨some x, verifyAttr_ok.mpr (.inr ⟨x, hx, rfl⟩)⟩
    clear hshown
    induction attributes with
    | nil => exact ⟨[], rfl⟩
    | cons a l ih =>
      obtain ⟨o, ho⟩ := this a (by simp)
      obtain ⟨os, hos⟩ := ih fun b hb => this b (by simp [hb])
      exact ⟨o :: os, by simp [ho, hos]⟩
  have hF := Res.mapM'_eq_ok.mp hvals
  have hsup : Spec.SuppliesDisclosed (disclosureOf attributes) cred values := by
    refine ⟨by simp [disclosureOf, hF.length_eq], fun i d b hd hne hb => ?_⟩
    obtain ⟨a, ha, hda⟩ := disclosureOf_getElem hd
    obtain ⟨hi, hia⟩ := List.getElem?_eq_some_iff.mp ha
    have hi' : i < values.length := by rw [← hF.length_eq]; exact hi
    have hv := (List.forall₂_iff_get.mp hF).2 i hi hi'
    simp only [List.get_eq_getElem, hia] at hv
    rcases hshown i a ha with hh | ⟨x, hx, hxb⟩
    · exact absurd (hda.mpr hh) hne
    · rw [hb] at hxb
      simp only [Option.map_some, Option.some.injEq] at hxb
      rcases verifyAttr_ok.mp hv with ⟨hh, -⟩ | ⟨y, hy, hyv⟩
      · exact absurd (hda.mpr hh) hne
      · have e1 := signAttr_ok.mpr hx
        rw [signAttr_ok.mpr hy] at e1
        cases e1
        rw [List.getElem?_eq_getElem hi', hyv, hxb]
  exact ⟨values, hvals, hsup⟩

/-- C09. Signing and verification through serialised credential, revocation information and signature: every
honest signature is produced and accepted, the disclosed attributes being those of the credential. -/
theorem C09_bridge_honest_signature (rawCred rawCri : Bytes) (cred : Credential) (cri : CRI)
    (hcred : Wire.credCodec.unmarshal rawCred = .ok cred) (hcri : Wire.criCodec.unmarshal rawCri = .ok cri)
    (ipk : IssuerPublicKey) (sk : S.F) (nym : S.G1) (rNym : S.F) (attributes : List IdemixAttribute)
    (hshown : ∀ (i : Nat) (a : IdemixAttribute), attributes[i]? = some a → Spec.Hidden a ∨
      ∃ x : S.F, Spec.Denotes S a x ∧ cred.attrs[i]?.map S.zrOfBytes = some x)
    (msg : Bytes) (rhIndex eidIndex : Int) (ρ : SigRand S)
    (h : HonestSigner E.T cred ipk sk nym rNym (disclosureOf attributes) rhIndex cri)
    (htape : ρ.rAttrs.length = (disclosureOf attributes).count 0) (hblind : ρ.r1 ≠ 0) (st : SigType)
    (vt : VerType) (hm : Spec.Matching st vt)
    (heid : st ≠ .standard → 0 ≤ eidIndex ∧ (disclosureOf attributes)[eidIndex.toNat]? = some 0)
    (revPk : Option E.dsa.Pk) (epoch : Int) :
    ∃ raw md, E.sign rawCred (some sk) (some nym) (some rNym) (.val ipk) attributes msg rhIndex eidIndex
        rawCri ρ st none = .ok (raw, md) ∧
      E.verify (.val ipk) raw msg attributes rhIndex eidIndex revPk epoch vt none = .ok () := by
  obtain ⟨values, hvals, hsup⟩ := shown_values hshown
  obtain ⟨sig, md, h1, h2⟩ := C09_honest_signature_verifies E.T cred ipk sk nym rNym
    (disclosureOf attributes) msg rhIndex eidIndex cri ρ h htape hblind st vt hm heid values hsup revPk epoch
  have hw := newSignature_wire (cri_unmarshal_wire hcri).1 h1
  have hu := Wire.sigCodec.rt sig _ hw (sig_marshal sig)
  exact ⟨Proto.encode (Wire.sig sig), md, by simp [Env.sign, hcred, hcri, h1],
    by simp [Env.verify, hu, hvals, h2]⟩

end Idemix.Dlog
