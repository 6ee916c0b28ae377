import Verif.Base.ProtoFields
import Verif.Dlog.PropsBridge
import Verif.Dlog.PropsVerify

/-!
# dlog scheme: revocation information, absence of panics, key import
-/

namespace Idemix.Dlog

variable {S : Suite} (E : Env S)

namespace Ex
/-- The toy surroundings of the bridge. -/
@[reducible] def env : Env Toy.suite :=
  ⟨Toy.tr, fun b => Toy.tr.g1FromProto (some ⟨b, []⟩), 1, Ecdsa.toy⟩
/-- Attribute names "a", "b", "c". -/
def utfNames : List Bytes := [[97], [98], [99]]
/-- Typed attributes. -/
def attributes : List IdemixAttribute := [⟨1, .bytes [7]⟩, ⟨2, .int 5⟩, ⟨2, .int64 6⟩]
/-- The key of the byte-level examples. -/
def bkey : IssuerKey := match env.newKey utfNames rnd with
  | .ok k => k
  | _ => key
end Ex

/-! Non-vacuity of the theorems of `PropsBridge`: the whole issuance runs through bytes. -/

example : Ex.utfNames.Nodup ∧ (∀ n ∈ Ex.utfNames, Proto.utf8Valid n = true) ∧
    Ex.rnd.attrs.length = Ex.utfNames.length ∧ Ex.rnd.barG1 ≠ 0 := by decide

set_option maxRecDepth 20000 in
example : Ex.env.newKey Ex.utfNames Ex.rnd = .ok Ex.bkey ∧
    ∃ rawReq rawCred, Ex.env.requestSign (some (4 : Toy.K)) (.val Ex.bkey.ipk) [6] (5 : Toy.K) = .ok rawReq ∧
      Ex.env.requestVerify rawReq (.val Ex.bkey.ipk) [6] = .ok () ∧
      Ex.env.requestVerify rawReq (.val Ex.bkey.ipk) [5] ≠ .ok () ∧
      Ex.env.credSign (.val Ex.bkey) rawReq Ex.attributes (2 : Toy.K) (3 : Toy.K) = .ok rawCred ∧
      Ex.env.credVerify (some (4 : Toy.K)) (.val Ex.bkey.ipk) rawCred Ex.attributes = .ok () ∧
      Ex.env.credVerify (some (4 : Toy.K)) (.val Ex.bkey.ipk) rawCred [⟨0, .other⟩, ⟨2, .int 6⟩] ≠ .ok () :=
  ⟨by decide, _, _, rfl, by decide, by decide, rfl, by decide, by decide⟩

example : List.Forall₂ (Spec.Denotes Toy.suite) Ex.attributes [Toy.hash [7], (5 : ℤ), (6 : ℤ)] :=
  .cons (.bytes _) (.cons (.int _) (.cons (.int64 _) .nil))

set_option maxRecDepth 20000 in
/-- Importing with the wrong number and with wrong names gives the two documented errors. -/
example : ∃ raw, Wire.ipkCodec.marshal Ex.bkey.ipk = .ok raw ∧
    Ex.env.newPublicKeyFromBytes raw Ex.utfNames = .ok Ex.bkey.ipk ∧
    Ex.env.newPublicKeyFromBytes raw [[97], [98]] = .err ImportError.numAttributes.msg ∧
    Ex.env.newPublicKeyFromBytes raw [[97], [99], [98]] = .err ImportError.attributeName.msg ∧
    Ex.env.newPublicKeyFromBytes (255 :: raw) [] = .err ImportError.unmarshalling.msg :=
  ⟨_, rfl, by decide, by decide, by decide, by decide⟩

namespace Ex
/-- Attributes shown with the credential `Ex.cred`: the first one is disclosed. -/
def shown : List IdemixAttribute := [⟨2, .int 1⟩, ⟨0, .other⟩, ⟨0, .other⟩]
end Ex

set_option maxRecDepth 20000 in
/-- A signature with both pseudonyms through bytes. -/
example : ∃ rawCred rawCri raw md, Wire.credCodec.marshal Ex.cred = .ok rawCred ∧
    Wire.criCodec.marshal Ex.cri = .ok rawCri ∧ Wire.credCodec.unmarshal rawCred = .ok Ex.cred ∧
    Wire.criCodec.unmarshal rawCri = .ok Ex.cri ∧ disclosureOf Ex.shown = Ex.discl ∧
    Ex.env.sign rawCred (some (4 : Toy.K)) (some Ex.nym) (some (2 : Toy.K)) (.val Ex.key.ipk) Ex.shown [8] 2 1
      rawCri Ex.sigRnd .eidNymRhNym none = .ok (raw, md) ∧
    Ex.env.verify (.val Ex.key.ipk) raw [8] Ex.shown 2 1 none 0 .expectEidNymRhNym none = .ok () ∧
    Ex.env.verify (.val Ex.key.ipk) raw [8] [⟨2, .int 2⟩, ⟨0, .other⟩, ⟨0, .other⟩] 2 1 none 0
      .expectEidNymRhNym none ≠ .ok () :=
  ⟨_, _, _, _, rfl, rfl, by decide, by decide, by decide, rfl, by decide, by decide⟩

/-! ## C13–C19 at the byte level -/

/-- The bridge accepts a signature only if it parses and the scheme accepts it for the disclosure and the
values the attributes stand for; so the theorems about `Signature.ver` apply to it. -/
theorem C13_bridge_verify_exact (ipk : IssuerPublicKey) (raw digest : Bytes)
    (attributes : List IdemixAttribute) (rhIndex eidIndex : Int) (revPk : Option E.dsa.Pk) (epoch : Int)
    (vt : VerType) (md : Option (SignerMetadata S)) :
    E.verify (.val ipk) raw digest attributes rhIndex eidIndex revPk epoch vt md = .ok () ↔
      ∃ sig values, Wire.sigCodec.unmarshal raw = .ok sig ∧
        List.Forall₂ (fun a o => (Spec.Hidden a ∧ o = none) ∨ ∃ x, Spec.Denotes S a x ∧ o = some x)
          attributes values ∧
        sig.ver E.T (attributes.map fun a => if a.type = 0 then 0 else 1) (some ipk) digest values rhIndex
          eidIndex revPk epoch vt md = .ok () := by
  have hmap : ∀ values, Res.mapM' (verifyAttr S) attributes = .ok values ↔
      List.Forall₂ (fun a o => (Spec.Hidden a ∧ o = none) ∨ ∃ x, Spec.Denotes S a x ∧ o = some x)
          attributes values := by
    intro values
    rw [Res.mapM'_eq_ok]
    constructor
    · intro h; exact h.imp fun a b hab => verifyAttr_ok.mp hab
    · intro h; exact h.imp fun a b hab => verifyAttr_ok.mpr hab
  simp only [Env.verify, Res.recovered_eq_ok, Res.bind_eq_ok, Dyn.get_val, Res.ok.injEq,
    exists_eq_left', disclosureOf]
  constructor
  · rintro ⟨sig, h1, vals, h2, h3⟩; exact ⟨sig, vals, h1, (hmap _).mp h2, h3⟩
  · rintro ⟨sig, vals, h1, h2, h3⟩; exact ⟨sig, h1, vals, (hmap _).mpr h2, h3⟩

/-- C15. Byte-level audits of the enrollment id: of a signature, and of a raw commitment. -/
theorem C15_bridge_audit_eid (ipk : IssuerPublicKey) (idx : Int) (raw eid : Bytes) (r : S.F) :
    (E.auditNymEid (.val ipk) idx raw eid (some r) .expectSignature = .ok () ↔
      ∃ sig, Wire.sigCodec.unmarshal raw = .ok sig ∧
        sig.auditNymEid E.T ipk (S.hashToZr eid) idx r = .ok ()) ∧
    (∀ vt, vt = .expectEidNym ∨ vt = .expectEidNymRhNym →
      (E.auditNymEid (.val ipk) idx raw eid (some r) vt = .ok () ↔
        auditRawNym E.T raw ipk (S.hashToZr eid) idx r = .ok ())) ∧
    ∀ n, E.auditNymEid (.val ipk) idx raw eid (some r) (.unknown n) ≠ .ok () := by
  refine ⟨?_, ?_, ?_⟩
  · simp [Env.auditNymEid]
  · rintro vt (rfl | rfl) <;> simp [Env.auditNymEid]
  · intro n h; simp [Env.auditNymEid] at h

/-- C15. Byte-level audits of the revocation handle. -/
theorem C15_bridge_audit_rh (ipk : IssuerPublicKey) (idx : Int) (raw rh : Bytes) (r : S.F) :
    (E.auditNymRh (.val ipk) idx raw rh (some r) .expectSignature = .ok () ↔
      ∃ sig, Wire.sigCodec.unmarshal raw = .ok sig ∧
        sig.auditNymRh E.T ipk (S.hashToZr rh) idx r = .ok ()) ∧
    (E.auditNymRh (.val ipk) idx raw rh (some r) .expectEidNymRhNym = .ok () ↔
        auditRawNym E.T raw ipk (S.hashToZr rh) idx r = .ok ()) ∧
    ∀ vt, vt = .expectEidNym ∨ (∃ n, vt = .unknown n) →
      E.auditNymRh (.val ipk) idx raw rh (some r) vt ≠ .ok () := by
  refine ⟨?_, ?_, ?_⟩
  · simp [Env.auditNymRh]
  · simp [Env.auditNymRh]
  · rintro vt (rfl | ⟨n, rfl⟩) h <;> simp [Env.auditNymRh] at h

/-- C17. Pseudonym signatures through bytes: made and accepted for every message. -/
theorem C17_bridge_nym_signature (ipk : IssuerPublicKey) (sk r rNym : S.F) (nym : S.G1)
    (hn : E.makeNym (some sk) (.val ipk) r = .ok (nym, rNym)) (msg : Bytes) (ρ : NymRand S) :
    ∃ raw, E.nymSign (some sk) (some nym) (some rNym) (.val ipk) msg ρ = .ok raw ∧
      E.nymVerify (.val ipk) (some nym) raw msg = .ok () := by
  simp only [Env.makeNym, Res.recovered_eq_ok, Dyn.get_val, Res.ok_bind, Res.deref_some] at hn
  obtain ⟨sig, h1, h2⟩ := C17_nym_signature_complete E.T ipk sk r rNym nym hn msg ρ
  have hu := Wire.nymSigCodec.rt sig _ trivial (nymSig_marshal sig)
  exact ⟨Proto.encode (Wire.nymSig sig), by simp [Env.nymSign, h1], by simp [Env.nymVerify, hu, h2]⟩

set_option maxRecDepth 8000 in
example : ∃ raw, Ex.env.nymSign (some (4 : Toy.K)) (some Ex.nym) (some (2 : Toy.K)) (.val Ex.key.ipk) [9]
      Ex.nymRnd = .ok raw ∧ Ex.env.nymVerify (.val Ex.key.ipk) (some Ex.nym) raw [9] = .ok () ∧
      Ex.env.nymVerify (.val Ex.key.ipk) (some Ex.nym) raw [8] ≠ .ok () := ⟨_, rfl, by decide, by decide⟩

/-! ## C20 -/

/-- What a revocation authority signs for an epoch, before hashing. -/
def Spec.criBody (epochPk : ECP2) (epoch alg : Int) : Bytes :=
  Proto.encode (Wire.cri ⟨epoch, some epochPk, [], alg, []⟩)

/-- The digest a revocation authority signs for an epoch. -/
def Spec.criDigest (E : Env S) (epochPk : ECP2) (epoch alg : Int) : Bytes :=
  E.dsa.sha256 (Proto.encode (Wire.cri ⟨epoch, some epochPk, [], alg, []⟩))

theorem criBody_inj {pk pk' : ECP2} {e e' a a' : Int} (he : Proto.Int64 e) (he' : Proto.Int64 e')
    (ha : Proto.Int32 a) (ha' : Proto.Int32 a')
    (h : Proto.encode (Wire.cri ⟨e, some pk, [], a, []⟩) = Proto.encode (Wire.cri ⟨e', some pk', [], a', []⟩)) :
    pk = pk' ∧ e = e' ∧ a = a' := by
  have h1 := Wire.criCodec.rt ⟨e, some pk, [], a, []⟩ _ ⟨he, ha⟩ rfl
  have h2 := Wire.criCodec.rt ⟨e', some pk', [], a', []⟩ _ ⟨he', ha'⟩ rfl
  have h3 : Wire.criCodec.unmarshal (Proto.encode (Wire.cri ⟨e, some pk, [], a, []⟩)) =
    .ok ⟨e, some pk, [], a, []⟩ := h1
  have h4 : Wire.criCodec.unmarshal (Proto.encode (Wire.cri ⟨e', some pk', [], a', []⟩)) =
    .ok ⟨e', some pk', [], a', []⟩ := h2
  rw [h, h4] at h3
  simp only [Res.ok.injEq, CRI.mk.injEq, Option.some.injEq, and_true, true_and] at h3
  exact ⟨h3.2.1.symm, h3.1.symm, h3.2.2.symm⟩

/-- C20, first half. Revocation information made by the authority parses to the requested epoch and
algorithm and verifies under its public key for them. -/
theorem C20_dlog_signed_verifies (key : E.dsa.Sk) (epoch alg : Int) (he : Proto.Int64 epoch) (wbb : S.G2)
    (ρ : E.dsa.Rnd) (raw : Bytes) (h : E.revSign (some key) epoch alg wbb ρ = .ok raw) :
    (∃ cri, Wire.criCodec.unmarshal raw = .ok cri ∧ cri.epoch = epoch ∧ cri.revocationAlg = alg) ∧
      E.revVerify (some (E.dsa.pub key)) raw epoch alg = .ok () := by
  simp only [Env.revSign, Env.createCRI, Res.recovered_eq_ok, Res.bind_eq_ok, Res.ofOption_some,
    Res.ok_bind, criBody, cri_marshal, Res.ok.injEq] at h
  obtain ⟨cri, ⟨sig, h1, h2⟩, h3⟩ := h
  split at h2
  · next ha =>
    subst ha
    simp only [Res.pure_def, Res.ok.injEq, if_true] at h2 h1
    have hw : cri.Wire := by rw [← h2]; exact ⟨he, by simp [Proto.Int32]⟩
    have hu := Wire.criCodec.rt cri _ hw (cri_marshal cri)
    rw [h3] at hu
    refine ⟨⟨cri, hu, by rw [← h2], by rw [← h2]⟩, ?_⟩
    have := E.dsa.complete _ _ _ _ h1
    have hun : Wire.epochPkUnknown raw = [] := by
      have e : Proto.encode (Wire.cri cri) = raw := h3
      rw [← e]
      exact Wire.epochPkUnknown_cri cri
    simp [Env.revVerify, hu, hun, Env.verifyEpochPK, ← h2, criBody, Wire.criU_nil, this]
  · cases h2

/-- C20. The authority can always produce the information if it can sign. -/
theorem C20_dlog_sign_succeeds (key : E.dsa.Sk) (epoch : Int) (wbb : S.G2) (ρ : E.dsa.Rnd)
    (hs : ∀ d, ∃ sig, E.dsa.sign key ρ d = .ok sig) :
    ∃ raw, E.revSign (some key) epoch 0 wbb ρ = .ok raw := by
  obtain ⟨sig, h⟩ := hs (Spec.criDigest E (E.T.g2ToProto S.genG2) epoch 0)
  simp only [Spec.criDigest] at h
  simp [Env.revSign, Env.createCRI, criBody, h]

/-- C20 is violated by the dlog bridge: information the authority issued for one epoch is accepted when
verification is asked for any other epoch and algorithm. -/
theorem C20_dlog_violated (key : E.dsa.Sk) (epoch : Int) (he : Proto.Int64 epoch) (wbb : S.G2)
    (ρ : E.dsa.Rnd) (raw : Bytes) (h : E.revSign (some key) epoch 0 wbb ρ = .ok raw) (epoch' alg' : Int) :
    E.revVerify (some (E.dsa.pub key)) raw epoch' alg' = .ok () := by
  have := (C20_dlog_signed_verifies E key epoch 0 he wbb ρ raw h).2
  unfold Env.revVerify at *
  exact this

/-- What is hashed when revocation information is verified: an epoch, an algorithm and an epoch key with the undeclared
fields `u`. -/
def Spec.criBodyU (epochPk : ECP2) (u : Bytes) (epoch alg : Int) : Bytes :=
  Proto.encode (Wire.criU ⟨epoch, some epochPk, [], alg, []⟩ u)

theorem criBody_unknown {raw : Bytes} {cri : CRI} (h : Wire.criCodec.unmarshal raw = .ok cri) {pk pk' : ECP2}
    {e e' a a' : Int} (he : Proto.Int64 e) (he' : Proto.Int64 e') (ha : Proto.Int32 a) (ha' : Proto.Int32 a')
    (hb : Spec.criBodyU pk (Wire.epochPkUnknown raw) e a = Spec.criBody pk' e' a') : pk = pk' ∧ e = e' ∧ a = a' := by
  obtain ⟨m, hm, hp⟩ : ∃ m, Proto.decode raw = some m ∧ Wire.criOf m = some cri := by
    cases hd : Proto.decode raw with
    | none => simp [Wire.criCodec, Proto.codec, hd, Res.ofOption] at h
    | some m => exact ⟨m, rfl, by simpa [Wire.criCodec, Proto.codec, hd] using h⟩
  -- the kept bytes decode to undeclared fields
  obtain ⟨u, hu, hn⟩ : ∃ u, Proto.decode (Wire.epochPkUnknown raw) = some u ∧
      ∀ t ∈ u, (t.1, t.2.wireType) ∉ [(1, 2), (2, 2), (3, 2), (4, 2)] := by
    rw [Wire.epochPkUnknown, hm, Option.map_some, Option.getD_some]
    have hall : ∀ b ∈ Proto.lens 2 m, ∃ x, Proto.decode b = some x := by
      have hg : ∃ o, Proto.getMsg 2 m = some o := by
        cases hg : Proto.getMsg 2 m with
        | none => simp [Wire.criOf, Wire.getEcp2, hg] at hp
        | some o => exact ⟨o, rfl⟩
      obtain ⟨o, hg⟩ := hg
      unfold Proto.getMsg at hg
      intro b hb
      generalize Proto.lens 2 m = l at hg hb
      cases l with
      | nil => cases hb
      | cons x l =>
        simp only [Option.map_map, Option.map_eq_some_iff] at hg
        obtain ⟨ms, hms, -⟩ := hg
        have : ∀ (l : List Bytes) (ms : List Proto.Msg), l.mapM Proto.decode = some ms → ∀ b ∈ l, ∃ x, Proto.decode b = some x := by
          intro l
          induction l with
          | nil => intro _ _ b hb; cases hb
          | cons y l ih =>
            intro ms h b hb
            rw [List.mapM_cons] at h
            cases hy : Proto.decode y with
            | none => simp [hy] at h
            | some z =>
              cases hl : l.mapM Proto.decode with
              | none => simp [hy, hl] at h
              | some zs =>
                rcases List.mem_cons.mp hb with rfl | hb
                · exact ⟨z, hy⟩
                · exact ih zs hl b hb
        exact this _ ms hms b hb
    generalize Proto.lens 2 m = l at hall
    induction l with
    | nil => exact ⟨[], rfl, fun _ h => absurd h List.not_mem_nil⟩
    | cons b l ih =>
      obtain ⟨x, hx⟩ := hall b (by simp)
      obtain ⟨u, hu, hn⟩ := ih fun b hb => hall b (by simp [hb])
      rw [List.flatMap_cons, Proto.decode_append (Proto.unknown_decodes Wire.ecp2Known hx), hu]
      refine ⟨_, rfl, fun t ht => ?_⟩
      rcases List.mem_append.mp ht with ht | ht
      · have h2 := (List.mem_filter.mp ht).2
        simp only [Wire.ecp2Known, Bool.not_eq_true', Bool.and_eq_false_iff, decide_eq_false_iff_not, beq_eq_false_iff_ne] at h2
        simp only [List.mem_cons, Prod.mk.injEq, List.not_mem_nil, or_false]
        omega
      · exact hn t ht
  have h1 : Wire.criU ⟨e, some pk, [], a, []⟩ (Wire.epochPkUnknown raw) = Wire.cri ⟨e', some pk', [], a', []⟩ := by
    have h1 := congrArg Proto.decode hb
    rw [Spec.criBodyU, Spec.criBody, Proto.decode_encode _ (Wire.criU_plain _ _), Proto.decode_encode _ (Wire.cri_plain _),
      Option.some.injEq] at h1
    exact h1
  have l2 : Proto.lens 2 (Wire.criU ⟨e, some pk, [], a, []⟩ (Wire.epochPkUnknown raw)) =
      [Proto.encode (Wire.ecp2 pk) ++ Wire.epochPkUnknown raw] := by
    have hl : ∀ (x : Bytes) (r : Proto.Msg), Proto.lens 2 ((2, .len x) :: r) = x :: Proto.lens 2 r := fun _ _ => rfl
    simp [Wire.criU, Wire.msgU, Proto.lens_append, Proto.lens_intF, Proto.lens_bytesF, hl]
  have l2' : Proto.lens 2 (Wire.cri ⟨e', some pk', [], a', []⟩) = [Proto.encode (Wire.ecp2 pk')] := by
    simp [Wire.cri, Proto.lens_append, Proto.lens_intF, Proto.lens_bytesF, Proto.lens_msgF]
  have hpk : pk = pk' := by
    rw [h1, l2'] at l2
    have h2 := congrArg Proto.decode (List.head_eq_of_cons_eq l2)
    rw [Proto.decode_append (Proto.decode_encode _ (Wire.ecp2_plain pk)), hu, Proto.decode_encode _ (Wire.ecp2_plain pk'),
      Option.map_some, Option.some.injEq] at h2
    have h3 := congrArg Wire.ecp2Of h2
    have k1 := Proto.lens_insert hn (Wire.ecp2 pk) [] (k := 1) (by simp)
    have k2 := Proto.lens_insert hn (Wire.ecp2 pk) [] (k := 2) (by simp)
    have k3 := Proto.lens_insert hn (Wire.ecp2 pk) [] (k := 3) (by simp)
    have k4 := Proto.lens_insert hn (Wire.ecp2 pk) [] (k := 4) (by simp)
    simp only [List.append_nil] at k1 k2 k3 k4
    have h4 : Wire.ecp2Of (Wire.ecp2 pk ++ u) = Wire.ecp2Of (Wire.ecp2 pk) := by
      simp only [Wire.ecp2Of, Proto.getBytes, k1, k2, k3, k4]
    rw [h4, Wire.ecp2Of_ecp2, Wire.ecp2Of_ecp2] at h3
    exact h3.symm
  subst hpk
  have v : ∀ k, Proto.varints k (Wire.criU ⟨e, some pk, [], a, []⟩ (Wire.epochPkUnknown raw)) =
      Proto.varints k (Wire.cri ⟨e, some pk, [], a, []⟩) := by
    intro k
    simp [Wire.criU, Wire.cri, Wire.msgU, Proto.msgF, Proto.varints_append, Proto.varints]
  have w1 := congrArg (Proto.getInt64 1) h1
  have w4 := congrArg (Proto.getInt32 4) h1
  simp only [Proto.getInt64, Proto.getInt32, v] at w1 w4
  have c1 := Wire.criOf_cri ⟨e, some pk, [], a, []⟩ ⟨he, ha⟩
  have c2 := Wire.criOf_cri ⟨e', some pk, [], a', []⟩ ⟨he', ha'⟩
  simp only [Wire.criOf, Option.bind_eq_bind, Option.bind_eq_some_iff, Option.some.injEq, CRI.mk.injEq] at c1 c2
  obtain ⟨_, -, c1, -, -, c1', -⟩ := c1
  obtain ⟨_, -, c2, -, -, c2', -⟩ := c2
  refine ⟨rfl, ?_, ?_⟩
  · rw [← c1, ← c2]; exact w1
  · rw [← c1', ← c2']; exact w4

/-- C20, what the dlog bridge does guarantee (partial: the epoch and algorithm are those carried by the
information, not those asked for; and the revocation data are not covered by the signature). Let `issued`
list what the authority signed. Accepted information carries an epoch, algorithm and epoch key that the
authority signed, or it contains a signature on a digest that the authority never signed, or it collides under
SHA-256 with something that the authority signed. -/
theorem C20_dlog_partial (pk : E.dsa.Pk) (raw : Bytes) (epoch alg : Int)
    (issued : List (ECP2 × Int × Int))
    (hissued : ∀ x ∈ issued, Proto.Int64 x.2.1 ∧ Proto.Int32 x.2.2)
    (h : E.revVerify (some pk) raw epoch alg = .ok ()) :
    ∃ cri epochPk, Wire.criCodec.unmarshal raw = .ok cri ∧ cri.epochPk = some epochPk ∧
      ((epochPk, cri.epoch, cri.revocationAlg) ∈ issued ∨
       (∃ d, E.dsa.verify pk d cri.epochPkSig = true ∧ ∀ x ∈ issued, d ≠ Spec.criDigest E x.1 x.2.1 x.2.2) ∨
       ∃ x ∈ issued, ∃ b, b = Spec.criBodyU epochPk (Wire.epochPkUnknown raw) cri.epoch cri.revocationAlg ∧
         b ≠ Spec.criBody x.1 x.2.1 x.2.2 ∧ E.dsa.sha256 b = E.dsa.sha256 (Spec.criBody x.1 x.2.1 x.2.2)) := by
  simp only [Env.revVerify, Env.verifyEpochPK, Res.recovered_eq_ok, Res.bind_eq_ok, Res.ofOption_eq_ok,
    Res.ok.injEq, exists_eq_left', Option.some.injEq, criBody, Res.guardErr_eq_ok,
    Bool.not_eq_false'] at h
  obtain ⟨cri, h1, epk, h2, h3⟩ := h
  have hw := cri_unmarshal_wire h1
  refine ⟨cri, epk, h1, h2, ?_⟩
  by_cases hf : ∀ x ∈ issued, E.dsa.sha256 (Spec.criBodyU epk (Wire.epochPkUnknown raw) cri.epoch cri.revocationAlg) ≠
      Spec.criDigest E x.1 x.2.1 x.2.2
  · exact .inr (.inl ⟨_, h3, hf⟩)
  · push Not at hf
    obtain ⟨⟨p, e, a⟩, hx, heq⟩ := hf
    by_cases hm : Spec.criBodyU epk (Wire.epochPkUnknown raw) cri.epoch cri.revocationAlg = Spec.criBody p e a
    · obtain ⟨rfl, e2, e3⟩ := criBody_unknown h1 hw.1 (hissued _ hx).1 hw.2 (hissued _ hx).2 hm
      left; rw [e2, e3]; exact hx
    · exact .inr (.inr ⟨_, hx, _, rfl, hm, heq⟩)

set_option maxRecDepth 8000 in
example : ∃ raw, Ex.env.revSign (some (9 : UInt8)) 3 0 (1 : Toy.K) () = .ok raw ∧
    Ex.env.revVerify (some (9 : UInt8)) raw 3 0 = .ok () ∧ Ex.env.revVerify (some (9 : UInt8)) raw 4 1 = .ok () ∧
    Ex.env.revVerify (some (8 : UInt8)) raw 3 0 ≠ .ok () :=
  ⟨_, rfl, by decide, by decide, by decide⟩

/-! ## C22 -/

/-- C22. No entry point of the dlog bridge that handles keys, credentials, signatures, pseudonyms, audits or
revocation information panics, whatever the arguments, including nil pointers, keys of another type,
malformed bytes and indices out of range. -/
theorem C22_bridge_never_panics (E : Env S) :
    (∀ names ρ, E.newKey names ρ ≠ .panic) ∧ (∀ raw, E.newKeyFromBytes raw ≠ .panic) ∧
    (∀ raw expected, E.newPublicKeyFromBytes raw expected ≠ .panic) ∧
    (∀ sk ipk nonce r, E.requestSign sk ipk nonce r ≠ .panic) ∧
    (∀ raw ipk nonce, E.requestVerify raw ipk nonce ≠ .panic) ∧
    (∀ key req attrs e s, E.credSign key req attrs e s ≠ .panic) ∧
    (∀ sk ipk cred attrs, E.credVerify sk ipk cred attrs ≠ .panic) ∧
    (∀ cred sk nym r ipk attrs msg rh eid cri ρ st md,
      E.sign cred sk nym r ipk attrs msg rh eid cri ρ st md ≠ .panic) ∧
    (∀ ipk sig digest attrs rh eid revPk epoch vt md,
      E.verify ipk sig digest attrs rh eid revPk epoch vt md ≠ .panic) ∧
    (∀ ipk idx sig id r vt, E.auditNymEid ipk idx sig id r vt ≠ .panic) ∧
    (∀ ipk idx sig id r vt, E.auditNymRh ipk idx sig id r vt ≠ .panic) ∧
    (∀ raw, E.userKeyFromBytes raw ≠ .panic) ∧ (∀ sk ipk r, E.makeNym sk ipk r ≠ .panic) ∧
    (∀ raw, E.nymFromBytes raw ≠ .panic) ∧ (∀ raw, E.publicNymFromBytes raw ≠ .panic) ∧
    (∀ sk nym r ipk digest ρ, E.nymSign sk nym r ipk digest ρ ≠ .panic) ∧
    (∀ ipk nym sig digest, E.nymVerify ipk nym sig digest ≠ .panic) ∧
    (∀ key epoch alg wbb ρ, E.revSign key epoch alg wbb ρ ≠ .panic) ∧
    (∀ pk raw epoch alg, E.revVerify pk raw epoch alg ≠ .panic) := by
  refine ⟨?_, ?_, ?_, ?_, ?_, ?_, ?_, ?_, ?_, ?_, ?_, ?_, ?_, ?_, ?_, ?_, ?_, ?_, ?_⟩
  case refine_12 =>
    intro raw h
    unfold Env.userKeyFromBytes Res.guardErr at h
    split at h <;> cases h
  all_goals (intros; exact Res.recovered_ne_panic _ _)

/-- C22 is violated by one function of the bridge: asking the dlog issuer for commitment bases panics. -/
theorem C22_bases_violated (E : Env S) : E.bases = .panic := rfl

/-- The recovery handlers are needed: the scheme's own functions do panic, for instance on a byte attribute
whose value is not a byte string, on a nil secret key and on an index out of range. -/
example : signAttr Toy.suite ⟨1, .int 3⟩ = .panic ∧
    Ex.env.makeNym none (.val Ex.key.ipk) (2 : Toy.K) = .err "failure" ∧
    auditSigNym Toy.tr (some ⟨some ⟨[6], []⟩, none⟩) Ex.key.ipk (0 : Toy.K) (-1) (1 : Toy.K) = .panic := by
  decide

/-! ## C45 (dlog part) -/

/-- C45. A user secret key is imported iff it has the scalar length, and then decodes to its value; an
exported key imports to itself. -/
theorem C45_dlog_user_key (raw : Bytes) (x : S.F) :
    (E.userKeyFromBytes raw = .ok x ↔ raw.length = S.scalarLen ∧ x = S.zrOfBytes raw) ∧
      E.userKeyFromBytes (S.zrBytes x) = .ok x := by
  constructor
  · simp only [Env.userKeyFromBytes, Res.bind_eq_ok, Res.guardErr_eq_ok, decide_eq_false_iff_not, ne_eq,
      not_not, Res.pure_def, Res.ok.injEq]
    constructor
    · rintro ⟨_, h1, rfl⟩; exact ⟨h1, rfl⟩
    · rintro ⟨h1, rfl⟩; exact ⟨(), h1, rfl⟩
  · simp [Env.userKeyFromBytes]

/-- The documented format of an exported pseudonym key: scalar, then the two coordinates of the point, of
`CoordByteSize` each. -/
def Spec.nymKeyBytes (E : Env S) (nym : S.G1) (r : S.F) : Bytes :=
  S.zrBytes r ++ (E.T.g1ToProto nym).x ++ (E.T.g1ToProto nym).y

/-- C45. A pseudonym key in the documented format imports to itself, for every curve whose coordinates have
the announced length. -/
theorem C45_dlog_nym_roundtrip (nym : S.G1) (r : S.F) (hx : (E.T.g1ToProto nym).x.length = E.coordLen) :
    E.nymFromBytes (Spec.nymKeyBytes E nym r) = .ok (nym, r) := by
  have h1 : goSlice (Spec.nymKeyBytes E nym r) 0 S.scalarLen = .ok (S.zrBytes r) := by
    have : ¬ (S.scalarLen < 0 ∨ (Spec.nymKeyBytes E nym r).length < S.scalarLen) := by
      simp [Spec.nymKeyBytes]
    rw [goSlice, if_neg this]
    simp [Spec.nymKeyBytes]
  have h2 : goSlice (Spec.nymKeyBytes E nym r) S.scalarLen (S.scalarLen + E.coordLen) =
      .ok (E.T.g1ToProto nym).x := by
    have : ¬ (S.scalarLen + E.coordLen < S.scalarLen ∨
        (Spec.nymKeyBytes E nym r).length < S.scalarLen + E.coordLen) := by
      simp [Spec.nymKeyBytes, hx]
    rw [goSlice, if_neg this]
    simp [Spec.nymKeyBytes, List.take_append, ← hx]
  have h3 : goSlice (Spec.nymKeyBytes E nym r) (S.scalarLen + E.coordLen)
      (Spec.nymKeyBytes E nym r).length = .ok (E.T.g1ToProto nym).y := by
    have : ¬ ((Spec.nymKeyBytes E nym r).length < S.scalarLen + E.coordLen ∨
        (Spec.nymKeyBytes E nym r).length < (Spec.nymKeyBytes E nym r).length) := by
      simp [Spec.nymKeyBytes, hx]
    rw [goSlice, if_neg this, List.take_length]
    simp [Spec.nymKeyBytes, ← hx, List.drop_append]
  simp [Env.nymFromBytes, makeNymFromBytes, h1, h2, h3, E.T.g1_rt]

/-- C45. Pseudonym keys shorter than scalar and one coordinate are refused. -/
theorem C45_dlog_nym_too_short (raw : Bytes) (h : raw.length < S.scalarLen + E.coordLen) (x : S.G1 × S.F) :
    E.nymFromBytes raw ≠ .ok x := by
  intro hx
  simp only [Env.nymFromBytes, Res.recovered_eq_ok, makeNymFromBytes, Res.bind_eq_ok] at hx
  obtain ⟨_, -, b, hb, -⟩ := hx
  unfold goSlice at hb
  rw [if_pos (.inr h)] at hb
  cases hb

/-- C45. With the AMCL translators pseudonym keys and public pseudonyms of any other length than the
documented one are refused. -/
theorem C45_dlog_amcl_exact_length (c : Nat) (hT : ∀ o, E.T.g1FromProto o = Fp256bn.g1FromProto S c o)
    (hr : ∀ b, E.rawG1 b = Fp256bn.g1FromRawBytes S c b) (hc : E.coordLen = c) (raw : Bytes) :
    (∀ x, E.nymFromBytes raw = .ok x → raw.length = S.scalarLen + 2 * c) ∧
    (∀ P, E.publicNymFromBytes raw = .ok P → raw.length = 2 * c) := by
  constructor
  · intro x hx
    simp only [Env.nymFromBytes, Res.recovered_eq_ok, makeNymFromBytes, Res.bind_eq_ok, hT, hc] at hx
    obtain ⟨_, -, b, -, y, hy, pk, hpk, -⟩ := hx
    simp only [Fp256bn.g1FromProto] at hpk
    split at hpk
    · cases hpk
    · next hl =>
      push Not at hl
      unfold goSlice at hy
      split at hy
      · cases hy
      · next hs =>
        cases hy
        have := hl.2
        simp only [List.take_length, List.length_drop] at this
        omega
  · intro P hP
    simp only [Env.publicNymFromBytes, Res.recovered_eq_ok, hr, Fp256bn.g1FromRawBytes,
      Fp256bn.g1FromProto] at hP
    split at hP
    · cases hP
    · next hl =>
      push Not at hl
      have h1 := hl.1
      have h2 := hl.2
      simp only [halves, List.length_take, List.length_drop] at h1 h2
      omega

/-- C45 is violated with the gnark translator: an exported pseudonym key followed by any further bytes
imports to the same key. -/
theorem C45_dlog_gurvy_violated (c : Nat) (L : GurvyLayout S c)
    (hT : E.T = gurvy c L) (hc : E.coordLen = c) (nym : S.G1) (r : S.F) (extra : Bytes) :
    E.nymFromBytes (Spec.nymKeyBytes E nym r ++ extra) = .ok (nym, r) := by
  obtain ⟨hx, hy⟩ := halves_len (b := S.g1Bytes nym) (c := c) (by rw [S.g1Bytes_len, L.g1Len])
  have e0 : E.T.g1ToProto nym = halves (S.g1Bytes nym) := by rw [hT]; rfl
  have eb : Spec.nymKeyBytes E nym r ++ extra =
      S.zrBytes r ++ ((halves (S.g1Bytes nym)).x ++ ((halves (S.g1Bytes nym)).y ++ extra)) := by
    simp [Spec.nymKeyBytes, e0]
  rw [eb]
  generalize hraw : S.zrBytes r ++ ((halves (S.g1Bytes nym)).x ++ ((halves (S.g1Bytes nym)).y ++ extra)) = raw
  have hlen : raw.length = S.scalarLen + (c + (c + extra.length)) := by
    rw [← hraw]; simp [hx, hy]
  have h1 : goSlice raw 0 S.scalarLen = .ok (S.zrBytes r) := by
    rw [goSlice, if_neg (by omega), ← hraw]
    simp
  have h2 : goSlice raw S.scalarLen (S.scalarLen + c) = .ok (halves (S.g1Bytes nym)).x := by
    rw [goSlice, if_neg (by omega), ← hraw]
    simp [List.take_append, hx]
  have h3 : goSlice raw (S.scalarLen + c) raw.length = .ok ((halves (S.g1Bytes nym)).y ++ extra) := by
    rw [goSlice, if_neg (by omega), List.take_length, ← hraw]
    simp [List.drop_append, hx]
  have h4 : E.T.g1FromProto (some ⟨(halves (S.g1Bytes nym)).x, (halves (S.g1Bytes nym)).y ++ extra⟩) =
      .ok nym := by
    rw [hT]
    simp only [gurvy, Gurvy.g1FromProto]
    have : slotOf (halves (S.g1Bytes nym)).x.length ((halves (S.g1Bytes nym)).y ++ extra) =
        (halves (S.g1Bytes nym)).y := by
      unfold slotOf
      rw [hx, List.take_append, hy]
      simp [← hy]
    rw [this, halves_join]; simp
  simp [Env.nymFromBytes, makeNymFromBytes, hc, h1, h2, h3, h4]

end Idemix.Dlog
