import Verif.Dlog.SigProve
import Verif.Dlog.PropsSig

/-!
# C09, C16: honest signatures and their metadata
-/

namespace Idemix.Dlog

variable {S : Suite} (T : Translator S)

/-- An honest signer: the credential verifies for the user secret and is not trivial, the pseudonym was
made from that secret, there is one attribute and one disclosure byte per attribute name, the revocation
handle is hidden, and the revocation information has a readable key and the `NO_REVOCATION` algorithm. -/
structure HonestSigner (cred : Credential) (ipk : IssuerPublicKey) (sk : S.F) (nym : S.G1) (rNym : S.F)
    (D : Bytes) (rhIndex : Int) (cri : CRI) : Prop where
  cred_verifies : cred.ver T sk ipk = .ok ()
  cred_nontrivial : ∃ A, T.g1FromProto cred.a = .ok A ∧ A ≠ 0
  nym_made : makeNym T sk ipk rNym = .ok (nym, rNym)
  one_attr_per_name : cred.attrs.length = ipk.attributeNames.length
  one_byte_per_name : D.length = ipk.attributeNames.length
  rh_hidden : 0 ≤ rhIndex ∧ D[rhIndex.toNat]? = some 0
  cri_alg : cri.revocationAlg = 0
  cri_key : ∃ P, T.g2FromProto cri.epochPk = .ok P

/-- The randomness drawn by a signer of type `st`: one mask per hidden attribute and a non-zero blinding
scalar `r1` (`NewRandomZr` returns 0 with negligible probability only). Samples that the type does not
draw are fixed to 0. -/
structure SigTape (st : SigType) (D : Bytes) (ρ : SigRand S) : Prop where
  masks : ρ.rAttrs.length = D.count 0
  blinding : ρ.r1 ≠ 0
  noEid : st.hasEid = false → ρ.rEid = 0 ∧ ρ.rREid = 0
  noRh : st.hasRh = false → ρ.rRh = 0 ∧ ρ.rRRh = 0

/-- The verifier supplies the credential's values at the disclosed positions. -/
def Spec.SuppliesDisclosed (D : Bytes) (cred : Credential) (values : List (Option S.F)) : Prop :=
  D.length ≤ values.length ∧ ∀ (i : Nat) (d : UInt8) (a : Bytes), D[i]? = some d → d ≠ 0 →
    cred.attrs[i]? = some a → values[i]? = some (some (S.zrOfBytes a))

/-- The verification types meant for a signature type. -/
inductive Spec.Matching : SigType → VerType → Prop
  | standard : Matching .standard .expectStandard
  | eidNym : Matching .eidNym .expectEidNym
  | eidNymRhNym : Matching .eidNymRhNym .expectEidNymRhNym
  | bestEffortStandard : Matching .standard .bestEffort
  | bestEffortEid : Matching .eidNym .bestEffort
  | bestEffortRh : Matching .eidNymRhNym .bestEffort
  | basic : Matching .standard .basic

variable {T}

theorem Spec.Matching.sigType {st : SigType} {vt : VerType} (h : Spec.Matching st vt) :
    st = .standard ∨ st = .eidNym ∨ st = .eidNymRhNym := by cases h <;> simp

theorem HonestSigner.pre {cred : Credential} {ipk : IssuerPublicKey} {sk : S.F} {nym : S.G1} {rNym : S.F}
    {D : Bytes} {rhIndex : Int} {cri : CRI}
    (h : HonestSigner T cred ipk sk nym rNym D rhIndex cri) :
    ∃ (k : Spec.Key S) (u : Holder S), (∀ ρ : SigRand S, ρ.rAttrs.length = D.count 0 →
        SignPre T cred ipk D rhIndex cri ρ k u) ∧ u.sk = sk ∧ u.nym = nym ∧
      u.rNym = rNym ∧ u.B = Spec.signed k u.sk u.s u.attrs ∧
      Spec.IsCredential k u.A u.e u.s u.sk u.attrs ∧ u.A ≠ 0 ∧ u.nym = Spec.nym k u.sk u.rNym := by
  obtain ⟨k, A, B, h1, h2, h3, h4, h5, h6⟩ := credVer_ok_iff.mp h.cred_verifies
  obtain ⟨A', h7, h8⟩ := h.cred_nontrivial
  obtain rfl : A = A' := by simpa using h2.symm.trans h7
  refine ⟨k, ⟨A, B, S.zrOfBytes cred.e, S.zrOfBytes cred.s, sk, nym, rNym,
    cred.attrs.map S.zrOfBytes⟩, fun ρ ht => ⟨h1, h2, h3, rfl, rfl, rfl, ?_, h.one_byte_per_name,
    h.rh_hidden.1, ?_, h.cri_alg, ht, ?_, count_take_lt h.rh_hidden.2⟩, rfl, rfl, rfl, h5, h6, h8, ?_⟩
  · rw [h.one_attr_per_name, h.one_byte_per_name]
  · have := (List.getElem?_eq_some_iff.mp h.rh_hidden.2).1
    have := h.rh_hidden.1
    omega
  · rw [h.one_byte_per_name, ← h.one_attr_per_name]; exact h4
  · have := h.nym_made
    simp only [makeNym, h1.hSk, h1.hRand, Res.ok_bind, Res.pure_def, Res.ok.injEq, Prod.mk.injEq,
      and_true] at this
    exact this.symm

/-- Verification decisions on the wire form of a signature. -/
theorem toWire_checks {cri : CRI} {v : Spec.Sig S} {st : SigType} {vt : VerType} (hm : Spec.Matching st vt)
    (he : v.eid.isSome = st.hasEid) (hr : v.rh.isSome = st.hasRh) :
    verTypeChecks (toWire T cri v) vt = .ok () ∧ verifyEid (toWire T cri v) vt = v.eid.isSome ∧
      verifyRh (toWire T cri v) vt = v.rh.isSome := by
  rcases hve : v.eid with _ | ⟨a, b⟩ <;> rcases hvr : v.rh with _ | ⟨c, d⟩ <;> rw [hve] at he <;>
    rw [hvr] at hr <;> cases hm <;> (first | (exfalso; revert he hr; simp [SigType.hasEid, SigType.hasRh]; done) | skip) <;>
    simp [verTypeChecks, verifyEid, verifyRh, toWire, hve, hvr, AttrNym.missing, Res.guardErr]

/-- The wire form of an honest signature is accepted. -/
theorem honest_ver {RevPk : Type} {cred : Credential} {ipk : IssuerPublicKey} {D msg : Bytes}
    {rhIndex eidIndex : Int} {cri : CRI} {ρ : SigRand S} {k : Spec.Key S} {u : Holder S}
    (h : SignPre T cred ipk D rhIndex cri ρ k u) (hB : u.B = Spec.signed k u.sk u.s u.attrs)
    (hcred : Spec.IsCredential k u.A u.e u.s u.sk u.attrs) (hA : u.A ≠ 0) (hr : ρ.r1 ≠ 0)
    (hn : u.nym = Spec.nym k u.sk u.rNym) (hcri : ∃ P, T.g2FromProto cri.epochPk = .ok P)
    {eid rh : Option (AttrNymPart S)}
    (hpe : ∀ p, eid = some p → 0 ≤ eidIndex ∧ GoodPart k u D ρ eidIndex.toNat p)
    (hpr : ∀ p, rh = some p → GoodPart k u D ρ rhIndex.toNat p) {st : SigType} {vt : VerType}
    (hm : Spec.Matching st vt) (he : eid.isSome = st.hasEid) (hr' : rh.isSome = st.hasRh)
    {values : List (Option S.F)} (hvals : (dis D u.attrs).map some = dis D values)
    {md : Option (SignerMetadata S)} (v : Spec.Sig S)
    (hv : v = honest k u D ρ eid rh (honestChallenge k u D ρ eid rh ipk.hash msg))
    (hme : MetaOk T ipk k.hRand eidIndex v.eid (·.eidNymAuditData) (·.eidNym) md)
    (hmr : MetaOk T ipk k.hRand rhIndex v.rh (·.rhNymAuditData) (·.rhNym) md)
    (revPk : RevPk) (epoch : Int) :
    (toWire T cri v).ver T D (some ipk) msg values rhIndex eidIndex revPk epoch vt md = .ok () := by
  have hve : v.eid.isSome = st.hasEid := by rw [hv]; simpa [honest] using he
  have hvr : v.rh.isSome = st.hasRh := by rw [hv]; simpa [honest] using hr'
  obtain ⟨c1, c2, c3⟩ := toWire_checks (T := T) (cri := cri) hm hve hvr
  refine ver_ok_iff.mpr ⟨ipk, k, v, dis D u.attrs, rfl, ⟨h.reads, toWire_decodes T cri v,
    toWire_nym v.eid c2, toWire_nym v.rh c3, h.rh_nonneg, h.rh_lt, h.D_len, ⟨_, rfl, rfl⟩, c1, hcri, ?_,
    h.bases, h.rh_resp, ?_, hvals, dis_length D _ (le_of_eq h.u_len.symm), hme, hmr⟩,
    honest_accepted hB hcred hA hr h.u_len h.tape hn (fun p hp => (hpe p hp).2) hpr v hv⟩
  · rw [hv]
    simp [honest, h.tape, hid_length D _ (le_of_eq h.u_len.symm)]
  · intro hs
    rw [hv] at hs
    obtain ⟨p, hp⟩ : ∃ p, eid = some p := Option.isSome_iff_exists.mp (by simpa [honest] using hs)
    obtain ⟨q1, q2⟩ := hpe p hp
    exact ⟨q1, q2.lt, q2.resp⟩

/-- Disclosed values as the verifier supplies them. -/
theorem supplies_dis {D : Bytes} {cred : Credential} {values : List (Option S.F)}
    (h : Spec.SuppliesDisclosed D cred values) (hl : cred.attrs.length = D.length) :
    (dis D (cred.attrs.map S.zrOfBytes)).map some = dis D values := by
  rw [map_dis]
  refine dis_eq_of_pos D _ _ (by simp [hl]) h.1 fun i d hd hne => ?_
  have hi : i < cred.attrs.length := by rw [hl]; exact (List.getElem?_eq_some_iff.mp hd).1
  rw [h.2 i d _ hd hne (List.getElem?_eq_getElem hi)]
  simp [hi]

/-- Without metadata the attribute pseudonym of a hidden attribute is always produced. -/
theorem attrNymPart_fresh {cred : Credential} {ipk : IssuerPublicKey} {D : Bytes} {rhIndex : Int}
    {cri : CRI} {ρ : SigRand S} {k : Spec.Key S} {u : Holder S} (h : SignPre T cred ipk D rhIndex cri ρ k u)
    {idx : Int} (h0 : 0 ≤ idx) (hD : D[idx.toNat]? = some 0) (rNew rr : S.F)
    (audit : Option (AuditData S)) :
    ∃ p, attrNymPart T cred ipk (hiddenIndices D) ρ.rAttrs idx false audit rNew rr = .ok p := by
  have hi := (List.getElem?_eq_some_iff.mp hD).1
  have hi' : idx.toNat < u.attrs.length := by rw [h.u_len]; exact hi
  refine ⟨⟨u.attrs[idx.toNat] • k.hAttrs.getD idx.toNat 0 + rNew • k.hRand,
    ρ.rAttrs.getD (Spec.respIdx D idx.toNat) 0 • k.hAttrs.getD idx.toNat 0 + rr • k.hRand, rNew, rr,
    u.attrs[idx.toNat]⟩, (attrNymPart_eq_ok h).mpr ⟨h0, List.getElem?_eq_getElem hi',
    lt_of_lt_of_le hi h.bases, count_take_lt hD, rfl, rfl, rfl, .inl ⟨rfl, rfl⟩⟩⟩

theorem optional_some_iff {α : Type} {b : Bool} {x : Res α} {o : Option α} (h : optional b x = .ok o) :
    o.isSome = b ∧ ∀ a, o = some a → x = .ok a := by
  rcases optional_eq_ok.mp h with ⟨rfl, rfl⟩ | ⟨rfl, r, hr, rfl⟩
  · exact ⟨rfl, fun a ha => by cases ha⟩
  · exact ⟨rfl, fun a ha => by cases ha; exact hr⟩

theorem optional_of {α : Type} {b : Bool} {x : Res α} (h : b = true → ∃ a, x = .ok a) :
    ∃ o, optional b x = .ok o := by
  cases b with
  | false => exact ⟨none, rfl⟩
  | true =>
    obtain ⟨a, ha⟩ := h rfl
    exact ⟨some a, by simp [optional, ha, Res.bind]⟩

/-- The metadata returned by the signer passes the verifier's metadata audit. -/
theorem honestMeta_ok {cred : Credential} {ipk : IssuerPublicKey} {D : Bytes} {rhIndex : Int}
    {cri : CRI} {ρ : SigRand S} {k : Spec.Key S} {u : Holder S} (h : SignPre T cred ipk D rhIndex cri ρ k u)
    {idx : Int} {hasMeta : Bool} {audit : Option (AuditData S)} {rNew rr : S.F} {p : AttrNymPart S}
    (hp : attrNymPart T cred ipk (hiddenIndices D) ρ.rAttrs idx hasMeta audit rNew rr = .ok p) :
    metaAudit T ipk k.hRand p.nym idx (some p.audit) [] = .ok () := by
  obtain ⟨h0, -, h2, -, -, h5, -⟩ := (attrNymPart_eq_ok h).mp hp
  rcases parseAttrs_getElem h.reads.hAttrs idx.toNat with ⟨e', P, q1, q2, q3⟩ | ⟨-, q2⟩
  · have hi : Res.index ipk.hAttrs idx = .ok e' := Res.index_eq_ok.mpr ⟨h0, q1⟩
    have hP : k.hAttrs.getD idx.toNat 0 = P := by simp [List.getD, q2]
    rw [hP] at h5
    simp [metaAudit, hi, q3, AttrNymPart.audit, ← h5, Res.guardErr]
  · rw [List.getElem?_eq_getElem h2] at q2; cases q2

/-! ## C09 -/

variable (T) in
/-- C09. Honest signatures of each of the three types verify, for every message and all randomness, under
the matching verification type (and in best-effort mode), against the disclosed values; whatever
revocation key and epoch the verifier names. For types with pseudonyms the enrollment id is hidden. -/
theorem C09_honest_signature_verifies {RevPk : Type} (cred : Credential) (ipk : IssuerPublicKey) (sk : S.F)
    (nym : S.G1) (rNym : S.F) (D msg : Bytes) (rhIndex eidIndex : Int) (cri : CRI) (ρ : SigRand S)
    (h : HonestSigner T cred ipk sk nym rNym D rhIndex cri) (htape : ρ.rAttrs.length = D.count 0)
    (hblind : ρ.r1 ≠ 0) (st : SigType) (vt : VerType) (hm : Spec.Matching st vt) (heid : st ≠ .standard → 0 ≤ eidIndex ∧ D[eidIndex.toNat]? = some 0)
    (values : List (Option S.F)) (hvals : Spec.SuppliesDisclosed D cred values) (revPk : RevPk)
    (epoch : Int) :
    ∃ sig md, newSignature T cred sk nym rNym ipk D msg rhIndex eidIndex cri ρ st none = .ok (sig, md) ∧
      sig.ver T D (some ipk) msg values rhIndex eidIndex revPk epoch vt none = .ok () := by
  obtain ⟨k, u, hp, rfl, rfl, rfl, hB, hc, hA, hn⟩ := h.pre
  replace hp := hp ρ htape
  have hst := hm.sigType
  have hDe : st.hasEid = true → 0 ≤ eidIndex ∧ D[eidIndex.toNat]? = some 0 := by
    intro hs; apply heid; rintro rfl; cases hs
  obtain ⟨eid, he⟩ := optional_of (b := st.hasEid) fun hs =>
    attrNymPart_fresh hp (hDe hs).1 (hDe hs).2 ρ.rEid ρ.rREid
      ((none : Option (SignerMetadata S)).bind (·.eidNymAuditData))
  obtain ⟨rh, hr⟩ := optional_of (b := st.hasRh) fun _ =>
    attrNymPart_fresh hp h.rh_hidden.1 h.rh_hidden.2 ρ.rRh ρ.rRRh
      ((none : Option (SignerMetadata S)).bind (·.rhNymAuditData))
  obtain ⟨he1, he2⟩ := optional_some_iff he
  obtain ⟨hr1, hr2⟩ := optional_some_iff hr
  refine ⟨_, _, newSignature_eq hp hst hDe (fun _ => h.rh_hidden.2) he hr, ?_⟩
  refine honest_ver hp hB hc hA hblind hn h.cri_key ?_ ?_ hm he1 hr1 ?_ _ rfl ?_ ?_ revPk epoch
  · intro p hpe
    have hs : st.hasEid = true := by rw [← he1, hpe]; rfl
    exact ⟨(hDe hs).1, GoodPart.of_eq_ok hp (he2 p hpe) (hDe hs).2⟩
  · intro p hpe
    exact GoodPart.of_eq_ok hp (hr2 p hpe) h.rh_hidden.2
  · rw [hp.attrs]; exact supplies_dis hvals hp.attrs_len
  · intro m p hm; cases hm
  · intro m p hm; cases hm

namespace Ex
/-- Credential revocation information for the examples. -/
def cri : CRI := ⟨5, some ⟨[1], [], [], []⟩, [7], 0, []⟩
/-- Signing randomness with two hidden attributes. -/
def sigRnd : SigRand Toy.suite :=
  ⟨(2 : Toy.K), (3 : Toy.K), 1, 4, 5, 6, 1, 2, 3, [4, 5], 2, 3, 4, 5⟩
/-- Attribute 0 is disclosed, attributes 1 and 2 are hidden. -/
def discl : Bytes := [1, 0, 0]
/-- The disclosed values. -/
def vals : List (Option Toy.K) := [some 1, none, none]
theorem signer : HonestSigner Toy.tr cred key.ipk (4 : Toy.K) nym (2 : Toy.K) discl 2 cri where
  cred_verifies := by decide
  cred_nontrivial := ⟨(3 : Toy.K), rfl, by decide⟩
  nym_made := by decide
  one_attr_per_name := rfl
  one_byte_per_name := rfl
  rh_hidden := by decide
  cri_alg := rfl
  cri_key := ⟨(1 : Toy.K), rfl⟩
end Ex

example : SigTape .eidNymRhNym Ex.discl Ex.sigRnd := ⟨rfl, by decide, by decide, by decide⟩
example : Spec.SuppliesDisclosed (S := Toy.suite) Ex.discl Ex.cred Ex.vals := by
  refine ⟨by decide, ?_⟩
  rintro (_ | _ | _ | i) d a h1 h2 h3
  · cases h3; rfl
  · cases h1; exact absurd rfl h2
  · cases h1; exact absurd rfl h2
  · cases h1

set_option maxRecDepth 4000 in
/-- The three types run: accepted, and refused for another message. -/
example : ∃ sig md, newSignature Toy.tr Ex.cred (4 : Toy.K) Ex.nym (2 : Toy.K) Ex.key.ipk Ex.discl [8] 2 1
      Ex.cri Ex.sigRnd .eidNymRhNym none = .ok (sig, md) ∧
    sig.ver Toy.tr Ex.discl (some Ex.key.ipk) [8] Ex.vals 2 1 () 0 .expectEidNymRhNym none = .ok () ∧
    sig.ver Toy.tr Ex.discl (some Ex.key.ipk) [9] Ex.vals 2 1 () 0 .expectEidNymRhNym none ≠ .ok () ∧
    sig.ver Toy.tr Ex.discl (some Ex.key.ipk) [8] Ex.vals 2 1 () 0 .expectStandard none ≠ .ok () :=
  ⟨_, _, rfl, by decide, by decide, by decide⟩

/-! ## C16 -/

/-- A successful signer has passed the checks of its type and built the attribute pseudonyms. -/
theorem newSignature_parts {cred : Credential} {ipk : IssuerPublicKey} {D msg : Bytes}
    {rhIndex eidIndex : Int} {cri : CRI} {ρ : SigRand S} {k : Spec.Key S} {u : Holder S}
    (h : SignPre T cred ipk D rhIndex cri ρ k u) {st : SigType} {md : Option (SignerMetadata S)}
    {sig : Signature} {m : Option (SignerMetadata S)}
    (hs : newSignature T cred u.sk u.nym u.rNym ipk D msg rhIndex eidIndex cri ρ st md = .ok (sig, m)) :
    (st = .standard ∨ st = .eidNym ∨ st = .eidNymRhNym) ∧
    (st.hasEid = true → 0 ≤ eidIndex ∧ D[eidIndex.toNat]? = some 0) ∧
    (st.hasRh = true → D[rhIndex.toNat]? = some 0) ∧
    ∃ eid rh, optional st.hasEid (attrNymPart T cred ipk (hiddenIndices D) ρ.rAttrs eidIndex md.isSome
        (md.bind (·.eidNymAuditData)) ρ.rEid ρ.rREid) = .ok eid ∧
      optional st.hasRh (attrNymPart T cred ipk (hiddenIndices D) ρ.rAttrs rhIndex md.isSome
        (md.bind (·.rhNymAuditData)) ρ.rRh ρ.rRRh) = .ok rh := by
  have hp := prepare_eq h
  have hidx : ∀ (i : Int) (d : UInt8), Res.index D i = .ok d → ¬ d ≠ 0 →
      0 ≤ i ∧ D[i.toNat]? = some 0 := by
    intro i d h1 h2
    obtain ⟨q1, q2⟩ := Res.index_eq_ok.mp h1
    rw [not_not] at h2; subst h2; exact ⟨q1, q2⟩
  cases st with
  | standard => exact ⟨.inl rfl, by simp [SigType.hasEid], by simp [SigType.hasRh], none, none, rfl, rfl⟩
  | eidNym =>
    simp only [newSignature, hp, Res.bind_eq_ok, Res.guardErr_eq_ok, decide_eq_false_iff_not,
      Res.ok.injEq, finalise] at hs
    obtain ⟨d, hd, _, hd', p, rfl, eid, he, rh, hr, -⟩ := hs
    exact ⟨.inr (.inl rfl), fun _ => hidx _ _ hd hd', by simp [SigType.hasRh], eid, rh, he, hr⟩
  | eidNymRhNym =>
    simp only [newSignature, hp, Res.bind_eq_ok, Res.guardErr_eq_ok, decide_eq_false_iff_not,
      Res.ok.injEq, finalise] at hs
    obtain ⟨d, hd, _, hd', d2, hd2, _, hd2', p, rfl, eid, he, rh, hr, -⟩ := hs
    exact ⟨.inr (.inr rfl), fun _ => hidx _ _ hd hd', fun _ => (hidx _ _ hd2 hd2').2, eid, rh, he, hr⟩
  | smartcard => cases hs
  | smartcardNoNyms => cases hs
  | unknown n => cases hs

/-- An attribute pseudonym in wire form audits to the data the signer kept for it. -/
theorem audit_toWire {cred : Credential} {ipk : IssuerPublicKey} {D : Bytes} {rhIndex : Int}
    {cri : CRI} {ρ : SigRand S} {k : Spec.Key S} {u : Holder S} (h : SignPre T cred ipk D rhIndex cri ρ k u)
    {idx : Int} {hasMeta : Bool} {audit : Option (AuditData S)} {rNew rr : S.F} {p : AttrNymPart S}
    (hp : attrNymPart T cred ipk (hiddenIndices D) ρ.rAttrs idx hasMeta audit rNew rr = .ok p)
    (s : Option Bytes) :
    auditSigNym T (some ⟨some (T.g1ToProto p.nym), s⟩) ipk p.attr idx p.r = .ok () := by
  obtain ⟨h0, -, h2, -, -, h5, -⟩ := (attrNymPart_eq_ok h).mp hp
  rcases parseAttrs_getElem h.reads.hAttrs idx.toNat with ⟨e', P, q1, q2, q3⟩ | ⟨-, q2⟩
  · have hi : Res.index ipk.hAttrs idx = .ok e' := Res.index_eq_ok.mpr ⟨h0, q1⟩
    have hP : k.hAttrs.getD idx.toNat 0 = P := by simp [List.getD, q2]
    rw [hP] at h5
    have hlt : ¬ ((ipk.hAttrs.length : Int) ≤ idx) := by
      have := (List.getElem?_eq_some_iff.mp q1).1; omega
    simp only [auditSigNym, Res.ofOption, hlt, Res.ok_bind, decide_false, Res.guardErr_false, hi, q3,
      h.reads.hRand, T.g1_rt, ← h5, decide_true, Bool.not_true]
  · rw [List.getElem?_eq_getElem h2] at q2; cases q2

variable (T) in
/-- C16. Whenever an honest signer returns a signature with pseudonyms (with or without supplied
metadata), the returned metadata opens each commitment of the signature to the signer's own attribute at
that index, its audit succeeds, and the signature verifies with that metadata. -/
theorem C16_returned_metadata_consistent {RevPk : Type} (cred : Credential) (ipk : IssuerPublicKey)
    (sk : S.F) (nym : S.G1) (rNym : S.F) (D msg : Bytes) (rhIndex eidIndex : Int) (cri : CRI)
    (ρ : SigRand S) (h : HonestSigner T cred ipk sk nym rNym D rhIndex cri)
    (htape : ρ.rAttrs.length = D.count 0) (hblind : ρ.r1 ≠ 0) (st : SigType) (hst : st ≠ .standard)
    (md m : Option (SignerMetadata S)) (sig : Signature)
    (hs : newSignature T cred sk nym rNym ipk D msg rhIndex eidIndex cri ρ st md = .ok (sig, m)) :
    ∃ md', m = some md' ∧
      (∃ ad a, md'.eidNymAuditData = some ad ∧ cred.attrs[eidIndex.toNat]? = some a ∧
        ad.attr = S.zrOfBytes a ∧ sig.auditNymEid T ipk (S.zrOfBytes a) eidIndex ad.rand = .ok ()) ∧
      (st = .eidNymRhNym → ∃ ad a, md'.rhNymAuditData = some ad ∧ cred.attrs[rhIndex.toNat]? = some a ∧
        ad.attr = S.zrOfBytes a ∧ sig.auditNymRh T ipk (S.zrOfBytes a) rhIndex ad.rand = .ok ()) ∧
      ∀ vt, Spec.Matching st vt → ∀ values, Spec.SuppliesDisclosed D cred values →
        ∀ (revPk : RevPk) (epoch : Int),
          sig.ver T D (some ipk) msg values rhIndex eidIndex revPk epoch vt m = .ok () := by
  obtain ⟨k, u, hp, rfl, rfl, rfl, hB, hc, hA, hn⟩ := h.pre
  replace hp := hp ρ htape
  obtain ⟨h1, h2, h3, eid, rh, he, hr⟩ := newSignature_parts hp hs
  obtain ⟨he1, he2⟩ := optional_some_iff he
  obtain ⟨hr1, hr2⟩ := optional_some_iff hr
  rw [newSignature_eq hp h1 h2 h3 he hr] at hs
  simp only [Res.ok.injEq, Prod.mk.injEq] at hs
  obtain ⟨rfl, rfl⟩ := hs
  have hsE : st.hasEid = true := by rcases h1 with rfl | rfl | rfl <;> first | rfl | exact absurd rfl hst
  obtain ⟨pe, rfl⟩ : ∃ p, eid = some p := Option.isSome_iff_exists.mp (by rw [he1, hsE])
  have hpe := he2 pe rfl
  have attrOf : ∀ {idx : Int} {hm : Bool} {au : Option (AuditData S)} {r₁ r₂ : S.F} {p : AttrNymPart S},
      attrNymPart T cred ipk (hiddenIndices D) ρ.rAttrs idx hm au r₁ r₂ = .ok p →
      ∃ a, cred.attrs[idx.toNat]? = some a ∧ p.attr = S.zrOfBytes a := by
    intro idx hm au r₁ r₂ p hpp
    obtain ⟨-, q, -⟩ := (attrNymPart_eq_ok hp).mp hpp
    rw [hp.attrs, List.getElem?_map] at q
    cases hh : cred.attrs[idx.toNat]? with
    | none => rw [hh] at q; cases q
    | some a => rw [hh] at q; exact ⟨a, rfl, by simpa [eq_comm] using q⟩
  refine ⟨_, rfl, ?_, ?_, ?_⟩
  · obtain ⟨a, ha, hpa⟩ := attrOf hpe
    refine ⟨pe.audit, a, rfl, ha, hpa, ?_⟩
    rw [← hpa]
    exact audit_toWire hp hpe _
  · rintro rfl
    obtain ⟨pr, rfl⟩ : ∃ p, rh = some p := Option.isSome_iff_exists.mp (by rw [hr1]; rfl)
    obtain ⟨a, ha, hpa⟩ := attrOf (hr2 pr rfl)
    refine ⟨pr.audit, a, rfl, ha, hpa, ?_⟩
    rw [← hpa]
    exact audit_toWire hp (hr2 pr rfl) _
  · intro vt hm values hvals revPk epoch
    refine honest_ver hp hB hc hA hblind hn h.cri_key ?_ ?_ hm he1 hr1 ?_ _ rfl ?_ ?_ revPk epoch
    · intro p hpp
      exact ⟨(h2 hsE).1, GoodPart.of_eq_ok hp (he2 p hpp) (h2 hsE).2⟩
    · intro p hpp
      exact GoodPart.of_eq_ok hp (hr2 p hpp) h.rh_hidden.2
    · rw [hp.attrs]; exact supplies_dis hvals hp.attrs_len
    · intro m' p hm' hp'
      cases hm'
      simp only [honest, Option.map_some, Option.some.injEq] at hp'
      subst hp'
      exact honestMeta_ok hp hpe
    · intro m' p hm' hp'
      cases hm'
      cases rh with
      | none => simp [honest] at hp'
      | some pr =>
        simp only [honest, Option.map_some, Option.some.injEq] at hp'
        subst hp'
        exact honestMeta_ok hp (hr2 pr rfl)

variable (T) in
/-- C16. Supplied metadata is used only if it matches: if a signer given metadata succeeds, then for each
pseudonym of the type the metadata has audit data, whose attribute is the signer's attribute at that
index and whose commitment is the commitment to it with the supplied randomness. -/
theorem C16_supplied_metadata_must_match (cred : Credential) (ipk : IssuerPublicKey)
    (sk : S.F) (nym : S.G1) (rNym : S.F) (D msg : Bytes) (rhIndex eidIndex : Int) (cri : CRI)
    (ρ : SigRand S) (h : HonestSigner T cred ipk sk nym rNym D rhIndex cri)
    (htape : ρ.rAttrs.length = D.count 0) (st : SigType) (hst : st ≠ .standard)
    (md : SignerMetadata S) (res : Signature × Option (SignerMetadata S))
    (hs : newSignature T cred sk nym rNym ipk D msg rhIndex eidIndex cri ρ st (some md) = .ok res) :
    ∃ k, Reads T ipk k ∧
      (∃ ad a P, md.eidNymAuditData = some ad ∧ cred.attrs[eidIndex.toNat]? = some a ∧
        k.hAttrs[eidIndex.toNat]? = some P ∧ ad.attr = S.zrOfBytes a ∧
        ad.nym = some (S.zrOfBytes a • P + ad.rand • k.hRand)) ∧
      (st = .eidNymRhNym → ∃ ad a P, md.rhNymAuditData = some ad ∧ cred.attrs[rhIndex.toNat]? = some a ∧
        k.hAttrs[rhIndex.toNat]? = some P ∧ ad.attr = S.zrOfBytes a ∧
        ad.nym = some (S.zrOfBytes a • P + ad.rand • k.hRand)) := by
  obtain ⟨k, u, hp, rfl, rfl, rfl, -⟩ := h.pre
  replace hp := hp ρ htape
  obtain ⟨sig, m⟩ := res
  obtain ⟨h1, h2, h3, eid, rh, he, hr⟩ := newSignature_parts hp hs
  obtain ⟨he1, he2⟩ := optional_some_iff he
  obtain ⟨hr1, hr2⟩ := optional_some_iff hr
  have key : ∀ {idx : Int} {au : Option (AuditData S)} {r₁ r₂ : S.F} {p : AttrNymPart S},
      attrNymPart T cred ipk (hiddenIndices D) ρ.rAttrs idx true au r₁ r₂ = .ok p →
      ∃ ad a P, au = some ad ∧ cred.attrs[idx.toNat]? = some a ∧
        k.hAttrs[idx.toNat]? = some P ∧ ad.attr = S.zrOfBytes a ∧
        ad.nym = some (S.zrOfBytes a • P + ad.rand • k.hRand) := by
    intro idx au r₁ r₂ p hpp
    obtain ⟨-, q, q2, -, -, q5, -, ⟨q7, -⟩ | ⟨-, ad, q7, q8, q9, q10⟩⟩ := (attrNymPart_eq_ok hp).mp hpp
    · cases q7
    · rw [hp.attrs, List.getElem?_map] at q
      cases hh : cred.attrs[idx.toNat]? with
      | none => rw [hh] at q; cases q
      | some a =>
        rw [hh] at q
        have hpa : p.attr = S.zrOfBytes a := by simpa [eq_comm] using q
        refine ⟨ad, a, _, q7, rfl, List.getElem?_eq_getElem q2, q8.trans hpa, ?_⟩
        rw [q9, q5, hpa, q10]
        simp [List.getD, q2]
  refine ⟨k, hp.reads, ?_, ?_⟩
  · have hsE : st.hasEid = true := by
      rcases h1 with rfl | rfl | rfl <;> first | rfl | exact absurd rfl hst
    obtain ⟨pe, rfl⟩ : ∃ p, eid = some p := Option.isSome_iff_exists.mp (by rw [he1, hsE])
    exact key (he2 pe rfl)
  · rintro rfl
    obtain ⟨pr, rfl⟩ : ∃ p, rh = some p := Option.isSome_iff_exists.mp (by rw [hr1]; rfl)
    exact key (hr2 pr rfl)

namespace Ex
/-- Metadata for the enrollment id 0 with randomness 1 under base 4: the commitment is `0·4 + 1·6`. -/
def metaGood : SignerMetadata Toy.suite := ⟨some ⟨some (6 : Toy.K), 1, 0⟩, none, [], []⟩
/-- The same with a wrong commitment. -/
def metaBad : SignerMetadata Toy.suite := ⟨some ⟨some (5 : Toy.K), 1, 0⟩, none, [], []⟩
end Ex

set_option maxRecDepth 4000 in
example : (∃ sig md, newSignature Toy.tr Ex.cred (4 : Toy.K) Ex.nym (2 : Toy.K) Ex.key.ipk Ex.discl [8] 2 1
      Ex.cri Ex.sigRnd .eidNym (some Ex.metaGood) = .ok (sig, some md) ∧
      sig.auditNymEid Toy.tr Ex.key.ipk (0 : Toy.K) 1 (1 : Toy.K) = .ok () ∧
      sig.auditNymEid Toy.tr Ex.key.ipk (1 : Toy.K) 1 (1 : Toy.K) ≠ .ok ()) ∧
    newSignature Toy.tr Ex.cred (4 : Toy.K) Ex.nym (2 : Toy.K) Ex.key.ipk Ex.discl [8] 2 1
      Ex.cri Ex.sigRnd .eidNym (some Ex.metaBad) = .err "audit metadata does not match (2)" :=
  ⟨⟨_, _, rfl, by decide, by decide⟩, rfl⟩

end Idemix.Dlog
