import Verif.Dlog.SigChars

/-!
# dlog scheme: what the signer computes

`honest` is the decoded signature the signer produces for challenge `c`; `newSignature_eq` shows that the
model of `NewSignature` returns exactly its wire form.
-/

namespace Idemix.Dlog

variable {S : Suite} (T : Translator S)

/-- Everything the signer knows: credential points and scalars, pseudonym and opening, attributes. -/
structure Holder (S : Suite) where
  A : S.G1
  B : S.G1
  e : S.F
  s : S.F
  sk : S.F
  nym : S.G1
  rNym : S.F
  attrs : List S.F

/-- The decoded honest signature for challenge `c`. -/
def honest (k : Spec.Key S) (u : Holder S) (D : Bytes) (ρ : SigRand S)
    (eid rh : Option (AttrNymPart S)) (c : S.F) : Spec.Sig S where
  aPrime := ρ.r1 • u.A
  aBar := ρ.r1 • u.B - u.e • ρ.r1 • u.A
  bPrime := ρ.r1 • u.B - ρ.r2 • k.hRand
  nym := u.nym
  c := c
  sSk := ρ.rSk + c * u.sk
  sE := ρ.re - c * u.e
  sR2 := ρ.rR2 + c * ρ.r2
  sR3 := ρ.rR3 - c * ρ.r1⁻¹
  sSPrime := ρ.rSPrime + c * (u.s - ρ.r2 * ρ.r1⁻¹)
  sRNym := ρ.rRNym + c * u.rNym
  sAttrs := List.zipWith (fun r a => r + c * a) ρ.rAttrs (hid D u.attrs)
  nonce := ρ.nonce
  eid := eid.map fun p => (p.nym, p.rr + c * p.r)
  rh := rh.map fun p => (p.nym, p.rr + c * p.r)

/-- The wire form of a decoded signature. -/
def toWire (cri : CRI) (v : Spec.Sig S) : Signature :=
  { aPrime := some (T.g1ToProto v.aPrime), aBar := some (T.g1ToProto v.aBar),
    bPrime := some (T.g1ToProto v.bPrime), proofC := S.zrBytes v.c, proofSSk := S.zrBytes v.sSk,
    proofSE := S.zrBytes v.sE, proofSR2 := S.zrBytes v.sR2, proofSR3 := S.zrBytes v.sR3,
    proofSSPrime := S.zrBytes v.sSPrime, proofSAttrs := v.sAttrs.map S.zrBytes,
    nonce := S.zrBytes v.nonce, nym := some (T.g1ToProto v.nym), proofSRNym := S.zrBytes v.sRNym,
    revocationEpochPk := cri.epochPk, revocationPkSig := cri.epochPkSig, epoch := cri.epoch,
    nonRevocationProof := some { revocationAlg := 0, proof := [] },
    eidNym := v.eid.map fun p => ⟨some (T.g1ToProto p.1), some (S.zrBytes p.2)⟩,
    rhNym := v.rh.map fun p => ⟨some (T.g1ToProto p.1), some (S.zrBytes p.2)⟩ }

/-- An attribute pseudonym part is well formed for position `i`: `t4` is built with the mask of the
response that the verifier uses for `i`, and the committed value is the one behind that response. -/
structure GoodPart (k : Spec.Key S) (u : Holder S) (D : Bytes) (ρ : SigRand S) (i : Nat)
    (p : AttrNymPart S) : Prop where
  lt : i < k.hAttrs.length
  resp : Spec.respIdx D i < nHid D
  attr : (hid D u.attrs)[Spec.respIdx D i]? = some p.attr
  nym : p.nym = p.attr • k.hAttrs.getD i 0 + p.r • k.hRand
  t4 : p.t4 = ρ.rAttrs.getD (Spec.respIdx D i) 0 • k.hAttrs.getD i 0 + p.rr • k.hRand

section algebra
variable {k : Spec.Key S} {u : Holder S} {D : Bytes} {ρ : SigRand S} {eid rh : Option (AttrNymPart S)}
  {c : S.F}

theorem honest_t1 : (honest k u D ρ eid rh c).t1 k = ρ.re • ρ.r1 • u.A + ρ.rR2 • k.hRand := by
  simp only [honest, Spec.Sig.t1]; module

theorem lin_responses (c : S.F) (rs as : List S.F) (Ps : List S.G1) (h : rs.length = as.length) :
    S.lin (List.zipWith (fun r a => r + c * a) rs as) Ps = S.lin rs Ps + c • S.lin as Ps := by
  rw [← S.lin_smul, ← S.lin_add (by simpa using h), List.zipWith_map_right]

theorem honest_t2 (hB : u.B = Spec.signed k u.sk u.s u.attrs) (hr : ρ.r1 ≠ 0)
    (ha : u.attrs.length = D.length) (hl : ρ.rAttrs.length = nHid D) :
    (honest k u D ρ eid rh c).t2 k D (dis D u.attrs) =
      ρ.rSPrime • k.hRand + (ρ.rR3 • (ρ.r1 • u.B - ρ.r2 • k.hRand) + ρ.rSk • k.hSk) +
        S.lin ρ.rAttrs (hid D k.hAttrs) := by
  have hsplit := S.lin_split D u.attrs k.hAttrs ha
  simp only [honest, Spec.Sig.t2]
  rw [lin_responses _ _ _ _ (by rw [hl, hid_length _ _ (le_of_eq ha.symm)])]
  have e1 : (ρ.rR3 - c * ρ.r1⁻¹) • (ρ.r1 • u.B - ρ.r2 • k.hRand) =
      ρ.rR3 • (ρ.r1 • u.B - ρ.r2 • k.hRand) - c • (u.B - (ρ.r2 * ρ.r1⁻¹) • k.hRand) := by
    have h1 : c • u.B = (c * ρ.r1⁻¹ * ρ.r1) • u.B := by
      rw [mul_assoc, inv_mul_cancel₀ hr, mul_one]
    rw [sub_smul, smul_sub c, h1]
    module
  rw [e1, hB, Spec.signed, hsplit]
  module

theorem honest_t3 (hn : u.nym = Spec.nym k u.sk u.rNym) :
    (honest k u D ρ eid rh c).t3 k = ρ.rSk • k.hSk + ρ.rRNym • k.hRand := by
  simp only [honest, Spec.Sig.t3, hn, Spec.nym]; module

theorem honest_t4 {i : Nat} {p : AttrNymPart S} (hp : GoodPart k u D ρ i p)
    (hl : ρ.rAttrs.length = nHid D) :
    (honest k u D ρ eid rh c).t4 k D i (p.nym, p.rr + c * p.r) = p.t4 := by
  have hx : Spec.respIdx D i < (hid D u.attrs).length := (List.getElem?_eq_some_iff.mp hp.attr).1
  have hx' : Spec.respIdx D i < ρ.rAttrs.length := by rw [hl]; exact hp.resp
  have hval : (hid D u.attrs)[Spec.respIdx D i] = p.attr := by
    have := hp.attr; rw [List.getElem?_eq_getElem hx] at this; simpa using this
  have : (List.zipWith (fun r a => r + c * a) ρ.rAttrs (hid D u.attrs)).getD (Spec.respIdx D i) 0 =
      ρ.rAttrs.getD (Spec.respIdx D i) 0 + c * p.attr := by
    simp [List.getD, hx, hx', hval]
  simp only [Spec.Sig.t4, honest, this]
  rw [hp.nym, hp.t4]
  module

theorem honest_nymPart {i : Nat} {o : Option (AttrNymPart S)} (hp : ∀ p, o = some p → GoodPart k u D ρ i p)
    (hl : ρ.rAttrs.length = nHid D) :
    (honest k u D ρ eid rh c).nymPart k D i (o.map fun p => (p.nym, p.rr + c * p.r)) =
      nymBytes S (o.map fun p => (p.nym, p.t4)) := by
  cases o with
  | none => rfl
  | some p =>
    simp only [Option.map_some, Spec.Sig.nymPart, nymBytes]
    rw [honest_t4 (hp p rfl) hl]

end algebra

/-- What is hashed first by the honest signer. -/
def honestTranscript (k : Spec.Key S) (u : Holder S) (D : Bytes) (ρ : SigRand S)
    (eid rh : Option (AttrNymPart S)) (hash msg : Bytes) : Bytes :=
  (if rh.isSome then signWithEidNymRhNymLabel else if eid.isSome then signWithEidNymLabel
    else signLabel) ++
    S.g1Bytes (ρ.re • ρ.r1 • u.A + ρ.rR2 • k.hRand) ++
    S.g1Bytes (ρ.rSPrime • k.hRand + (ρ.rR3 • (ρ.r1 • u.B - ρ.r2 • k.hRand) + ρ.rSk • k.hSk) +
        S.lin ρ.rAttrs (hid D k.hAttrs)) ++
    S.g1Bytes (ρ.rSk • k.hSk + ρ.rRNym • k.hRand) ++ S.g1Bytes (ρ.r1 • u.A) ++
    S.g1Bytes (ρ.r1 • u.B - u.e • ρ.r1 • u.A) ++ S.g1Bytes (ρ.r1 • u.B - ρ.r2 • k.hRand) ++
    S.g1Bytes u.nym ++ nymBytes S (eid.map fun p => (p.nym, p.t4)) ++
    nymBytes S (rh.map fun p => (p.nym, p.t4)) ++ Buf.padTo S.scalarLen hash ++ D ++ msg

/-- The challenge of the honest signer. -/
def honestChallenge (k : Spec.Key S) (u : Holder S) (D : Bytes) (ρ : SigRand S)
    (eid rh : Option (AttrNymPart S)) (hash msg : Bytes) : S.F :=
  S.hashToZr (Spec.second S (honestTranscript k u D ρ eid rh hash msg) ρ.nonce)

variable {T}

/-- The verifier of a valid honest signature recomputes the signer's transcript. -/
theorem honest_transcript {k : Spec.Key S} {u : Holder S} {D : Bytes} {ρ : SigRand S}
    {eid rh : Option (AttrNymPart S)} {c : S.F} {hash msg : Bytes} {ei ri : Nat}
    (hB : u.B = Spec.signed k u.sk u.s u.attrs) (hr : ρ.r1 ≠ 0) (ha : u.attrs.length = D.length)
    (hl : ρ.rAttrs.length = nHid D) (hn : u.nym = Spec.nym k u.sk u.rNym)
    (hpe : ∀ p, eid = some p → GoodPart k u D ρ ei p) (hpr : ∀ p, rh = some p → GoodPart k u D ρ ri p) :
    (honest k u D ρ eid rh c).transcript (sigLabelOf (honest k u D ρ eid rh c)) k hash D
      (dis D u.attrs) ei ri msg = honestTranscript k u D ρ eid rh hash msg := by
  rw [Spec.Sig.transcript, honest_t1, honest_t2 hB hr ha hl, honest_t3 hn]
  have h1 := honest_nymPart (eid := eid) (rh := rh) (c := c) hpe hl
  have h2 := honest_nymPart (eid := eid) (rh := rh) (c := c) hpr hl
  have e1 : (honest k u D ρ eid rh c).eid = eid.map fun p => (p.nym, p.rr + c * p.r) := rfl
  have e2 : (honest k u D ρ eid rh c).rh = rh.map fun p => (p.nym, p.rr + c * p.r) := rfl
  rw [e1, e2, h1, h2]
  simp only [honestTranscript, sigLabelOf, Spec.Sig.label, e1, e2, Option.isSome_map]
  rfl

/-- A valid honest signature satisfies the specification of acceptance. -/
theorem honest_accepted {k : Spec.Key S} {u : Holder S} {D : Bytes} {ρ : SigRand S}
    {eid rh : Option (AttrNymPart S)} {hash msg : Bytes} {ei ri : Nat}
    (hB : u.B = Spec.signed k u.sk u.s u.attrs)
    (hcred : Spec.IsCredential k u.A u.e u.s u.sk u.attrs) (hA : u.A ≠ 0) (hr : ρ.r1 ≠ 0)
    (ha : u.attrs.length = D.length) (hl : ρ.rAttrs.length = nHid D)
    (hn : u.nym = Spec.nym k u.sk u.rNym)
    (hpe : ∀ p, eid = some p → GoodPart k u D ρ ei p) (hpr : ∀ p, rh = some p → GoodPart k u D ρ ri p)
    (v : Spec.Sig S) (hv : v = honest k u D ρ eid rh (honestChallenge k u D ρ eid rh hash msg)) :
    v.Accepted (sigLabelOf v) k hash D (dis D u.attrs) ei ri msg := by
  subst hv
  refine ⟨?_, ?_, ?_⟩
  · intro h0
    exact hA (S.smul_right_inj hr (by rw [smul_zero]; exact h0))
  · rw [Spec.IsCredential, ← hB] at hcred
    simp only [map_add, map_smul, LinearMap.add_apply, LinearMap.smul_apply] at hcred
    simp only [honest, map_sub, map_smul]
    rw [← hcred]
    module
  · rw [honest_transcript hB hr ha hl hn hpe hpr]
    rfl

variable (T) in
/-- The wire form of a decoded signature decodes to it. -/
theorem toWire_decodes (cri : CRI) (v : Spec.Sig S) : Decodes T (toWire T cri v) v := by
  constructor <;> simp [toWire, Function.comp_def]

theorem toWire_nym {b : Bool} (o : Option (S.G1 × S.F)) (hb : b = o.isSome) :
    DecodesNym T b (o.map fun p => ⟨some (T.g1ToProto p.1), some (S.zrBytes p.2)⟩) o := by
  cases o with
  | none => exact .inl ⟨hb, rfl⟩
  | some p => exact .inr ⟨hb, _, p.1, rfl, by simp, by simp⟩

/-! ### The signer of the model -/

variable (T) in
/-- The inputs of the signer decode to the holder `u` and the key `k`, and are within range. -/
structure SignPre (cred : Credential) (ipk : IssuerPublicKey) (D : Bytes) (rhIndex : Int) (cri : CRI)
    (ρ : SigRand S) (k : Spec.Key S) (u : Holder S) : Prop where
  reads : Reads T ipk k
  a : T.g1FromProto cred.a = .ok u.A
  b : T.g1FromProto cred.b = .ok u.B
  e : u.e = S.zrOfBytes cred.e
  s : u.s = S.zrOfBytes cred.s
  attrs : u.attrs = cred.attrs.map S.zrOfBytes
  attrs_len : cred.attrs.length = D.length
  D_len : D.length = ipk.attributeNames.length
  rh_nonneg : 0 ≤ rhIndex
  rh_lt : rhIndex < D.length
  alg : cri.revocationAlg = 0
  tape : ρ.rAttrs.length = nHid D
  bases : D.length ≤ k.hAttrs.length
  rh_resp : Spec.respIdx D rhIndex.toNat < nHid D

theorem SignPre.u_len {cred : Credential} {ipk : IssuerPublicKey} {D : Bytes} {rhIndex : Int} {cri : CRI}
    {ρ : SigRand S} {k : Spec.Key S} {u : Holder S} (h : SignPre T cred ipk D rhIndex cri ρ k u) :
    u.attrs.length = D.length := by rw [h.attrs, List.length_map, h.attrs_len]

theorem prepare_eq {cred : Credential} {ipk : IssuerPublicKey} {D : Bytes} {rhIndex : Int} {cri : CRI}
    {ρ : SigRand S} {k : Spec.Key S} {u : Holder S} (h : SignPre T cred ipk D rhIndex cri ρ k u) :
    prepare T cred ipk D rhIndex cri ρ = .ok
      { t1 := ρ.re • ρ.r1 • u.A + ρ.rR2 • k.hRand,
        t2 := ρ.rSPrime • k.hRand + (ρ.rR3 • (ρ.r1 • u.B - ρ.r2 • k.hRand) + ρ.rSk • k.hSk) +
          S.lin ρ.rAttrs (hid D k.hAttrs),
        t3 := ρ.rSk • k.hSk + ρ.rRNym • k.hRand,
        aPrime := ρ.r1 • u.A, aBar := ρ.r1 • u.B - u.e • ρ.r1 • u.A,
        bPrime := ρ.r1 • u.B - ρ.r2 • k.hRand, nonRev := [], e := u.e, r3 := ρ.r1⁻¹,
        sPrime := u.s - ρ.r2 * ρ.r1⁻¹, hidden := hiddenIndices D } := by
  have hlt : rhIndex.toNat < D.length := by have := h.rh_lt; have := h.rh_nonneg; omega
  have hidx : Res.index D rhIndex = .ok D[rhIndex.toNat] := by
    rw [Res.index_eq_ok]; exact ⟨h.rh_nonneg, List.getElem?_eq_getElem hlt⟩
  have hlt' : rhIndex.toNat < cred.attrs.length := by rw [h.attrs_len]; exact hlt
  have hidx' : Res.index cred.attrs rhIndex = .ok cred.attrs[rhIndex.toNat] := by
    rw [Res.index_eq_ok]; exact ⟨h.rh_nonneg, List.getElem?_eq_getElem hlt'⟩
  have hx : (D.take rhIndex.toNat).count 0 < ρ.rAttrs.length := by rw [h.tape]; exact h.rh_resp
  have hnth : Res.nth ρ.rAttrs ((D.take rhIndex.toNat).count 0) = .ok ρ.rAttrs[(D.take rhIndex.toNat).count 0] := by
    rw [Res.nth_eq_ok]; exact List.getElem?_eq_getElem hx
  have hg : (decide (rhIndex < 0) || decide ((ipk.attributeNames.length : Int) ≤ rhIndex)
      || decide (D.length ≠ ipk.attributeNames.length)) = false := by
    have := h.rh_nonneg; have := h.rh_lt; have := h.D_len
    simp; omega
  have hadd := fun acc => addPairs_ok (S := S) acc ρ.rAttrs (hid D k.hAttrs)
    (by rw [h.tape, hid_length _ _ h.bases])
  simp only [prepare, hg, Res.guardErr_false, Res.ok_bind, hidx, h.alg, ne_eq, not_true_eq_false,
    decide_false, Bool.false_and, hiddenIndices_length, h.tape, bne_self_eq_false, Res.guardPanic_false,
    h.a, h.b, h.reads.hRand, h.reads.hSk, h.reads.hAttrs, hidx', searchInts_eq, hnth,
    nonRevContribution, if_true, mapM_hidden0 D _ h.bases, hadd, Res.pure_def, ← h.e, ← h.s]

/-- What the attribute pseudonym part computes, and when it is refused. -/
theorem attrNymPart_eq_ok {cred : Credential} {ipk : IssuerPublicKey} {D : Bytes} {rhIndex : Int}
    {cri : CRI} {ρ : SigRand S} {k : Spec.Key S} {u : Holder S} (h : SignPre T cred ipk D rhIndex cri ρ k u)
    {idx : Int} {hasMeta : Bool} {audit : Option (AuditData S)} {rNew rr : S.F} {p : AttrNymPart S} :
    attrNymPart T cred ipk (hiddenIndices D) ρ.rAttrs idx hasMeta audit rNew rr = .ok p ↔
      0 ≤ idx ∧ u.attrs[idx.toNat]? = some p.attr ∧ idx.toNat < k.hAttrs.length ∧
      Spec.respIdx D idx.toNat < nHid D ∧ p.rr = rr ∧
      p.nym = p.attr • k.hAttrs.getD idx.toNat 0 + p.r • k.hRand ∧
      p.t4 = ρ.rAttrs.getD (Spec.respIdx D idx.toNat) 0 • k.hAttrs.getD idx.toNat 0 + rr • k.hRand ∧
      ((hasMeta = false ∧ p.r = rNew) ∨
        (hasMeta = true ∧ ∃ ad, audit = some ad ∧ ad.attr = p.attr ∧ ad.nym = some p.nym ∧ p.r = ad.rand)) := by
  have hattr : ∀ a, u.attrs[idx.toNat]? = some a ↔
      ∃ ab, cred.attrs[idx.toNat]? = some ab ∧ S.zrOfBytes ab = a := by
    intro a; rw [h.attrs, List.getElem?_map]; cases cred.attrs[idx.toNat]? <;> simp
  have hchk : ∀ (r : S.F) (nym : S.G1), (nymRand hasMeta audit p.attr rNew = .ok r ∧
      nymCheck hasMeta audit nym = .ok ()) ↔ ((hasMeta = false ∧ r = rNew) ∨
        (hasMeta = true ∧ ∃ ad, audit = some ad ∧ ad.attr = p.attr ∧ ad.nym = some nym ∧ r = ad.rand)) := by
    intro r nym
    cases hasMeta with
    | false => simp [nymRand, nymCheck, eq_comm]
    | true =>
      cases audit with
      | none => simp [nymRand, Res.ofOption]
      | some ad =>
        by_cases ha : ad.attr = p.attr
        · cases h' : ad.nym with
          | none => simp [nymRand, nymCheck, Res.ofOption, Res.deref, h']
          | some mn =>
            by_cases hn : mn = nym
            · simp [nymRand, nymCheck, Res.ofOption, Res.deref, h', ha, hn, Res.guardErr]
              exact eq_comm
            · simp [nymRand, nymCheck, Res.ofOption, Res.deref, h', ha, hn, Res.guardErr]
        · simp [nymRand, nymCheck, Res.ofOption, ha, Res.guardErr]
  have hb : ∀ (e' : Option ECP) (P : S.G1), (ipk.hAttrs[idx.toNat]? = some e' ∧ T.g1FromProto e' = .ok P) →
      idx.toNat < k.hAttrs.length ∧ k.hAttrs.getD idx.toNat 0 = P := by
    rintro e' P ⟨h2, h3⟩
    rcases parseAttrs_getElem h.reads.hAttrs idx.toNat with ⟨e'', P', q1, q2, q3⟩ | ⟨q1, -⟩
    · rw [h2] at q1; cases q1
      rw [h3] at q3; cases q3
      exact ⟨(List.getElem?_eq_some_iff.mp q2).1, by simp [List.getD, q2]⟩
    · rw [h2] at q1; cases q1
  simp only [attrNymPart, Res.bind_eq_ok, Res.index_eq_ok, Res.pure_def,
    Res.ok.injEq, Res.nth_eq_ok, searchInts_eq, hattr, h.reads.hRand]
  constructor
  · rintro ⟨ab, ⟨h0, h1⟩, r, hr, rA, hrA, hE, ⟨-, h2⟩, hp, h3, hR, rfl, _, hc, rfl⟩
    obtain ⟨g1, g2⟩ := hb _ _ ⟨h2, h3⟩
    have hx := (List.getElem?_eq_some_iff.mp hrA).1
    rw [h.tape] at hx
    refine ⟨h0, ⟨ab, h1, rfl⟩, g1, hx, rfl, ?_, ?_, (hchk _ _).mp ⟨hr, hc⟩⟩
    · rw [g2]
    · simp [List.getD, hrA, Spec.respIdx, ← g2]
  · rintro ⟨h0, ⟨ab, h1, h1'⟩, h2, h3, h4, h5, h6, h7⟩
    obtain ⟨g1, g2⟩ := (hchk p.r p.nym).mpr h7
    rcases parseAttrs_getElem h.reads.hAttrs idx.toNat with ⟨e', P, q1, q2, q3⟩ | ⟨-, q2⟩
    · have hx : (D.take idx.toNat).count 0 < ρ.rAttrs.length := by rw [h.tape]; exact h3
      obtain ⟨-, hP⟩ := hb _ _ ⟨q1, q3⟩
      have hn : S.zrOfBytes ab • P + p.r • k.hRand = p.nym := by rw [h5, h1', hP]
      refine ⟨ab, ⟨h0, h1⟩, p.r, by rw [h1']; exact g1, _, List.getElem?_eq_getElem hx, e', ⟨h0, q1⟩, P, q3,
        _, rfl, (), by rw [hn]; exact g2, ?_⟩
      cases p
      simp only at h4 h5 h6 h1' hn
      subst h4 h1'
      rw [h6, hP]
      simp [hn, hx, Spec.respIdx, List.getD]
    · rw [List.getElem?_eq_getElem h2] at q2; cases q2

/-- At a hidden position the part is good in the sense needed for acceptance. -/
theorem GoodPart.of_eq_ok {cred : Credential} {ipk : IssuerPublicKey} {D : Bytes} {rhIndex : Int}
    {cri : CRI} {ρ : SigRand S} {k : Spec.Key S} {u : Holder S} (h : SignPre T cred ipk D rhIndex cri ρ k u)
    {idx : Int} {hasMeta : Bool} {audit : Option (AuditData S)} {rNew rr : S.F} {p : AttrNymPart S}
    (hp : attrNymPart T cred ipk (hiddenIndices D) ρ.rAttrs idx hasMeta audit rNew rr = .ok p)
    (hD : D[idx.toNat]? = some 0) : GoodPart k u D ρ idx.toNat p := by
  obtain ⟨h0, h1, h2, h3, h4, h5, h6, -⟩ := (attrNymPart_eq_ok h).mp hp
  refine ⟨h2, h3, ?_, h5, by rw [h6, h4]⟩
  rw [Spec.respIdx, hid_getElem D u.attrs idx.toNat hD (le_of_eq h.u_len.symm), h1]

/-- The attribute responses of the signer. -/
theorem attrResponses_eq {cred : Credential} {ipk : IssuerPublicKey} {D : Bytes} {rhIndex : Int}
    {cri : CRI} {ρ : SigRand S} {k : Spec.Key S} {u : Holder S} (h : SignPre T cred ipk D rhIndex cri ρ k u)
    (c : S.F) : attrResponses cred c ρ.rAttrs (hiddenIndices D) =
      .ok (List.zipWith (fun r a => r + c * a) ρ.rAttrs (hid D u.attrs)) := by
  simp only [attrResponses, mapM_hidden0 D _ (le_of_eq h.attrs_len.symm), Res.ok_bind, Res.pure_def,
    h.attrs, ← map_hid, List.zipWith_map_right]

theorem optional_hasEid (st : SigType) (h : st = .standard ∨ st = .eidNym ∨ st = .eidNymRhNym) :
    sigPts st = .ok (7 + (if st.hasEid then 2 else 0) + (if st.hasRh then 2 else 0)) ∧
    sigLabel st = .ok (if st.hasRh then signWithEidNymRhNymLabel else if st.hasEid then
      signWithEidNymLabel else signLabel) := by
  rcases h with rfl | rfl | rfl <;> exact ⟨rfl, rfl⟩

/-- The metadata the signer returns. -/
def honestMeta (eid rh : Option (AttrNymPart S)) : Option (SignerMetadata S) :=
  eid.map fun e =>
    { eidNymAuditData := some e.audit, rhNymAuditData := rh.map (·.audit), eidNym := [], rhNym := [] }

/-- The final part of signing, given the attribute pseudonyms. -/
theorem finalise_eq {cred : Credential} {ipk : IssuerPublicKey} {D msg : Bytes} {rhIndex eidIndex : Int}
    {cri : CRI} {ρ : SigRand S} {k : Spec.Key S} {u : Holder S} (h : SignPre T cred ipk D rhIndex cri ρ k u)
    {st : SigType} (hst : st = .standard ∨ st = .eidNym ∨ st = .eidNymRhNym)
    {md : Option (SignerMetadata S)} {eid rh : Option (AttrNymPart S)}
    (he : optional st.hasEid (attrNymPart T cred ipk (hiddenIndices D) ρ.rAttrs eidIndex md.isSome
      (md.bind (·.eidNymAuditData)) ρ.rEid ρ.rREid) = .ok eid)
    (hr : optional st.hasRh (attrNymPart T cred ipk (hiddenIndices D) ρ.rAttrs rhIndex md.isSome
      (md.bind (·.rhNymAuditData)) ρ.rRh ρ.rRRh) = .ok rh) {p : Prepared S}
    (hp : prepare T cred ipk D rhIndex cri ρ = .ok p) :
    finalise T cred u.sk u.nym u.rNym ipk D msg rhIndex eidIndex cri ρ p st md = .ok
      (toWire T cri (honest k u D ρ eid rh (honestChallenge k u D ρ eid rh ipk.hash msg)),
        honestMeta eid rh) := by
  rw [prepare_eq h, Res.ok.injEq] at hp
  subst hp
  have he' : eid.isSome = st.hasEid := by
    rcases optional_eq_ok.mp he with ⟨a, rfl⟩ | ⟨a, _, _, rfl⟩ <;> simp [a]
  have hr' : rh.isSome = st.hasRh := by
    rcases optional_eq_ok.mp hr with ⟨a, rfl⟩ | ⟨a, _, _, rfl⟩ <;> simp [a]
  obtain ⟨h1, h2⟩ := optional_hasEid st hst
  have hpts : 7 + (if st.hasEid then 2 else 0) + (if st.hasRh then 2 else 0) =
      7 + (if (eid.map fun e : AttrNymPart S => (e.nym, e.t4)).isSome then 2 else 0) +
      (if (rh.map fun e : AttrNymPart S => (e.nym, e.t4)).isSome then 2 else 0) := by
    simp [he', hr']
  have hle : 2 * S.scalarLen ≤ (honestTranscript k u D ρ eid rh ipk.hash msg).length := by
    have := S.scalarLen_le
    simp only [honestTranscript, List.length_append, Suite.g1Bytes_len]; omega
  have hpd := sigProofData_eq (S := S) (if st.hasRh then signWithEidNymRhNymLabel else if st.hasEid then
      signWithEidNymLabel else signLabel) _ 0 (ρ.re • ρ.r1 • u.A + ρ.rR2 • k.hRand)
      (ρ.rSPrime • k.hRand + (ρ.rR3 • (ρ.r1 • u.B - ρ.r2 • k.hRand) + ρ.rSk • k.hSk) +
          S.lin ρ.rAttrs (hid D k.hAttrs)) (ρ.rSk • k.hSk + ρ.rRNym • k.hRand) (ρ.r1 • u.A)
      (ρ.r1 • u.B - u.e • ρ.r1 • u.A) (ρ.r1 • u.B - ρ.r2 • k.hRand) u.nym
      (eid.map fun e : AttrNymPart S => (e.nym, e.t4)) (rh.map fun e : AttrNymPart S => (e.nym, e.t4))
      ipk.hash D msg hpts
  have htr : honestTranscript k u D ρ eid rh ipk.hash msg = (if st.hasRh then signWithEidNymRhNymLabel
      else if st.hasEid then signWithEidNymLabel else signLabel) ++ S.g1Bytes (ρ.re • ρ.r1 • u.A +
        ρ.rR2 • k.hRand) ++ S.g1Bytes (ρ.rSPrime • k.hRand + (ρ.rR3 • (ρ.r1 • u.B - ρ.r2 • k.hRand) +
          ρ.rSk • k.hSk) + S.lin ρ.rAttrs (hid D k.hAttrs)) ++
        S.g1Bytes (ρ.rSk • k.hSk + ρ.rRNym • k.hRand) ++ S.g1Bytes (ρ.r1 • u.A) ++
        S.g1Bytes (ρ.r1 • u.B - u.e • ρ.r1 • u.A) ++ S.g1Bytes (ρ.r1 • u.B - ρ.r2 • k.hRand) ++
        S.g1Bytes u.nym ++ nymBytes S (eid.map fun e : AttrNymPart S => (e.nym, e.t4)) ++
        nymBytes S (rh.map fun e : AttrNymPart S => (e.nym, e.t4)) ++ Buf.padTo S.scalarLen ipk.hash ++
        D ++ msg := by
    rw [honestTranscript, he', hr']
  rw [← htr] at hpd
  simp only [finalise, he, hr, h1, h2, Res.ok_bind, h.alg, hpd, secondHash_eq _ _ _ hle,
    attrResponses_eq h, Res.pure_def]
  simp only [toWire, honest, honestChallenge, Spec.second, Option.map_map, Function.comp_def]
  rfl

/-- `NewSignature` computes the wire form of the honest signature. -/
theorem newSignature_eq {cred : Credential} {ipk : IssuerPublicKey} {D msg : Bytes}
    {rhIndex eidIndex : Int} {cri : CRI} {ρ : SigRand S} {k : Spec.Key S} {u : Holder S}
    (h : SignPre T cred ipk D rhIndex cri ρ k u)
    {st : SigType} (hst : st = .standard ∨ st = .eidNym ∨ st = .eidNymRhNym)
    (hDe : st.hasEid → 0 ≤ eidIndex ∧ D[eidIndex.toNat]? = some 0)
    (hDr : st.hasRh → D[rhIndex.toNat]? = some 0)
    {md : Option (SignerMetadata S)} {eid rh : Option (AttrNymPart S)}
    (he : optional st.hasEid (attrNymPart T cred ipk (hiddenIndices D) ρ.rAttrs eidIndex md.isSome
      (md.bind (·.eidNymAuditData)) ρ.rEid ρ.rREid) = .ok eid)
    (hr : optional st.hasRh (attrNymPart T cred ipk (hiddenIndices D) ρ.rAttrs rhIndex md.isSome
      (md.bind (·.rhNymAuditData)) ρ.rRh ρ.rRRh) = .ok rh) :
    newSignature T cred u.sk u.nym u.rNym ipk D msg rhIndex eidIndex cri ρ st md = .ok
      (toWire T cri (honest k u D ρ eid rh (honestChallenge k u D ρ eid rh ipk.hash msg)),
        honestMeta eid rh) := by
  have hp := prepare_eq h
  have hie : st.hasEid → Res.index D eidIndex = .ok 0 := fun hs => Res.index_eq_ok.mpr (hDe hs)
  have hir : st.hasRh → Res.index D rhIndex = .ok 0 := fun hs =>
    Res.index_eq_ok.mpr ⟨h.rh_nonneg, hDr hs⟩
  rcases hst with rfl | rfl | rfl
  · simp only [newSignature, hp, Res.ok_bind]
    have he0 : eid = none := by simpa [optional, SigType.hasEid, eq_comm] using he
    subst he0
    exact finalise_eq h (.inl rfl) (by rfl) hr hp
  · simp only [newSignature, hie rfl, Res.ok_bind, ne_eq, not_true_eq_false, decide_false,
      Res.guardErr_false]
    rw [hp, Res.ok_bind]
    exact finalise_eq h (.inr (.inl rfl)) he hr hp
  · simp only [newSignature, hie rfl, hir rfl, Res.ok_bind, ne_eq, not_true_eq_false, decide_false,
      Res.guardErr_false]
    rw [hp, Res.ok_bind]
    exact finalise_eq h (.inr (.inr rfl)) he hr hp

end Idemix.Dlog
