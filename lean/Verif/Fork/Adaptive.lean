import Verif.Fork.Dlog

/-!
# C90: the values that signatures disclose

The challenge of a signature does not depend on the values of the disclosed attributes, only on which are disclosed. A holder of a
credential can therefore settle on values after seeing the challenge.
-/

namespace Idemix.Fork

open Idemix.Dlog
open Idemix (Suite Res Bytes)
open Spec

variable {S : Suite} (T : Translator S)

/-! ## Signatures for values that the credential does not have -/

/-- The random choices of a signer, where the hash function is another one. -/
def Spec.sameRand (ρ : SigRand S) (h : Bytes → S.F) : SigRand (S.withHash h) :=
  ⟨ρ.r1, ρ.r2, ρ.nonce, ρ.rSk, ρ.re, ρ.rR2, ρ.rR3, ρ.rSPrime, ρ.rRNym, ρ.rAttrs, ρ.rEid, ρ.rREid, ρ.rRh, ρ.rRRh⟩

/-- The values of a list, each moved by `c⁻¹ * δ`. -/
def Spec.moved (values : List (Option S.F)) (δ : List S.F) (c : S.F) : List (Option S.F) :=
  List.zipWith (fun v d => v.map (· + c⁻¹ * d)) values δ

/-- What a dishonest holder of a credential does to sign for values other than those of the credential. They run `NewSignature` with the
answer 1 of the hash function, to see the commitments; they ask the hash function about these as if the values were moved by `δ`; they run
`NewSignature` again, with the answer that they got, and claim values that are moved accordingly. -/
def Spec.misdisclose (cred : Credential) (sk : S.F) (nym : S.G1) (rNym : S.F) (ipk : IssuerPublicKey) (D msg : Bytes)
    (rhIndex eidIndex : Int) (cri : CRI) (ρ : SigRand S) (st : SigType) (vt : VerType) (values : List (Option S.F)) (δ : List S.F) :
    Res (Signature × List (Option S.F)) := do
  let (sig₁, _) ← newSignature (T.withHash fun _ => 1) cred sk nym rNym ipk D msg rhIndex eidIndex cri (sameRand ρ _) st none
  let c := S.hashToZr (Dlog.Spec.second S (question T ipk ⟨D, moved values δ 1, rhIndex, eidIndex, vt⟩ sig₁ msg) ρ.nonce)
  let (sig, _) ← newSignature (T.withHash fun _ => c) cred sk nym rNym ipk D msg rhIndex eidIndex cri (sameRand ρ _) st none
  pure (sig, moved values δ c)

variable {T}

/-- The part of a commitment to the attribute `a` at `i`. -/
def part (k : Dlog.Spec.Key S) (D : Bytes) (ρ : SigRand S) (i : Nat) (a rNew rr : S.F) : AttrNymPart S :=
  ⟨a • k.hAttrs.getD i 0 + rNew • k.hRand, ρ.rAttrs.getD (Dlog.Spec.respIdx D i) 0 • k.hAttrs.getD i 0 + rr • k.hRand, rNew, rr, a⟩

theorem part_eq {cred : Credential} {ipk : IssuerPublicKey} {D : Bytes} {rhIndex : Int} {cri : CRI} {ρ : SigRand S}
    {k : Dlog.Spec.Key S} {u : Holder S} (h : SignPre T cred ipk D rhIndex cri ρ k u) {idx : Int} (h0 : 0 ≤ idx)
    (hD : D[idx.toNat]? = some 0) (rNew rr : S.F) (audit : Option (AuditData S)) :
    attrNymPart T cred ipk (hiddenIndices D) ρ.rAttrs idx false audit rNew rr =
      .ok (part k D ρ idx.toNat (u.attrs.getD idx.toNat 0) rNew rr) := by
  have hi := (List.getElem?_eq_some_iff.mp hD).1
  have hi' : idx.toNat < u.attrs.length := by rw [h.u_len]; exact hi
  refine (attrNymPart_eq_ok h).mpr ⟨h0, ?_, lt_of_lt_of_le hi h.bases, count_take_lt hD, rfl, rfl, rfl, .inl ⟨rfl, rfl⟩⟩
  simp [part, hi']

/-- The commitments of a signer. -/
def parts (k : Dlog.Spec.Key S) (u : Holder S) (D : Bytes) (ρ : SigRand S) (b : Bool) (i : Nat) (rNew rr : S.F) : Option (AttrNymPart S) :=
  if b then some (part k D ρ i (u.attrs.getD i 0) rNew rr) else none

/-- What `NewSignature` makes when the hash function is `h`. -/
theorem newSignature_withHash {cred : Credential} {ipk : IssuerPublicKey} {D : Bytes} (msg : Bytes) {rhIndex eidIndex : Int} {cri : CRI}
    {ρ : SigRand S} {k : Dlog.Spec.Key S} {u : Holder S} (hp : SignPre T cred ipk D rhIndex cri ρ k u)
    (hrh : D[rhIndex.toNat]? = some 0) {st : SigType} (hst : st = .standard ∨ st = .eidNym ∨ st = .eidNymRhNym)
    (hDe : st.hasEid = true → 0 ≤ eidIndex ∧ D[eidIndex.toNat]? = some 0) (c : S.F) :
    ∃ md, newSignature (T.withHash fun _ => c) cred u.sk u.nym u.rNym ipk D msg rhIndex eidIndex cri (sameRand ρ _) st none =
      .ok (toWire T cri (honest k u D ρ (parts k u D ρ st.hasEid eidIndex.toNat ρ.rEid ρ.rREid)
        (parts k u D ρ st.hasRh rhIndex.toNat ρ.rRh ρ.rRRh) c), md) := by
  have hp' : SignPre (T.withHash fun _ => c) cred ipk D rhIndex cri (sameRand ρ _) ⟨k.hSk, k.hRand, k.hAttrs, k.w⟩
      ⟨u.A, u.B, u.e, u.s, u.sk, u.nym, u.rNym, u.attrs⟩ :=
    ⟨⟨hp.reads.hSk, hp.reads.hRand, hp.reads.hAttrs, hp.reads.w⟩, hp.a, hp.b, hp.e, hp.s, hp.attrs, hp.attrs_len, hp.D_len,
      hp.rh_nonneg, hp.rh_lt, hp.alg, hp.tape, hp.bases, hp.rh_resp⟩
  let he' := parts (S := S.withHash fun _ => c) ⟨k.hSk, k.hRand, k.hAttrs, k.w⟩ ⟨u.A, u.B, u.e, u.s, u.sk, u.nym, u.rNym, u.attrs⟩ D
    (sameRand ρ _) st.hasEid eidIndex.toNat ρ.rEid ρ.rREid
  have he : Dlog.optional st.hasEid (attrNymPart (T.withHash fun _ => c) cred ipk (hiddenIndices D) (sameRand ρ fun _ => c).rAttrs eidIndex
      (none : Option (SignerMetadata (S.withHash fun _ => c))).isSome
      ((none : Option (SignerMetadata (S.withHash fun _ => c))).bind (·.eidNymAuditData)) ρ.rEid ρ.rREid) =
      .ok he' := by
    simp only [he']
    cases hs : st.hasEid with
    | false => rfl
    | true =>
      have := part_eq hp' (hDe hs).1 (hDe hs).2 ρ.rEid ρ.rREid none
      simp only [Dlog.optional, if_true, parts]
      rw [show (none : Option (SignerMetadata (S.withHash fun _ => c))).isSome = false from rfl,
        show ((none : Option (SignerMetadata (S.withHash fun _ => c))).bind (·.eidNymAuditData)) = none from rfl, this]
      rfl
  let hr' := parts (S := S.withHash fun _ => c) ⟨k.hSk, k.hRand, k.hAttrs, k.w⟩ ⟨u.A, u.B, u.e, u.s, u.sk, u.nym, u.rNym, u.attrs⟩ D
    (sameRand ρ _) st.hasRh rhIndex.toNat ρ.rRh ρ.rRRh
  have hr : Dlog.optional st.hasRh (attrNymPart (T.withHash fun _ => c) cred ipk (hiddenIndices D) (sameRand ρ fun _ => c).rAttrs rhIndex
      (none : Option (SignerMetadata (S.withHash fun _ => c))).isSome
      ((none : Option (SignerMetadata (S.withHash fun _ => c))).bind (·.rhNymAuditData)) ρ.rRh ρ.rRRh) =
      .ok hr' := by
    simp only [hr']
    cases hs : st.hasRh with
    | false => rfl
    | true =>
      have := part_eq hp' hp.rh_nonneg hrh ρ.rRh ρ.rRRh none
      simp only [Dlog.optional, if_true, parts]
      rw [show (none : Option (SignerMetadata (S.withHash fun _ => c))).isSome = false from rfl,
        show ((none : Option (SignerMetadata (S.withHash fun _ => c))).bind (·.rhNymAuditData)) = none from rfl, this]
      rfl
  refine ⟨honestMeta he' hr', (newSignature_eq hp' hst hDe (fun _ => hrh) he hr).trans ?_⟩
  simp only [he', hr']
  cases st.hasEid <;> cases st.hasRh <;> rfl

theorem dis_zipWith {α β γ : Type} (f : α → β → γ) (D : Bytes) (as : List α) (bs : List β) :
    dis D (List.zipWith f as bs) = List.zipWith f (dis D as) (dis D bs) := by
  induction D generalizing as bs with
  | nil => simp
  | cons d ds ih =>
    cases as with
    | nil => simp
    | cons a as =>
      cases bs with
      | nil => simp
      | cons b bs =>
        by_cases hd : d = 0
        · subst hd
          simpa using ih as bs
        · simp [dis_cons_ne hd, ih]

/-- The disclosed values that are claimed. -/
theorem dis_moved {D : Bytes} {values : List (Option S.F)} {vs : List S.F} (h : vs.map some = dis D values) (δ : List S.F) (c : S.F) :
    (List.zipWith (fun v d => v + c⁻¹ * d) vs (dis D δ)).map some = dis D (moved values δ c) := by
  rw [moved, dis_zipWith, ← h, List.map_zipWith, List.zipWith_map_left]
  rfl

theorem lin_moved (vs ds : List S.F) (h : vs.length = ds.length) (Ps : List S.G1) (c : S.F) (hc : c ≠ 0) :
    c • S.lin (List.zipWith (fun v d => v + c⁻¹ * d) vs ds) Ps = c • S.lin vs Ps + S.lin ds Ps := by
  rw [lin_responses _ _ _ _ h, smul_add, smul_smul, mul_inv_cancel₀ hc, one_smul]

theorem honest_t2_moved {k : Dlog.Spec.Key S} {u : Holder S} {D : Bytes} {ρ : SigRand S} {eid rh : Option (AttrNymPart S)} {c : S.F}
    (hB : u.B = Dlog.Spec.signed k u.sk u.s u.attrs) (hr : ρ.r1 ≠ 0) (ha : u.attrs.length = D.length) (hl : ρ.rAttrs.length = nHid D)
    (δ : List S.F) (hδ : δ.length = D.length) (hc : c ≠ 0) :
    (honest k u D ρ eid rh c).t2 k D (List.zipWith (fun v d => v + c⁻¹ * d) (dis D u.attrs) (dis D δ)) =
      ρ.rSPrime • k.hRand + (ρ.rR3 • (ρ.r1 • u.B - ρ.r2 • k.hRand) + ρ.rSk • k.hSk) +
        S.lin ρ.rAttrs (hid D k.hAttrs) + S.lin (dis D δ) (dis D k.hAttrs) := by
  rw [← honest_t2 (eid := eid) (rh := rh) (c := c) hB hr ha hl]
  have hlen : (dis D u.attrs).length = (dis D δ).length := by
    rw [dis_length D _ (le_of_eq ha.symm), dis_length D _ (le_of_eq hδ.symm)]
  have := lin_moved (dis D u.attrs) (dis D δ) hlen (dis D k.hAttrs) c hc
  simp only [Dlog.Spec.Sig.t2, honest, smul_add]
  rw [this]
  abel

theorem honest_transcript_moved {k : Dlog.Spec.Key S} {u : Holder S} {D : Bytes} {ρ : SigRand S}
    {eid rh : Option (AttrNymPart S)} {c : S.F} {hash msg : Bytes} {ei ri : Nat}
    (hB : u.B = Dlog.Spec.signed k u.sk u.s u.attrs) (hr : ρ.r1 ≠ 0) (ha : u.attrs.length = D.length)
    (hl : ρ.rAttrs.length = nHid D) (hn : u.nym = Dlog.Spec.nym k u.sk u.rNym)
    (hpe : ∀ p, eid = some p → GoodPart k u D ρ ei p) (hpr : ∀ p, rh = some p → GoodPart k u D ρ ri p)
    (δ : List S.F) (hδ : δ.length = D.length) (hc : c ≠ 0) :
    (honest k u D ρ eid rh c).transcript (sigLabelOf (honest k u D ρ eid rh c)) k hash D
      (List.zipWith (fun v d => v + c⁻¹ * d) (dis D u.attrs) (dis D δ)) ei ri msg =
    (honest k u D ρ eid rh 1).transcript (sigLabelOf (honest k u D ρ eid rh 1)) k hash D
      (List.zipWith (fun v d => v + 1⁻¹ * d) (dis D u.attrs) (dis D δ)) ei ri msg := by
  have key : ∀ c : S.F, c ≠ 0 → (honest k u D ρ eid rh c).transcript (sigLabelOf (honest k u D ρ eid rh c)) k hash D
      (List.zipWith (fun v d => v + c⁻¹ * d) (dis D u.attrs) (dis D δ)) ei ri msg =
      (if rh.isSome then signWithEidNymRhNymLabel else if eid.isSome then signWithEidNymLabel else signLabel) ++
      S.g1Bytes (ρ.re • ρ.r1 • u.A + ρ.rR2 • k.hRand) ++
      S.g1Bytes (ρ.rSPrime • k.hRand + (ρ.rR3 • (ρ.r1 • u.B - ρ.r2 • k.hRand) + ρ.rSk • k.hSk) +
        S.lin ρ.rAttrs (hid D k.hAttrs) + S.lin (dis D δ) (dis D k.hAttrs)) ++
      S.g1Bytes (ρ.rSk • k.hSk + ρ.rRNym • k.hRand) ++ S.g1Bytes (ρ.r1 • u.A) ++
      S.g1Bytes (ρ.r1 • u.B - u.e • ρ.r1 • u.A) ++ S.g1Bytes (ρ.r1 • u.B - ρ.r2 • k.hRand) ++
      S.g1Bytes u.nym ++ nymBytes S (eid.map fun p => (p.nym, p.t4)) ++
      nymBytes S (rh.map fun p => (p.nym, p.t4)) ++ Buf.padTo S.scalarLen hash ++ D ++ msg := by
    intro c hc
    rw [Dlog.Spec.Sig.transcript, honest_t1, honest_t2_moved hB hr ha hl δ hδ hc, honest_t3 hn]
    have h1 := honest_nymPart (eid := eid) (rh := rh) (c := c) hpe hl
    have h2 := honest_nymPart (eid := eid) (rh := rh) (c := c) hpr hl
    have e1 : (honest k u D ρ eid rh c).eid = eid.map fun p => (p.nym, p.rr + c * p.r) := rfl
    have e2 : (honest k u D ρ eid rh c).rh = rh.map fun p => (p.nym, p.rr + c * p.r) := rfl
    rw [e1, e2, h1, h2]
    simp only [sigLabelOf, Dlog.Spec.Sig.label, e1, e2, Option.isSome_map]
    rfl
  rw [key c hc, key 1 one_ne_zero]

variable (T) in
/-- C90 (violated). Whoever holds a credential and discloses an attribute can make signatures that are accepted for other values of it than
the credential has: for every honest signer in the sense of C09 and every displacement `δ`, what `misdisclose` makes is accepted, unless the
answer of the hash function is zero. No choice of values is possible: they depend on the answer. -/
theorem C90_violated {RevPk : Type} (cred : Credential) (ipk : IssuerPublicKey) (sk : S.F) (nym : S.G1) (rNym : S.F) (D msg : Bytes)
    (rhIndex eidIndex : Int) (cri : CRI) (ρ : SigRand S) (h : HonestSigner T cred ipk sk nym rNym D rhIndex cri)
    (htape : ρ.rAttrs.length = D.count 0) (hblind : ρ.r1 ≠ 0) (st : SigType) (vt : VerType) (hm : Dlog.Spec.Matching st vt)
    (heid : st ≠ .standard → 0 ≤ eidIndex ∧ D[eidIndex.toNat]? = some 0) (values : List (Option S.F))
    (hvals : Dlog.Spec.SuppliesDisclosed D cred values) (δ : List S.F) (hδ : δ.length = D.length) :
    ∃ sig values', misdisclose T cred sk nym rNym ipk D msg rhIndex eidIndex cri ρ st vt values δ = .ok (sig, values') ∧
      (S.zrOfBytes sig.proofC ≠ 0 →
        (∀ (revPk : RevPk) (epoch : Int), sig.ver T D (some ipk) msg values' rhIndex eidIndex revPk epoch vt none = .ok ()) ∧
        ((∃ (i : Nat) (d : UInt8) (x : S.F), D[i]? = some d ∧ d ≠ 0 ∧ δ[i]? = some x ∧ x ≠ 0) →
          ¬ Dlog.Spec.SuppliesDisclosed D cred values')) := by
  obtain ⟨k, u, hp, rfl, rfl, rfl, hB, hc, hA, hn⟩ := h.pre
  replace hp := hp ρ htape
  have hst := hm.sigType
  have hDe : st.hasEid = true → 0 ≤ eidIndex ∧ D[eidIndex.toNat]? = some 0 := by
    intro hs; apply heid; rintro rfl; cases hs
  obtain ⟨md₁, e₁⟩ := newSignature_withHash msg hp h.rh_hidden.2 hst hDe (1 : S.F)
  have e₂ := newSignature_withHash msg hp h.rh_hidden.2 hst hDe
  set eid := parts k u D ρ st.hasEid eidIndex.toNat ρ.rEid ρ.rREid with heq
  set rh := parts k u D ρ st.hasRh rhIndex.toNat ρ.rRh ρ.rRRh with hrq
  have he1 : eid.isSome = st.hasEid := by rw [heq, parts]; cases st.hasEid <;> rfl
  have hr1 : rh.isSome = st.hasRh := by rw [hrq, parts]; cases st.hasRh <;> rfl
  have hpe : ∀ p, eid = some p → 0 ≤ eidIndex ∧ GoodPart k u D ρ eidIndex.toNat p := by
    intro p hpe
    have hs : st.hasEid = true := by rw [← he1, hpe]; rfl
    rw [heq, parts, if_pos hs, Option.some.injEq] at hpe
    subst hpe
    exact ⟨(hDe hs).1, GoodPart.of_eq_ok hp (part_eq hp (hDe hs).1 (hDe hs).2 ρ.rEid ρ.rREid none) (hDe hs).2⟩
  have hpr : ∀ p, rh = some p → GoodPart k u D ρ rhIndex.toNat p := by
    intro p hpe
    have hs : st.hasRh = true := by rw [← hr1, hpe]; rfl
    rw [hrq, parts, if_pos hs, Option.some.injEq] at hpe
    subst hpe
    exact GoodPart.of_eq_ok hp (part_eq hp hp.rh_nonneg h.rh_hidden.2 ρ.rRh ρ.rRRh none) h.rh_hidden.2
  have hv : (dis D u.attrs).map some = dis D values := by rw [hp.attrs]; exact supplies_dis hvals hp.attrs_len
  have checks : ∀ c, verTypeChecks (toWire T cri (honest k u D ρ eid rh c)) vt = .ok () ∧
      verifyEid (toWire T cri (honest k u D ρ eid rh c)) vt = (honest k u D ρ eid rh c).eid.isSome ∧
      verifyRh (toWire T cri (honest k u D ρ eid rh c)) vt = (honest k u D ρ eid rh c).rh.isSome := by
    intro c
    exact toWire_checks hm (by simpa [honest] using he1) (by simpa [honest] using hr1)
  have views : ∀ c, Views T (toWire T cri (honest k u D ρ eid rh c)) vt (honest k u D ρ eid rh c) := fun c =>
    ⟨toWire_decodes T cri _, toWire_nym _ (checks c).2.1, toWire_nym _ (checks c).2.2⟩
  rw [misdisclose, e₁]
  simp only [Res.ok_bind]
  rw [question_of (p := ⟨D, moved values δ 1, rhIndex, eidIndex, vt⟩) hp.reads (views 1) (dis_moved hv δ 1)]
  simp only
  set c := S.hashToZr (Dlog.Spec.second S ((honest k u D ρ eid rh 1).transcript (sigLabelOf (honest k u D ρ eid rh 1)) k ipk.hash D
    (List.zipWith (fun v d => v + 1⁻¹ * d) (dis D u.attrs) (dis D δ)) eidIndex.toNat rhIndex.toNat msg) ρ.nonce) with hcdef
  obtain ⟨md₂, e₃⟩ := e₂ c
  rw [e₃]
  refine ⟨_, _, rfl, fun hc0 => ?_⟩
  replace hc0 : c ≠ 0 := by simpa [toWire, honest] using hc0
  refine ⟨fun revPk epoch => ver_ok_iff.mpr ⟨ipk, k, honest k u D ρ eid rh c,
    List.zipWith (fun v d => v + c⁻¹ * d) (dis D u.attrs) (dis D δ), rfl, ⟨hp.reads, (views c).decodes, (views c).eid, (views c).rh,
      hp.rh_nonneg, hp.rh_lt, hp.D_len, ⟨_, rfl, rfl⟩, (checks c).1, h.cri_key, ?_, hp.bases, hp.rh_resp, ?_, dis_moved hv δ c, ?_,
      (fun m p hm => by cases hm), (fun m p hm => by cases hm)⟩, ?_, ?_, ?_⟩, ?_⟩
  · simp [honest, hp.tape, hid_length D _ (le_of_eq hp.u_len.symm)]
  · intro hs
    obtain ⟨p, hp'⟩ : ∃ p, eid = some p := Option.isSome_iff_exists.mp (by simpa [honest] using hs)
    obtain ⟨q1, q2⟩ := hpe p hp'
    exact ⟨q1, q2.lt, q2.resp⟩
  · rw [List.length_zipWith, dis_length D _ (le_of_eq hp.u_len.symm), dis_length D _ (le_of_eq hδ.symm), min_self]
  · exact (honest_accepted hB hc hA hblind hp.u_len hp.tape hn (fun p h => (hpe p h).2) hpr _ rfl
      (hash := ipk.hash) (msg := msg)).aPrime_ne
  · exact (honest_accepted hB hc hA hblind hp.u_len hp.tape hn (fun p h => (hpe p h).2) hpr _ rfl
      (hash := ipk.hash) (msg := msg)).pairing
  · rw [honest_transcript_moved hB hblind hp.u_len hp.tape hn (fun p h => (hpe p h).2) hpr δ hδ hc0]
    exact hcdef
  · rintro ⟨i, d, x, hD, hd, hx, hx0⟩ hs
    have hi : i < cred.attrs.length := by rw [hp.attrs_len]; exact (List.getElem?_eq_some_iff.mp hD).1
    have a1 := hvals.2 i d _ hD hd (List.getElem?_eq_getElem hi)
    have a2 := hs.2 i d _ hD hd (List.getElem?_eq_getElem hi)
    rw [moved, List.getElem?_zipWith, a1, hx] at a2
    simp only [Option.map_some, Option.some.injEq, add_eq_left, mul_eq_zero, inv_eq_zero] at a2
    exact a2.elim hc0 hx0

/-! ## Values from a given collection -/

open scoped Classical in
/-- The forking lemma when the forger also chooses one of `n` alternatives: pairs of runs with the same choice. -/
theorem forks_choice {F α : Type} [Zero F] [Fintype F] (g : Game F α) (q : Nat) (decode : Bytes → F)
    (decode_second : ∀ a c, decode (g.second a c) = c) {n : Nat} (choice : α → Fin n) :
    let W := Finset.univ.filter fun ω : Fin q → F => ∃ a tab, g.Wins ω a tab
    Fintype.card F * W.card ^ 2 ≤
      n * (q * Fintype.card F * (Finset.univ.filter fun p : (Fin q → F) × (Fin q → F) =>
        ∃ r, g.fork p.1 p.2 = some r ∧ g.Forked r ∧ choice r.1.1 = choice r.2.1).card +
      2 * q ^ 2 * W.card * Fintype.card (Fin q → F)) := by
  intro W
  let G (i : Fin n) : Game F α := { g with accepts := fun h a => g.accepts h a ∧ choice a = i }
  let Wi (i : Fin n) := Finset.univ.filter fun ω : Fin q → F => ∃ a tab, (G i).Wins ω a tab
  let P := Finset.univ.filter fun p : (Fin q → F) × (Fin q → F) =>
    ∃ r, g.fork p.1 p.2 = some r ∧ g.Forked r ∧ choice r.1.1 = choice r.2.1
  let Pi (i : Fin n) := Finset.univ.filter fun p : (Fin q → F) × (Fin q → F) => ∃ r, (G i).fork p.1 p.2 = some r ∧ (G i).Forked r
  have each : ∀ i, Fintype.card F * (Wi i).card ^ 2 ≤ q * Fintype.card F * (Pi i).card +
      2 * q ^ 2 * (Wi i).card * Fintype.card (Fin q → F) := fun i => forks (G i) q decode decode_second
  have hW : W = Finset.univ.biUnion Wi := by
    ext ω
    simp only [W, Wi, Finset.mem_filter, Finset.mem_univ, true_and, Finset.mem_biUnion]
    constructor
    · rintro ⟨a, tab, h1, h2⟩
      exact ⟨choice a, a, tab, h1, h2, rfl⟩
    · rintro ⟨i, a, tab, h1, h2, -⟩
      exact ⟨a, tab, h1, h2⟩
  have dW : ∀ i ∈ (Finset.univ : Finset (Fin n)), ∀ j ∈ (Finset.univ : Finset (Fin n)), i ≠ j → Disjoint (Wi i) (Wi j) := by
    intro i _ j _ hij
    rw [Finset.disjoint_left]
    intro ω h1 h2
    simp only [Wi, Finset.mem_filter, Finset.mem_univ, true_and] at h1 h2
    obtain ⟨a, tab, e1, -, rfl⟩ := h1
    obtain ⟨a', tab', e2, -, rfl⟩ := h2
    have e2 : g.play ω = some (a', tab') := e2
    have e1 : g.play ω = some (a, tab) := e1
    rw [e1, Option.some.injEq, Prod.mk.injEq] at e2
    exact hij (by rw [e2.1])
  have cW : W.card = ∑ i, (Wi i).card := by rw [hW, Finset.card_biUnion dW]
  have dP : ∀ i ∈ (Finset.univ : Finset (Fin n)), ∀ j ∈ (Finset.univ : Finset (Fin n)), i ≠ j → Disjoint (Pi i) (Pi j) := by
    intro i _ j _ hij
    rw [Finset.disjoint_left]
    intro ω h1 h2
    simp only [Pi, Finset.mem_filter, Finset.mem_univ, true_and] at h1 h2
    obtain ⟨r, e1, h1⟩ := h1
    obtain ⟨r', e2, h2⟩ := h2
    have e2 : g.fork ω.1 ω.2 = some r' := e2
    have e1 : g.fork ω.1 ω.2 = some r := e1
    rw [e1, Option.some.injEq] at e2
    subst e2
    exact hij (h1.1.2.symm.trans h2.1.2)
  have cP : ∑ i, (Pi i).card ≤ P.card := by
    rw [← Finset.card_biUnion dP]
    refine Finset.card_le_card fun ω h => ?_
    simp only [Pi, P, Finset.mem_biUnion, Finset.mem_filter, Finset.mem_univ, true_and] at h ⊢
    obtain ⟨i, r, e, ⟨a1, c1⟩, ⟨a2, c2⟩, h3, h4⟩ := h
    exact ⟨r, e, ⟨a1, a2, h3, h4⟩, c1.trans c2.symm⟩
  have hsq : W.card ^ 2 ≤ n * ∑ i, (Wi i).card ^ 2 := by
    have := sq_sum_le_card_mul_sum_sq (s := (Finset.univ : Finset (Fin n))) (f := fun i => (Wi i).card)
    rw [← cW, Finset.card_univ, Fintype.card_fin, Nat.cast_id] at this
    exact this
  calc Fintype.card F * W.card ^ 2 ≤ Fintype.card F * (n * ∑ i, (Wi i).card ^ 2) := Nat.mul_le_mul_left _ hsq
    _ = n * ∑ i, Fintype.card F * (Wi i).card ^ 2 := by rw [← Finset.mul_sum]; ring
    _ ≤ n * ∑ i, (q * Fintype.card F * (Pi i).card + 2 * q ^ 2 * (Wi i).card * Fintype.card (Fin q → F)) :=
      Nat.mul_le_mul_left _ (Finset.sum_le_sum fun i _ => each i)
    _ = n * (q * Fintype.card F * ∑ i, (Pi i).card + 2 * q ^ 2 * W.card * Fintype.card (Fin q → F)) := by
      rw [Finset.sum_add_distrib, ← Finset.mul_sum, ← Finset.sum_mul, ← Finset.mul_sum, ← cW]
    _ ≤ _ := Nat.mul_le_mul_left _ (Nat.add_le_add_right (Nat.mul_le_mul_left _ cP) _)

variable (T) in
/-- A forger that also chooses one of the policies `ps`, and a verifier that accepts each. -/
def Spec.signaturesFor (ipk : IssuerPublicKey) {n : Nat} (ps : Fin n → Policy S) (forger : Strategy S.F (Signature × Bytes × Fin n)) :
    Game S.F (Signature × Bytes × Fin n) where
  forger := forger
  first a := question T ipk (ps a.2.2) a.1 a.2.1
  second a c := S.zrBytes c ++ S.zrBytes (S.zrOfBytes a.1.nonce)
  accepts h a := a.1.ver (T.withHash h) (ps a.2.2).D (some ipk) a.2.1 (ps a.2.2).values (ps a.2.2).rhIndex (ps a.2.2).eidIndex () 0
    (ps a.2.2).vt none = .ok ()

open scoped Classical in
/-- C90 (partial). If the values come from a given collection of `n` choices, then whoever makes signatures that are accepted for the
fraction `ε` of all answers of the hash function has a credential with the values that they claim: for at least the fraction
`ε² / (n q) - 2 q ε / |F|` of all pairs of answers it is computed from two runs, both with these values.
What is missing: collections of values that are not small compared with the field, for which the property is false. -/
theorem C90_collection_partial [Fintype S.F] (ipk : IssuerPublicKey) {n : Nat} (ps : Fin n → Policy S) (hvt : ∀ i, (ps i).vt ≠ .bestEffort)
    (forger : Strategy S.F (Signature × Bytes × Fin n)) (q : Nat) :
    let g := signaturesFor T ipk ps forger
    let W := Finset.univ.filter fun ω : Fin q → S.F => ∃ a tab, g.Wins ω a tab
    Fintype.card S.F * W.card ^ 2 ≤
      n * (q * Fintype.card S.F * (Finset.univ.filter fun ωs : (Fin q → S.F) × (Fin q → S.F) =>
        ∃ r x attrs, g.fork ωs.1 ωs.2 = some r ∧ credentialOf T (ps r.1.1.2.2) r.1.1.1 r.2.1.1 = .ok (x, attrs) ∧
          Knows T ipk (ps r.1.1.2.2) r.1.1.1 x attrs).card +
      2 * q ^ 2 * W.card * Fintype.card (Fin q → S.F)) := by
  intro g W
  refine le_trans (forks_choice g q (fun x => S.zrOfBytes (x.take S.scalarLen)) ?_ (fun a => a.2.2))
    (Nat.mul_le_mul_left _ (Nat.add_le_add_right (Nat.mul_le_mul_left _ (Finset.card_le_card ?_)) _))
  · intro a c
    show S.zrOfBytes ((S.zrBytes c ++ _).take S.scalarLen) = c
    rw [List.take_append_of_le_length (by simp), List.take_of_length_le (by simp), S.zrOfBytes_zrBytes]
  · intro ωs h
    simp only [Finset.mem_filter, Finset.mem_univ, true_and] at h ⊢
    obtain ⟨⟨⟨⟨sig₁, msg₁, i⟩, tab₁⟩, ⟨⟨sig₂, msg₂, j⟩, tab₂⟩⟩, h1, h2, h3⟩ := h
    obtain rfl : i = j := h3
    have hf : (signatures T ipk (ps i) (.done (sig₁, msg₁))).Forked (((sig₁, msg₁), tab₁), ((sig₂, msg₂), tab₂)) := h2
    obtain ⟨x, attrs, h4, h5, -⟩ := forked_knows (hvt i) hf
    exact ⟨_, x, attrs, h1, h4, h5⟩

/-! ## Any values -/

variable (T) in
/-- A forger that also chooses the values, and a verifier who fixes the other parts of the policy `p`. -/
def Spec.signaturesAny (ipk : IssuerPublicKey) (p : Policy S) (forger : Strategy S.F (Signature × Bytes × List (Option S.F))) :
    Game S.F (Signature × Bytes × List (Option S.F)) where
  forger := forger
  first a := question T ipk { p with values := a.2.2 } a.1 a.2.1
  second a c := S.zrBytes c ++ S.zrBytes (S.zrOfBytes a.1.nonce)
  accepts h a := a.1.ver (T.withHash h) p.D (some ipk) a.2.1 a.2.2 p.rhIndex p.eidIndex () 0 p.vt none = .ok ()

variable (T) in
/-- The credential of C10 from two signatures for perhaps different values. -/
def Spec.credentialAny (p : Policy S) (a₁ a₂ : Signature × Bytes × List (Option S.F)) : Res (Dlog.Spec.Extracted S × List S.F) := do
  let v₁ ← readSig T a₁.1 p.vt
  let v₂ ← readSig T a₂.1 p.vt
  let x := v₁.extract v₂
  let shown := List.zipWith (fun b₁ b₂ => Dlog.Spec.witness v₁.c v₂.c (v₁.c * b₁) (v₂.c * b₂))
    (Policy.disclosed { p with values := a₁.2.2 }) (Policy.disclosed { p with values := a₂.2.2 })
  pure (x, merge p.D x.hidden shown)

open scoped Classical in
/-- C90 (partial). Whoever makes signatures that are accepted for any values, which they may choose at the end, has a credential of the
issuer with the secret of the pseudonym: it is computed for at least the fraction `ε² / q - 2 q ε / |F|` of all pairs of answers.
What is missing: that the credential has the values, which is false (`C90_violated`). -/
theorem C90_credential_partial [Fintype S.F] (ipk : IssuerPublicKey) (p : Policy S) (hvt : p.vt ≠ .bestEffort)
    (forger : Strategy S.F (Signature × Bytes × List (Option S.F))) (q : Nat) :
    let g := signaturesAny T ipk p forger
    let W := Finset.univ.filter fun ω : Fin q → S.F => ∃ a tab, g.Wins ω a tab
    Fintype.card S.F * W.card ^ 2 ≤
      q * Fintype.card S.F * (Finset.univ.filter fun ωs : (Fin q → S.F) × (Fin q → S.F) =>
        ∃ r x attrs k nym, g.fork ωs.1 ωs.2 = some r ∧ credentialAny T p r.1.1 r.2.1 = .ok (x, attrs) ∧ Reads T ipk k ∧
          T.g1FromProto r.1.1.1.nym = .ok nym ∧ attrs.length = p.D.length ∧ Dlog.Spec.IsCredential k x.A x.e x.s x.sk attrs ∧
          nym = Dlog.Spec.nym k x.sk x.rNym).card +
      2 * q ^ 2 * W.card * Fintype.card (Fin q → S.F) := by
  intro g W
  refine le_trans (forks g q (fun x => S.zrOfBytes (x.take S.scalarLen)) ?_)
    (Nat.add_le_add_right (Nat.mul_le_mul_left _ (Finset.card_le_card ?_)) _)
  · intro a c
    show S.zrOfBytes ((S.zrBytes c ++ _).take S.scalarLen) = c
    rw [List.take_append_of_le_length (by simp), List.take_of_length_le (by simp), S.zrOfBytes_zrBytes]
  · intro ωs h
    simp only [Finset.mem_filter, Finset.mem_univ, true_and] at h ⊢
    obtain ⟨r, h1, acc₁, acc₂, hfirst, hans⟩ := h
    obtain ⟨⟨⟨sig₁, msg₁, vals₁⟩, tab₁⟩, ⟨⟨sig₂, msg₂, vals₂⟩, tab₂⟩⟩ := r
    simp only [g, signaturesAny, Game.answer] at acc₁ acc₂ hfirst hans
    obtain ⟨k, v₁, vs₁, a1, a2, a3, a4, a5, a6, a7, a8, a9, a10⟩ := ver_withHash acc₁
    obtain ⟨k', v₂, vs₂, b1, b2, b3, b4, b5, b6, b7, b8, b9, b10⟩ := ver_withHash acc₂
    obtain rfl := b1.unique a1
    rw [question_of (p := { p with values := vals₁ }) b1 a2 a5, question_of (p := { p with values := vals₂ }) b1 b2 b5] at hfirst hans
    obtain ⟨p1, p2⟩ := samePattern_iff a2 b2 (.inl hvt)
    obtain ⟨c1, c2, c3, c4, c5, c6, c7, -⟩ := transcript_inj rfl p1 p2 hfirst
    have hne : v₁.c ≠ v₂.c := by
      rw [a10, b10, Dlog.Spec.second, Dlog.Spec.second, a2.decodes.nonce, b2.decodes.nonce]
      exact hans
    let vs := List.zipWith (fun b₁ b₂ => Dlog.Spec.witness v₁.c v₂.c (v₁.c * b₁) (v₂.c * b₂)) vs₁ vs₂
    have hd0 : v₁.c - v₂.c ≠ 0 := sub_ne_zero.mpr hne
    have hlv : vs.length = nDis p.D := by simp [vs, a6, b6]
    have hlin : ∀ Ps : List S.G1, (v₁.c - v₂.c) • S.lin vs Ps = v₁.c • S.lin vs₁ Ps - v₂.c • S.lin vs₂ Ps := by
      intro Ps
      rw [← S.lin_smul, ← S.lin_smul, ← S.lin_smul, ← S.lin_sub (by simp [a6, b6])]
      congr 1
      apply List.ext_getElem?
      intro i
      simp only [vs, List.getElem?_map, List.getElem?_zipWith]
      rcases vs₁[i]? with _ | x <;> rcases vs₂[i]? with _ | y <;> simp
      rw [Dlog.Spec.witness, ← mul_assoc, mul_inv_cancel₀ hd0, one_mul]
    have c2' : v₁.t2 k' p.D vs = v₂.t2 k' p.D vs := by
      have := hlin (dis p.D k'.hAttrs)
      simp only [Dlog.Spec.Sig.t2] at c2 ⊢
      linear_combination (norm := module) c2 + this
    obtain ⟨attrs, d1, d2, dh, d3, -, d5, -⟩ := special_soundness a3 a4 b4 hlv a9 a8 c1 c2' c3 c4 c5 c6 c7 hne
    refine ⟨_, v₁.extract v₂, attrs, k', v₁.nym, h1, ?_, b1, a2.decodes.nym, d1, d3, d5⟩
    simp only [credentialAny, readSig_of a2, readSig_of b2, Res.ok_bind, Res.pure_def, Res.ok.injEq, Prod.mk.injEq, true_and]
    rw [disclosed_of (p := { p with values := vals₁ }) a5, disclosed_of (p := { p with values := vals₂ }) b5, ← dh]
    have hm : merge p.D (hid p.D attrs) (dis p.D attrs) = attrs := merge_of d1
    rw [d2] at hm
    exact hm

end Idemix.Fork
