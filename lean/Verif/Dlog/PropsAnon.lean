import Verif.Dlog.PropsVerify

/-!
# C12: perfect anonymity; C14: what happens when the enrollment id is disclosed
-/

namespace Idemix.Dlog

variable {S : Suite} {T : Translator S}

/-- The discrete logarithm of `Q` to the base `P` (exists for `P ≠ 0`). -/
noncomputable def dl (P Q : S.G1) : S.F := by
  classical exact if h : P ≠ 0 then Classical.choose (S.g1_span h Q) else 0

theorem dl_spec {P : S.G1} (h : P ≠ 0) (Q : S.G1) : dl P Q • P = Q := by
  simp only [dl, ne_eq, h, not_false_eq_true, dite_true]
  exact (Classical.choose_spec (S.g1_span h Q)).symm

theorem dl_unique {P Q : S.G1} (h : P ≠ 0) {a : S.F} (ha : a • P = Q) : dl P Q = a :=
  S.smul_left_inj h ((dl_spec h Q).trans ha.symm)

/-- The attribute pseudonym for position `i` without metadata. -/
def freshPart (k : Spec.Key S) (u : Holder S) (D : Bytes) (ρ : SigRand S) (i : Nat) (r rr : S.F) :
    AttrNymPart S where
  nym := u.attrs.getD i 0 • k.hAttrs.getD i 0 + r • k.hRand
  t4 := ρ.rAttrs.getD (Spec.respIdx D i) 0 • k.hAttrs.getD i 0 + rr • k.hRand
  r := r
  rr := rr
  attr := u.attrs.getD i 0

/-- The enrollment id part of a signature of type `st`. -/
def eidPart (k : Spec.Key S) (u : Holder S) (D : Bytes) (ei : Nat) (st : SigType) (ρ : SigRand S) :
    Option (AttrNymPart S) := if st.hasEid then some (freshPart k u D ρ ei ρ.rEid ρ.rREid) else none

/-- The revocation handle part of a signature of type `st`. -/
def rhPart (k : Spec.Key S) (u : Holder S) (D : Bytes) (ri : Nat) (st : SigType) (ρ : SigRand S) :
    Option (AttrNymPart S) := if st.hasRh then some (freshPart k u D ρ ri ρ.rRh ρ.rRRh) else none

theorem freshPart_eq {cred : Credential} {ipk : IssuerPublicKey} {D : Bytes} {rhIndex : Int}
    {cri : CRI} {ρ : SigRand S} {k : Spec.Key S} {u : Holder S} (h : SignPre T cred ipk D rhIndex cri ρ k u)
    {idx : Int} (h0 : 0 ≤ idx) (hD : D[idx.toNat]? = some 0) (rNew rr : S.F)
    (audit : Option (AuditData S)) :
    attrNymPart T cred ipk (hiddenIndices D) ρ.rAttrs idx false audit rNew rr =
      .ok (freshPart k u D ρ idx.toNat rNew rr) := by
  have hi := (List.getElem?_eq_some_iff.mp hD).1
  have hi' : idx.toNat < u.attrs.length := by rw [h.u_len]; exact hi
  refine (attrNymPart_eq_ok h).mpr ⟨h0, ?_, lt_of_lt_of_le hi h.bases, count_take_lt hD, rfl, rfl, rfl,
    .inl ⟨rfl, rfl⟩⟩
  simp [freshPart, hi']

/-- The challenge of a signer of type `st`. -/
def chal (k : Spec.Key S) (u : Holder S) (D : Bytes) (ei ri : Nat) (st : SigType) (hash msg : Bytes)
    (ρ : SigRand S) : S.F :=
  honestChallenge k u D ρ (eidPart k u D ei st ρ) (rhPart k u D ri st ρ) hash msg

/-- The decoded signature of a signer of type `st`. -/
def sigOf (k : Spec.Key S) (u : Holder S) (D : Bytes) (ei ri : Nat) (st : SigType) (hash msg : Bytes)
    (ρ : SigRand S) : Spec.Sig S :=
  honest k u D ρ (eidPart k u D ei st ρ) (rhPart k u D ri st ρ) (chal k u D ei ri st hash msg ρ)

/-- The tape with which user `u'` makes the signature that `u` makes with `ρ`, if the challenge is `c`. -/
noncomputable def retapeWith (k : Spec.Key S) (u u' : Holder S) (D : Bytes) (ei ri : Nat) (st : SigType)
    (c : S.F) (ρ : SigRand S) : SigRand S :=
  let r1 := dl u'.A (ρ.r1 • u.A)
  let r2 := dl k.hRand (r1 • u'.B - (ρ.r1 • u.B - ρ.r2 • k.hRand))
  let shift : Nat → S.F → S.F := fun i r =>
    dl k.hRand (u.attrs.getD i 0 • k.hAttrs.getD i 0 + r • k.hRand - u'.attrs.getD i 0 • k.hAttrs.getD i 0)
  let rEid := if st.hasEid then shift ei ρ.rEid else 0
  let rRh := if st.hasRh then shift ri ρ.rRh else 0
  { r1 := r1, r2 := r2, nonce := ρ.nonce,
    rSk := ρ.rSk + c * u.sk - c * u'.sk,
    re := ρ.re - c * u.e + c * u'.e,
    rR2 := ρ.rR2 + c * ρ.r2 - c * r2,
    rR3 := ρ.rR3 - c * ρ.r1⁻¹ + c * r1⁻¹,
    rSPrime := ρ.rSPrime + c * (u.s - ρ.r2 * ρ.r1⁻¹) - c * (u'.s - r2 * r1⁻¹),
    rRNym := ρ.rRNym + c * u.rNym - c * u'.rNym,
    rAttrs := List.zipWith (fun x a => x - c * a)
      (List.zipWith (fun r a => r + c * a) ρ.rAttrs (hid D u.attrs)) (hid D u'.attrs),
    rEid := rEid,
    rREid := if st.hasEid then ρ.rREid + c * ρ.rEid - c * rEid else 0,
    rRh := rRh,
    rRRh := if st.hasRh then ρ.rRRh + c * ρ.rRh - c * rRh else 0 }

/-- The tape with which user `u'` makes the signature that `u` makes with `ρ`. -/
noncomputable def retape (k : Spec.Key S) (u u' : Holder S) (D : Bytes) (ei ri : Nat) (st : SigType)
    (hash msg : Bytes) (ρ : SigRand S) : SigRand S :=
  retapeWith k u u' D ei ri st (chal k u D ei ri st hash msg ρ) ρ

/-- A user who can sign under `k`: valid non-trivial credential, pseudonym opened, one attribute per
position, the pseudonym positions hidden. -/
structure GoodUser (k : Spec.Key S) (D : Bytes) (u : Holder S) : Prop where
  B : u.B = Spec.signed k u.sk u.s u.attrs
  cred : Spec.IsCredential k u.A u.e u.s u.sk u.attrs
  A : u.A ≠ 0
  nym : u.nym = Spec.nym k u.sk u.rNym
  len : u.attrs.length = D.length

/-- Positions of the pseudonyms of type `st` are hidden. -/
structure GoodPos (k : Spec.Key S) (D : Bytes) (ei ri : Nat) (st : SigType) : Prop where
  bases : D.length ≤ k.hAttrs.length
  eid : st.hasEid = true → D[ei]? = some 0
  rh : st.hasRh = true → D[ri]? = some 0

theorem freshPart_good {k : Spec.Key S} {D : Bytes} {u : Holder S} (hu : GoodUser k D u) {i : Nat}
    (hb : D.length ≤ k.hAttrs.length) (hD : D[i]? = some 0) (ρ : SigRand S) (r rr : S.F) :
    GoodPart k u D ρ i (freshPart k u D ρ i r rr) := by
  have hi := (List.getElem?_eq_some_iff.mp hD).1
  refine ⟨lt_of_lt_of_le hi hb, count_take_lt hD, ?_, rfl, rfl⟩
  rw [Spec.respIdx, hid_getElem D u.attrs i hD (le_of_eq hu.len.symm)]
  simp [freshPart, hu.len, hi]

theorem eidPart_good {k : Spec.Key S} {D : Bytes} {u : Holder S} (hu : GoodUser k D u) {ei ri : Nat}
    {st : SigType} (hp : GoodPos k D ei ri st) (ρ : SigRand S) :
    ∀ p, eidPart k u D ei st ρ = some p → GoodPart k u D ρ ei p := by
  intro p h
  cases hs : st.hasEid with
  | false => simp [eidPart, hs] at h
  | true =>
    simp only [eidPart, hs, if_true, Option.some.injEq] at h
    rw [← h]; exact freshPart_good hu hp.bases (hp.eid hs) ρ _ _

theorem rhPart_good {k : Spec.Key S} {D : Bytes} {u : Holder S} (hu : GoodUser k D u) {ei ri : Nat}
    {st : SigType} (hp : GoodPos k D ei ri st) (ρ : SigRand S) :
    ∀ p, rhPart k u D ri st ρ = some p → GoodPart k u D ρ ri p := by
  intro p h
  cases hs : st.hasRh with
  | false => simp [rhPart, hs] at h
  | true =>
    simp only [rhPart, hs, if_true, Option.some.injEq] at h
    rw [← h]; exact freshPart_good hu hp.bases (hp.rh hs) ρ _ _

/-- The transcript recomputed from the decoded signature. -/
theorem sigOf_transcript {k : Spec.Key S} {D : Bytes} {u : Holder S} (hu : GoodUser k D u) {ei ri : Nat}
    {st : SigType} (hp : GoodPos k D ei ri st) {ρ : SigRand S} (ht : ρ.rAttrs.length = nHid D)
    (hr : ρ.r1 ≠ 0) (hash msg : Bytes) (c : S.F) (v : Spec.Sig S)
    (hv : v = honest k u D ρ (eidPart k u D ei st ρ) (rhPart k u D ri st ρ) c) :
    chal k u D ei ri st hash msg ρ = S.hashToZr (Spec.second S
      (v.transcript (sigLabelOf v) k hash D (dis D u.attrs) ei ri msg) v.nonce) := by
  rw [hv, honest_transcript hu.B hr hu.len ht hu.nym (eidPart_good hu hp ρ) (rhPart_good hu hp ρ)]
  rfl

/-- `ABar` is determined by `A'` for a valid credential. -/
theorem aBar_eq {k : Spec.Key S} {D : Bytes} {u u' : Holder S} (hu : GoodUser k D u)
    (hu' : GoodUser k D u') {r r' : S.F} (h : r • u.A = r' • u'.A) :
    r • u.B - u.e • r • u.A = r' • u'.B - u'.e • r' • u'.A := by
  have key : ∀ {w : Holder S}, GoodUser k D w → ∀ x : S.F,
      S.pair S.genG2 (x • w.B - w.e • x • w.A) = S.pair k.w (x • w.A) := by
    intro w hw x
    have := hw.cred
    rw [Spec.IsCredential, ← hw.B] at this
    simp only [map_add, map_smul, LinearMap.add_apply, LinearMap.smul_apply] at this
    simp only [map_sub, map_smul]
    rw [← this]
    module
  apply S.pair_gen_inj
  rw [key hu, key hu', h]

theorem zip_cancel (c : S.F) (xs as : List S.F) (h : xs.length = as.length) :
    List.zipWith (fun r a => r + c * a) (List.zipWith (fun x a => x - c * a) xs as) as = xs := by
  induction xs generalizing as with
  | nil => simp
  | cons x xs ih =>
    cases as with
    | nil => simp at h
    | cons a as => simp [ih as (by simpa using h)]

theorem zip_cancel' (c : S.F) (xs as : List S.F) (h : xs.length = as.length) :
    List.zipWith (fun x a => x - c * a) (List.zipWith (fun r a => r + c * a) xs as) as = xs := by
  induction xs generalizing as with
  | nil => simp
  | cons x xs ih =>
    cases as with
    | nil => simp at h
    | cons a as => simp [ih as (by simpa using h)]

section
variable {k : Spec.Key S} {D : Bytes} {u u' : Holder S} {ei ri : Nat} {st : SigType} {hash msg : Bytes}
  {ρ : SigRand S}

theorem retape_r1 (hu : GoodUser k D u) (hu' : GoodUser k D u') (hr : ρ.r1 ≠ 0) :
    (retape k u u' D ei ri st hash msg ρ).r1 ≠ 0 := by
  intro h0
  have := dl_spec hu'.A (ρ.r1 • u.A)
  change (retape k u u' D ei ri st hash msg ρ).r1 • u'.A = _ at this
  rw [h0, zero_smul] at this
  exact hu.A (S.smul_right_inj hr (by rw [smul_zero, ← this]))

theorem retape_tape (hu : GoodUser k D u) (hu' : GoodUser k D u') (ht : SigTape st D ρ) :
    SigTape st D (retape k u u' D ei ri st hash msg ρ) := by
  refine ⟨?_, retape_r1 hu hu' ht.blinding, ?_, ?_⟩
  · have := ht.masks
    have h1 := hid_length D u.attrs (le_of_eq hu.len.symm)
    have h2 := hid_length D u'.attrs (le_of_eq hu'.len.symm)
    rw [nHid] at h1 h2
    simp [retape, retapeWith, this, h1, h2]
  · intro h; simp [retape, retapeWith, h]
  · intro h; simp [retape, retapeWith, h]

/-- With the new tape and the old challenge, the other user computes the same decoded signature. -/
theorem retapeWith_honest (hne : k.hRand ≠ 0) (hu : GoodUser k D u) (hu' : GoodUser k D u')
    (hnym : u.nym = u'.nym) (ht : ρ.rAttrs.length = D.count 0) (c : S.F) (ρ' : SigRand S)
    (hρ : ρ' = retapeWith k u u' D ei ri st c ρ) :
    honest k u' D ρ' (eidPart k u' D ei st ρ') (rhPart k u' D ri st ρ') c =
      honest k u D ρ (eidPart k u D ei st ρ) (rhPart k u D ri st ρ) c := by
  have e1 : ρ'.r1 • u'.A = ρ.r1 • u.A := by rw [hρ]; exact dl_spec hu'.A _
  have e2 : ρ'.r1 • u'.B - ρ'.r2 • k.hRand = ρ.r1 • u.B - ρ.r2 • k.hRand := by
    have : ρ'.r2 • k.hRand = ρ'.r1 • u'.B - (ρ.r1 • u.B - ρ.r2 • k.hRand) := by
      rw [hρ]; exact dl_spec hne _
    rw [this]; abel
  have e3 := aBar_eq hu' hu e1
  have hnymp : ∀ (i : Nat) (r : S.F), u'.attrs.getD i 0 • k.hAttrs.getD i 0 +
      dl k.hRand (u.attrs.getD i 0 • k.hAttrs.getD i 0 + r • k.hRand -
        u'.attrs.getD i 0 • k.hAttrs.getD i 0) • k.hRand =
      u.attrs.getD i 0 • k.hAttrs.getD i 0 + r • k.hRand := by
    intro i r; rw [dl_spec hne]; abel
  have fEid : st.hasEid = true → ρ'.rEid = dl k.hRand (u.attrs.getD ei 0 • k.hAttrs.getD ei 0 +
      ρ.rEid • k.hRand - u'.attrs.getD ei 0 • k.hAttrs.getD ei 0) ∧
      ρ'.rREid = ρ.rREid + c * ρ.rEid - c * ρ'.rEid := by
    intro h; rw [hρ]; simp [retapeWith, h]
  have fRh : st.hasRh = true → ρ'.rRh = dl k.hRand (u.attrs.getD ri 0 • k.hAttrs.getD ri 0 +
      ρ.rRh • k.hRand - u'.attrs.getD ri 0 • k.hAttrs.getD ri 0) ∧
      ρ'.rRRh = ρ.rRRh + c * ρ.rRh - c * ρ'.rRh := by
    intro h; rw [hρ]; simp [retapeWith, h]
  have eE : (eidPart k u' D ei st ρ').map (fun p => (p.nym, p.rr + c * p.r)) =
      (eidPart k u D ei st ρ).map (fun p => (p.nym, p.rr + c * p.r)) := by
    cases hs : st.hasEid with
    | false => simp [eidPart, hs]
    | true =>
      obtain ⟨g1, g2⟩ := fEid hs
      simp only [eidPart, hs, if_true, Option.map_some, freshPart, Option.some.injEq, Prod.mk.injEq]
      refine ⟨?_, ?_⟩
      · rw [g1]; exact hnymp ei ρ.rEid
      · rw [g2]; ring
  have eR : (rhPart k u' D ri st ρ').map (fun p => (p.nym, p.rr + c * p.r)) =
      (rhPart k u D ri st ρ).map (fun p => (p.nym, p.rr + c * p.r)) := by
    cases hs : st.hasRh with
    | false => simp [rhPart, hs]
    | true =>
      obtain ⟨g1, g2⟩ := fRh hs
      simp only [rhPart, hs, if_true, Option.map_some, freshPart, Option.some.injEq, Prod.mk.injEq]
      refine ⟨?_, ?_⟩
      · rw [g1]; exact hnymp ri ρ.rRh
      · rw [g2]; ring
  have eA : List.zipWith (fun r a => r + c * a) ρ'.rAttrs (hid D u'.attrs) =
      List.zipWith (fun r a => r + c * a) ρ.rAttrs (hid D u.attrs) := by
    have : ρ'.rAttrs = List.zipWith (fun x a => x - c * a)
      (List.zipWith (fun r a => r + c * a) ρ.rAttrs (hid D u.attrs)) (hid D u'.attrs) := by
      rw [hρ]; rfl
    rw [this, zip_cancel]
    have h1 := hid_length D u.attrs (le_of_eq hu.len.symm)
    have h2 := hid_length D u'.attrs (le_of_eq hu'.len.symm)
    have h3 := ht
    rw [nHid] at h1 h2
    simp [h1, h2, h3]
  rw [e1] at e3
  simp only [honest, e1, e2, e3, eE, eR, eA, hnym]
  have g1 : ρ'.rSk = ρ.rSk + c * u.sk - c * u'.sk := by rw [hρ]; rfl
  have g2 : ρ'.re = ρ.re - c * u.e + c * u'.e := by rw [hρ]; rfl
  have g3 : ρ'.rR2 = ρ.rR2 + c * ρ.r2 - c * ρ'.r2 := by rw [hρ]; rfl
  have g4 : ρ'.rR3 = ρ.rR3 - c * ρ.r1⁻¹ + c * ρ'.r1⁻¹ := by rw [hρ]; rfl
  have g5 : ρ'.rSPrime = ρ.rSPrime + c * (u.s - ρ.r2 * ρ.r1⁻¹) - c * (u'.s - ρ'.r2 * ρ'.r1⁻¹) := by
    rw [hρ]; rfl
  have g6 : ρ'.rRNym = ρ.rRNym + c * u.rNym - c * u'.rNym := by rw [hρ]; rfl
  have g7 : ρ'.nonce = ρ.nonce := by rw [hρ]; rfl
  have s1 : ρ'.rSk + c * u'.sk = ρ.rSk + c * u.sk := by rw [g1]; ring
  have s2 : ρ'.re - c * u'.e = ρ.re - c * u.e := by rw [g2]; ring
  have s3 : ρ'.rR2 + c * ρ'.r2 = ρ.rR2 + c * ρ.r2 := by rw [g3]; ring
  have s4 : ρ'.rR3 - c * ρ'.r1⁻¹ = ρ.rR3 - c * ρ.r1⁻¹ := by rw [g4]; ring
  have s5 : ρ'.rSPrime + c * (u'.s - ρ'.r2 * ρ'.r1⁻¹) = ρ.rSPrime + c * (u.s - ρ.r2 * ρ.r1⁻¹) := by
    rw [g5]; ring
  have s6 : ρ'.rRNym + c * u'.rNym = ρ.rRNym + c * u.rNym := by rw [g6]; ring
  rw [s1, s2, s3, s4, s5, s6, g7]

theorem retape_honest (hne : k.hRand ≠ 0) (hu : GoodUser k D u) (hu' : GoodUser k D u')
    (hnym : u.nym = u'.nym) (ht : SigTape st D ρ) (ρ' : SigRand S)
    (hρ : ρ' = retape k u u' D ei ri st hash msg ρ) :
    honest k u' D ρ' (eidPart k u' D ei st ρ') (rhPart k u' D ri st ρ') (chal k u D ei ri st hash msg ρ) =
      sigOf k u D ei ri st hash msg ρ :=
  retapeWith_honest hne hu hu' hnym ht.masks _ ρ' hρ

/-- The challenge does not change. -/
theorem retape_chal (hne : k.hRand ≠ 0) (hu : GoodUser k D u) (hu' : GoodUser k D u')
    (hp : GoodPos k D ei ri st) (hnym : u.nym = u'.nym) (hdis : dis D u.attrs = dis D u'.attrs)
    (ht : SigTape st D ρ) :
    chal k u' D ei ri st hash msg (retape k u u' D ei ri st hash msg ρ) =
      chal k u D ei ri st hash msg ρ := by
  have ht' := retape_tape (ei := ei) (ri := ri) (hash := hash) (msg := msg) hu hu' ht
  rw [sigOf_transcript hu' hp ht'.masks ht'.blinding hash msg _ _
      (retape_honest hne hu hu' hnym ht _ rfl).symm,
    sigOf_transcript hu hp ht.masks ht.blinding hash msg (chal k u D ei ri st hash msg ρ)
      (sigOf k u D ei ri st hash msg ρ) rfl, hdis]

theorem retape_sig (hne : k.hRand ≠ 0) (hu : GoodUser k D u) (hu' : GoodUser k D u')
    (hp : GoodPos k D ei ri st) (hnym : u.nym = u'.nym) (hdis : dis D u.attrs = dis D u'.attrs)
    (ht : SigTape st D ρ) :
    sigOf k u' D ei ri st hash msg (retape k u u' D ei ri st hash msg ρ) =
      sigOf k u D ei ri st hash msg ρ := by
  rw [sigOf, retape_chal hne hu hu' hp hnym hdis ht]
  exact retape_honest hne hu hu' hnym ht _ rfl

theorem retape_retape (hne : k.hRand ≠ 0) (hu : GoodUser k D u) (hu' : GoodUser k D u')
    (hp : GoodPos k D ei ri st) (hnym : u.nym = u'.nym) (hdis : dis D u.attrs = dis D u'.attrs)
    (ht : SigTape st D ρ) :
    retape k u' u D ei ri st hash msg (retape k u u' D ei ri st hash msg ρ) = ρ := by
  obtain ⟨c, hc⟩ : ∃ c, c = chal k u D ei ri st hash msg ρ := ⟨_, rfl⟩
  have hc' := retape_chal (hash := hash) (msg := msg) hne hu hu' hp hnym hdis ht
  rw [← hc] at hc'
  have e1 : (retape k u u' D ei ri st hash msg ρ).r1 • u'.A = ρ.r1 • u.A := dl_spec hu'.A _
  have d1 : dl u.A ((retape k u u' D ei ri st hash msg ρ).r1 • u'.A) = ρ.r1 := dl_unique hu.A e1.symm
  have e2 : (retape k u u' D ei ri st hash msg ρ).r2 • k.hRand =
      (retape k u u' D ei ri st hash msg ρ).r1 • u'.B - (ρ.r1 • u.B - ρ.r2 • k.hRand) := dl_spec hne _
  have d2 : dl k.hRand (ρ.r1 • u.B - ((retape k u u' D ei ri st hash msg ρ).r1 • u'.B -
      (retape k u u' D ei ri st hash msg ρ).r2 • k.hRand)) = ρ.r2 := by
    apply dl_unique hne; rw [e2]; abel
  have d3 : ∀ (i : Nat) (r r' : S.F), r' = dl k.hRand (u.attrs.getD i 0 • k.hAttrs.getD i 0 +
      r • k.hRand - u'.attrs.getD i 0 • k.hAttrs.getD i 0) →
      dl k.hRand (u'.attrs.getD i 0 • k.hAttrs.getD i 0 + r' • k.hRand -
        u.attrs.getD i 0 • k.hAttrs.getD i 0) = r := by
    intro i r r' h
    apply dl_unique hne
    rw [h, dl_spec hne]; abel
  have dA : List.zipWith (fun x a => x - c * a) (List.zipWith (fun r a => r + c * a)
      (List.zipWith (fun x a => x - c * a) (List.zipWith (fun r a => r + c * a) ρ.rAttrs (hid D u.attrs))
        (hid D u'.attrs)) (hid D u'.attrs)) (hid D u.attrs) = ρ.rAttrs := by
    have h1 := hid_length D u.attrs (le_of_eq hu.len.symm)
    have h2 := hid_length D u'.attrs (le_of_eq hu'.len.symm)
    have h3 := ht.masks
    rw [nHid] at h1 h2
    rw [zip_cancel _ _ _ (by simp [h1, h2, h3]), zip_cancel' _ _ _ (by simp [h1, h3])]
  obtain ⟨ρ', hρ'⟩ : ∃ ρ', ρ' = retape k u u' D ei ri st hash msg ρ := ⟨_, rfl⟩
  rw [← hρ'] at hc' d1 d2 ⊢
  have g1 : ρ'.rSk = ρ.rSk + c * u.sk - c * u'.sk := by rw [hρ', hc]; rfl
  have g2 : ρ'.re = ρ.re - c * u.e + c * u'.e := by rw [hρ', hc]; rfl
  have g3 : ρ'.rR2 = ρ.rR2 + c * ρ.r2 - c * ρ'.r2 := by rw [hρ', hc]; rfl
  have g4 : ρ'.rR3 = ρ.rR3 - c * ρ.r1⁻¹ + c * ρ'.r1⁻¹ := by rw [hρ', hc]; rfl
  have g5 : ρ'.rSPrime = ρ.rSPrime + c * (u.s - ρ.r2 * ρ.r1⁻¹) - c * (u'.s - ρ'.r2 * ρ'.r1⁻¹) := by
    rw [hρ', hc]; rfl
  have g6 : ρ'.rRNym = ρ.rRNym + c * u.rNym - c * u'.rNym := by rw [hρ', hc]; rfl
  have g7 : ρ'.nonce = ρ.nonce := by rw [hρ']; rfl
  have g8 : ρ'.rAttrs = List.zipWith (fun x a => x - c * a)
      (List.zipWith (fun r a => r + c * a) ρ.rAttrs (hid D u.attrs)) (hid D u'.attrs) := by
    rw [hρ', hc]; rfl
  have fEid : st.hasEid = true → ρ'.rEid = dl k.hRand (u.attrs.getD ei 0 • k.hAttrs.getD ei 0 +
      ρ.rEid • k.hRand - u'.attrs.getD ei 0 • k.hAttrs.getD ei 0) ∧
      ρ'.rREid = ρ.rREid + c * ρ.rEid - c * ρ'.rEid := by
    intro h; rw [hρ', hc]; simp [retape, retapeWith, h]
  have fRh : st.hasRh = true → ρ'.rRh = dl k.hRand (u.attrs.getD ri 0 • k.hAttrs.getD ri 0 +
      ρ.rRh • k.hRand - u'.attrs.getD ri 0 • k.hAttrs.getD ri 0) ∧
      ρ'.rRRh = ρ.rRRh + c * ρ.rRh - c * ρ'.rRh := by
    intro h; rw [hρ', hc]; simp [retape, retapeWith, h]
  obtain ⟨t1, t2, t3, t4⟩ := ht
  simp only [retape, retapeWith, hc', d1, d2, g7]
  cases ρ with
  | mk a1 a2 a3 a4 a5 a6 a7 a8 a9 a10 a11 a12 a13 a14 =>
  simp only at *
  rw [SigRand.mk.injEq]
  refine ⟨rfl, rfl, rfl, ?_, ?_, ?_, ?_, ?_, ?_, ?_, ?_, ?_, ?_, ?_⟩
  · rw [g1]; ring
  · rw [g2]; ring
  · rw [g3]; ring
  · rw [g4]; ring
  · rw [g5]; ring
  · rw [g6]; ring
  · rw [g8]; exact dA
  · cases hs : st.hasEid with
    | false => simp [(t3 hs).1]
    | true => simp only [if_true]; exact d3 _ _ _ (fEid hs).1
  · cases hs : st.hasEid with
    | false => simp [(t3 hs).2]
    | true => simp only [if_true]; rw [d3 _ _ _ (fEid hs).1, (fEid hs).2]; ring
  · cases hs : st.hasRh with
    | false => simp [(t4 hs).1]
    | true => simp only [if_true]; exact d3 _ _ _ (fRh hs).1
  · cases hs : st.hasRh with
    | false => simp [(t4 hs).2]
    | true => simp only [if_true]; rw [d3 _ _ _ (fRh hs).1, (fRh hs).2]; ring

/-- The bijection between the tapes of two users. -/
noncomputable def tapeEquiv (hne : k.hRand ≠ 0) (hu : GoodUser k D u) (hu' : GoodUser k D u')
    (hp : GoodPos k D ei ri st) (hnym : u.nym = u'.nym) (hdis : dis D u.attrs = dis D u'.attrs)
    (hash msg : Bytes) : {ρ : SigRand S // SigTape st D ρ} ≃ {ρ : SigRand S // SigTape st D ρ} where
  toFun ρ := ⟨retape k u u' D ei ri st hash msg ρ.1, retape_tape hu hu' ρ.2⟩
  invFun ρ := ⟨retape k u' u D ei ri st hash msg ρ.1, retape_tape hu' hu ρ.2⟩
  left_inv ρ := Subtype.ext (retape_retape hne hu hu' hp hnym hdis ρ.2)
  right_inv ρ := Subtype.ext (retape_retape hne hu' hu hp hnym.symm hdis.symm ρ.2)

end

/-- The signer of the model computes `sigOf`. -/
theorem newSignature_sigOf {cred : Credential} {ipk : IssuerPublicKey} {D msg : Bytes}
    {rhIndex eidIndex : Int} {cri : CRI} {ρ : SigRand S} {k : Spec.Key S} {u : Holder S}
    (h : SignPre T cred ipk D rhIndex cri ρ k u)
    {st : SigType} (hst : st = .standard ∨ st = .eidNym ∨ st = .eidNymRhNym)
    (hDe : st.hasEid → 0 ≤ eidIndex ∧ D[eidIndex.toNat]? = some 0)
    (hDr : D[rhIndex.toNat]? = some 0) :
    ∃ m, newSignature T cred u.sk u.nym u.rNym ipk D msg rhIndex eidIndex cri ρ st none = .ok
      (toWire T cri (sigOf k u D eidIndex.toNat rhIndex.toNat st ipk.hash msg ρ), m) := by
  have he : optional st.hasEid (attrNymPart T cred ipk (hiddenIndices D) ρ.rAttrs eidIndex
      (none : Option (SignerMetadata S)).isSome ((none : Option (SignerMetadata S)).bind
      (·.eidNymAuditData)) ρ.rEid ρ.rREid) = .ok (eidPart k u D eidIndex.toNat st ρ) := by
    cases hs : st.hasEid with
    | false => simp [optional, eidPart, hs]
    | true =>
      obtain ⟨a, b⟩ := hDe hs
      simp only [optional, if_true, Option.isSome_none, freshPart_eq h a b, Res.bind, eidPart, hs]
  have hr : optional st.hasRh (attrNymPart T cred ipk (hiddenIndices D) ρ.rAttrs rhIndex
      (none : Option (SignerMetadata S)).isSome ((none : Option (SignerMetadata S)).bind
      (·.rhNymAuditData)) ρ.rRh ρ.rRRh) = .ok (rhPart k u D rhIndex.toNat st ρ) := by
    cases hs : st.hasRh with
    | false => simp [optional, rhPart, hs]
    | true =>
      simp only [optional, if_true, Option.isSome_none, freshPart_eq h h.rh_nonneg hDr, Res.bind, rhPart,
        hs]
  exact ⟨_, newSignature_eq h hst hDe (fun _ => hDr) he hr⟩

/-! ## C12 -/

variable (T) in
/-- C12. Perfect anonymity. Two honest signers of one issuer (with `HRand ≠ 1`) whose credentials agree on
the disclosed attributes and who can both open the pseudonym: there is a bijection of the signing
randomness under which they output the identical signature. -/
theorem C12_perfect_anonymity (cred₁ cred₂ : Credential) (ipk : IssuerPublicKey) (sk₁ sk₂ : S.F)
    (nym : S.G1) (rNym₁ rNym₂ : S.F) (D msg : Bytes) (rhIndex eidIndex : Int) (cri : CRI)
    (h₁ : HonestSigner T cred₁ ipk sk₁ nym rNym₁ D rhIndex cri)
    (h₂ : HonestSigner T cred₂ ipk sk₂ nym rNym₂ D rhIndex cri)
    (agree : ∀ (i : Nat) (d : UInt8), D[i]? = some d → d ≠ 0 →
      cred₁.attrs[i]?.map S.zrOfBytes = cred₂.attrs[i]?.map S.zrOfBytes)
    (hRand : S.G1) (hr : T.g1FromProto ipk.hRand = .ok hRand) (hne : hRand ≠ 0) (st : SigType)
    (hst : st = .standard ∨ st = .eidNym ∨ st = .eidNymRhNym)
    (heid : st ≠ .standard → 0 ≤ eidIndex ∧ D[eidIndex.toNat]? = some 0) :
    ∃ φ : {ρ : SigRand S // SigTape st D ρ} ≃ {ρ : SigRand S // SigTape st D ρ}, ∀ ρ, ∃ sig m₁ m₂,
      newSignature T cred₁ sk₁ nym rNym₁ ipk D msg rhIndex eidIndex cri ρ.1 st none = .ok (sig, m₁) ∧
      newSignature T cred₂ sk₂ nym rNym₂ ipk D msg rhIndex eidIndex cri (φ ρ).1 st none =
        .ok (sig, m₂) := by
  obtain ⟨k, u₁, p₁, rfl, rfl, rfl, a1, a2, a3, a4⟩ := h₁.pre
  obtain ⟨k', u₂, p₂, rfl, hn, rfl, b1, b2, b3, b4⟩ := h₂.pre
  have hz : (⟨0, 0, 0, 0, 0, 0, 0, 0, 0, List.replicate (D.count 0) 0, 0, 0, 0, 0⟩ :
    SigRand S).rAttrs.length = D.count 0 := by simp
  have q₁ := p₁ _ hz
  have q₂ := p₂ _ hz
  obtain rfl := q₁.reads.unique q₂.reads
  have hne' : k.hRand ≠ 0 := by
    have := q₁.reads.hRand.symm.trans hr
    simp only [Res.ok.injEq] at this; rw [this]; exact hne
  have hDe : st.hasEid = true → 0 ≤ eidIndex ∧ D[eidIndex.toNat]? = some 0 := by
    intro hs; apply heid; rintro rfl; cases hs
  have hu₁ : GoodUser k D u₁ := ⟨a1, a2, a3, a4, q₁.u_len⟩
  have hu₂ : GoodUser k D u₂ := ⟨b1, b2, b3, b4, q₂.u_len⟩
  have hp : GoodPos k D eidIndex.toNat rhIndex.toNat st :=
    ⟨q₁.bases, fun h => (hDe h).2, fun _ => h₁.rh_hidden.2⟩
  have hdis : dis D u₁.attrs = dis D u₂.attrs := by
    refine dis_eq_of_pos D _ _ (le_of_eq q₁.u_len.symm) (le_of_eq q₂.u_len.symm) fun i d hd hd0 => ?_
    rw [q₁.attrs, q₂.attrs, List.getElem?_map, List.getElem?_map]
    exact agree i d hd hd0
  refine ⟨tapeEquiv hne' hu₁ hu₂ hp hn.symm hdis ipk.hash msg, fun ρ => ?_⟩
  obtain ⟨m₁, e₁⟩ := newSignature_sigOf (eidIndex := eidIndex) (msg := msg) (p₁ ρ.1 ρ.2.masks) hst hDe
    h₁.rh_hidden.2
  obtain ⟨m₂, e₂⟩ := newSignature_sigOf (eidIndex := eidIndex) (msg := msg)
    (p₂ _ (tapeEquiv hne' hu₁ hu₂ hp hn.symm hdis ipk.hash msg ρ).2.masks) hst hDe h₁.rh_hidden.2
  refine ⟨_, m₁, m₂, e₁, ?_⟩
  have hs : sigOf k u₂ D eidIndex.toNat rhIndex.toNat st ipk.hash msg
      (tapeEquiv hne' hu₁ hu₂ hp hn.symm hdis ipk.hash msg ρ).1 = _ :=
    retape_sig hne' hu₁ hu₂ hp hn.symm hdis ρ.2
  rw [hs] at e₂
  rw [← e₂]
  congr 1
  exact hn.symm

/-- The second user of the example: secret 1, other hidden attributes, the same disclosed attribute, and
an opening of the same pseudonym. -/
def Ex.cred₂ : Credential := ⟨some ⟨[1], []⟩, some ⟨[4], []⟩, [1], [4], [[1], [3], [5]]⟩

theorem Ex.signer₂ :
    HonestSigner Toy.tr Ex.cred₂ Ex.key.ipk (1 : Toy.K) Ex.nym (0 : Toy.K) Ex.discl 2 Ex.cri where
  cred_verifies := by decide
  cred_nontrivial := ⟨(1 : Toy.K), rfl, by decide⟩
  nym_made := by decide
  one_attr_per_name := rfl
  one_byte_per_name := rfl
  rh_hidden := by decide
  cri_alg := rfl
  cri_key := ⟨(1 : Toy.K), rfl⟩

example : ∃ φ : {ρ : SigRand Toy.suite // SigTape .eidNym Ex.discl ρ} ≃
      {ρ : SigRand Toy.suite // SigTape .eidNym Ex.discl ρ}, ∀ ρ, ∃ sig m₁ m₂,
      newSignature Toy.tr Ex.cred (4 : Toy.K) Ex.nym (2 : Toy.K) Ex.key.ipk Ex.discl [8] 2 1 Ex.cri ρ.1
        .eidNym none = .ok (sig, m₁) ∧
      newSignature Toy.tr Ex.cred₂ (1 : Toy.K) Ex.nym (0 : Toy.K) Ex.key.ipk Ex.discl [8] 2 1 Ex.cri
        (φ ρ).1 .eidNym none = .ok (sig, m₂) :=
  C12_perfect_anonymity Toy.tr Ex.cred Ex.cred₂ Ex.key.ipk _ _ _ _ _ _ _ _ _ _ Ex.signer Ex.signer₂
    (by rintro (_ | _ | _ | i) d h1 h2
        · rfl
        · cases h1; exact absurd rfl h2
        · cases h1; exact absurd rfl h2
        · cases h1) (6 : Toy.K) rfl (by decide) _ (.inr (.inl rfl)) (fun _ => by decide)

/-! ## C14: a disclosed enrollment id is not bound -/

theorem count_take_of_disclosed {D : Bytes} {i j : Nat} (hij : i ≤ j)
    (h : ∀ l, i ≤ l → l < j → ∃ d, D[l]? = some d ∧ d ≠ 0) :
    (D.take j).count 0 = (D.take i).count 0 := by
  induction j, hij using Nat.le_induction with
  | base => rfl
  | succ j hj ih =>
    obtain ⟨d, h1, h2⟩ := h j hj (Nat.lt_succ_self j)
    rw [List.take_add_one, h1, List.count_append, ih fun l a b => h l a (Nat.lt_succ_of_lt b)]
    simp [h2]

/-- The hypothesis "hidden" of C14 is needed. A user whose enrollment id is disclosed can make a signature
that is accepted with `ExpectEidNym`, while its enrollment id commitment opens, for the auditor, to the
user's next hidden attribute (position `j`) instead of the enrollment id. -/
theorem C14_disclosed_eid_not_bound {RevPk : Type} (cred : Credential) (ipk : IssuerPublicKey) (sk : S.F)
    (nym : S.G1) (rNym : S.F) (D msg : Bytes) (rhIndex eidIndex : Int) (cri : CRI)
    (h : HonestSigner T cred ipk sk nym rNym D rhIndex cri) (ρ : SigRand S) (ht : SigTape .eidNym D ρ)
    (values : List (Option S.F)) (hv : Spec.SuppliesDisclosed D cred values)
    (h0 : 0 ≤ eidIndex) (j : Nat) (hj : eidIndex.toNat ≤ j) (hidden : D[j]? = some 0)
    (disclosed : ∀ l, eidIndex.toNat ≤ l → l < j → ∃ d, D[l]? = some d ∧ d ≠ 0)
    (b : Bytes) (hb : cred.attrs[j]? = some b) (revPk : RevPk) (epoch : Int) :
    ∃ sig : Signature,
      sig.ver T D (some ipk) msg values rhIndex eidIndex revPk epoch .expectEidNym none = .ok () ∧
      sig.auditNymEid T ipk (S.zrOfBytes b) eidIndex ρ.rEid = .ok () := by
  obtain ⟨k, u, p, rfl, rfl, rfl, a1, a2, a3, a4⟩ := h.pre
  have hp := p ρ ht.masks
  have hi := (List.getElem?_eq_some_iff.mp hidden).1
  have hcnt := count_take_of_disclosed hj disclosed
  have hlt : eidIndex.toNat < k.hAttrs.length := lt_of_le_of_lt hj (lt_of_lt_of_le hi hp.bases)
  have hresp : Spec.respIdx D eidIndex.toNat = Spec.respIdx D j := by
    rw [Spec.respIdx, Spec.respIdx, hcnt]
  have hatt : (hid D u.attrs)[Spec.respIdx D eidIndex.toNat]? = some (S.zrOfBytes b) := by
    rw [hresp, Spec.respIdx, hid_getElem D u.attrs j hidden (le_of_eq hp.u_len.symm), hp.attrs,
      List.getElem?_map, hb]
    rfl
  let q : AttrNymPart S :=
    { nym := S.zrOfBytes b • k.hAttrs.getD eidIndex.toNat 0 + ρ.rEid • k.hRand
      t4 := ρ.rAttrs.getD (Spec.respIdx D eidIndex.toNat) 0 • k.hAttrs.getD eidIndex.toNat 0 +
        ρ.rREid • k.hRand
      r := ρ.rEid
      rr := ρ.rREid
      attr := S.zrOfBytes b }
  have hq : GoodPart k u D ρ eidIndex.toNat q :=
    ⟨hlt, by rw [hresp]; exact count_take_lt hidden, hatt, rfl, rfl⟩
  refine ⟨toWire T cri (honest k u D ρ (some q) none (honestChallenge k u D ρ (some q) none ipk.hash msg)),
    ?_, ?_⟩
  · refine honest_ver hp a1 a2 a3 ht.blinding a4 h.cri_key (eid := some q) (rh := none) ?_ ?_
      Spec.Matching.eidNym rfl rfl ?_ _ rfl ?_ ?_ revPk epoch
    · rintro _ ⟨⟩; exact ⟨h0, hq⟩
    · rintro _ ⟨⟩
    · rw [hp.attrs]; exact supplies_dis hv hp.attrs_len
    · rintro _ _ ⟨⟩
    · rintro _ _ ⟨⟩
  · rcases parseAttrs_getElem hp.reads.hAttrs eidIndex.toNat with ⟨e', P, q1, q2, q3⟩ | ⟨-, q2⟩
    · have hi : Res.index ipk.hAttrs eidIndex = .ok e' := Res.index_eq_ok.mpr ⟨h0, q1⟩
      have hP : k.hAttrs.getD eidIndex.toNat 0 = P := by simp [List.getD, q2]
      have hlt : ¬ ((ipk.hAttrs.length : Int) ≤ eidIndex) := by
        have := (List.getElem?_eq_some_iff.mp q1).1; omega
      simp only [Signature.auditNymEid, toWire, honest, Option.map_some, auditSigNym, Res.ofOption, hlt,
        Res.ok_bind, decide_false, Res.guardErr_false, hi, q3, hp.reads.hRand, T.g1_rt, q, hP,
        decide_true, Bool.not_true]
    · rw [List.getElem?_eq_none_iff] at q2; omega

/-- Enrollment id 1 disclosed at position 1, revocation handle hidden at position 2. -/
example : HonestSigner Toy.tr Ex.cred Ex.key.ipk (4 : Toy.K) Ex.nym (2 : Toy.K) [1, 1, 0] 2 Ex.cri ∧
    SigTape (S := Toy.suite) .eidNym [1, 1, 0] ⟨(2 : Toy.K), (3 : Toy.K), 1, 4, 5, 6, 1, 2, 3, [4], 2, 3, 0, 0⟩ ∧
    Ex.cred.attrs[1]? ≠ Ex.cred.attrs[2]? :=
  ⟨⟨by decide, ⟨(3 : Toy.K), rfl, by decide⟩, by decide, rfl, rfl, by decide, rfl, ⟨(1 : Toy.K), rfl⟩⟩,
    ⟨rfl, by decide, by decide, by decide⟩, by decide⟩

end Idemix.Dlog
