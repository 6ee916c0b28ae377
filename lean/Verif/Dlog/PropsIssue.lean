import Verif.Dlog.Chars
import Verif.Toy

/-!
# C01–C08, C17, C18: issuer keys, credential requests, credentials, pseudonyms

`T` ranges over all translators, `S` over all suites, `m` over all marshalling functions.  Statements
about adversarial proofs use two hash oracles `h₁`, `h₂` (the two runs of a forking argument): both
provers are accepted after asking the same question and getting different answers.
-/

namespace Idemix.Dlog

variable {S : Suite} (T : Translator S)

/-! ## Concrete data for the examples -/

namespace Ex
/-- A marshalling function for the examples. -/
def mar : IpkMarshal := fun i => .ok (i.attributeNames.flatten ++ i.proofC)
/-- Three attribute names. -/
def names : List Bytes := [[1], [2], [3]]
/-- Issuer randomness. -/
def rnd : IssuerRand Toy.suite := ⟨(3 : Toy.K), [2, 4, 5], 3, 6, 2, 5⟩
/-- The issuer key produced from them. -/
def key : IssuerKey :=
  { isk := [3],
    ipk :=
      { attributeNames := [[1], [2], [3]], hSk := some ⟨[3], []⟩, hRand := some ⟨[6], []⟩,
        hAttrs := [some ⟨[2], []⟩, some ⟨[4], []⟩, some ⟨[5], []⟩], w := some ⟨[3], [], [], []⟩,
        barG1 := some ⟨[2], []⟩, barG2 := some ⟨[6], []⟩, proofC := [1], proofS := [1],
        hash := [5] } }
theorem key_eq : newIssuerKey Toy.tr mar names rnd = .ok key := by decide
end Ex

/-! ## C01 -/

/-- C01. For distinct attribute names and any randomness with a non-zero `BarG1` exponent, key generation
succeeds and the generated public key passes validation, which leaves it unchanged. The only other
hypothesis is that the names can be serialised. -/
theorem C01_generated_issuer_key_validates (m : IpkMarshal) (names : List Bytes) (ρ : IssuerRand S)
    (hnodup : names.Nodup) (hlen : ρ.attrs.length = names.length) (hbar : ρ.barG1 ≠ 0)
    (hm : ∀ i : IssuerPublicKey, i.attributeNames = names → ∃ b, m i = .ok b) :
    ∃ key, newIssuerKey T m names ρ = .ok key ∧ key.ipk.attributeNames = names ∧
      key.ipk.check T m = .ok key.ipk := by
  unfold newIssuerKey
  simp only [hnodup, decide_true, Bool.not_true, Res.guardErr_false, Res.ok_bind, hlen, bne_self_eq_false,
    Res.guardPanic_false, ipkProofData_eq]
  generalize hc : S.hashToZr (S.g2Bytes (ρ.r • S.genG2) ++ S.g1Bytes (ρ.r • ρ.barG1 • S.genG1) ++
    S.g2Bytes S.genG2 ++ S.g1Bytes (ρ.barG1 • S.genG1) ++ S.g2Bytes (ρ.isk • S.genG2) ++
    S.g1Bytes (ρ.isk • ρ.barG1 • S.genG1)) = c
  generalize hi : unhashedIpk T names ρ c = i
  obtain ⟨b, hb⟩ := hm i (by rw [← hi]; rfl)
  simp only [hb, Res.ok_bind, Res.pure_def]
  refine ⟨_, rfl, by rw [← hi]; rfl, ?_⟩
  rw [check_ok_iff]
  refine ⟨⟨ρ.hSk • S.genG1, ρ.hRand • S.genG1, ρ.attrs.map (· • S.genG1), ρ.isk • S.genG2⟩,
    ρ.barG1 • S.genG1, ρ.isk • ρ.barG1 • S.genG1, ⟨?_, ?_, ?_, ?_⟩, ?_, ?_, ?_, ?_, ?_, ?_⟩
  · simp [← hi, unhashedIpk]
  · simp [← hi, unhashedIpk]
  · have := parseAttrs_toProto (T := T) (ρ.attrs.map (· • S.genG1))
    simpa [← hi, unhashedIpk, Function.comp_def] using this
  · simp [← hi, unhashedIpk]
  · simp [← hi, unhashedIpk]
  · simp [← hi, unhashedIpk]
  · intro h0
    have : ρ.barG1 • S.genG1 = (0 : S.F) • S.genG1 := by rw [h0, zero_smul]
    exact hbar (S.smul_left_inj S.genG1_ne this)
  · simp [← hi, unhashedIpk, hlen]
  · subst hi
    simp only [unhashedIpk, Suite.zrOfBytes_zrBytes, Spec.ipkTranscript]
    have e1 : (c * ρ.isk + ρ.r) • S.genG2 - c • ρ.isk • S.genG2 = ρ.r • S.genG2 := by module
    have e2 : (c * ρ.isk + ρ.r) • ρ.barG1 • S.genG1 - c • ρ.isk • ρ.barG1 • S.genG1 =
        ρ.r • ρ.barG1 • S.genG1 := by module
    rw [e1, e2, hc]
  · simp only [setHash]
    have : ({ i with hash := [] } : IssuerPublicKey) = i := by rw [← hi]; rfl
    rw [this, hb]
    rfl

example : Ex.names.Nodup ∧ Ex.rnd.attrs.length = Ex.names.length ∧ Ex.rnd.barG1 ≠ 0 ∧
    Ex.key.ipk.check Toy.tr Ex.mar = .ok Ex.key.ipk := by decide

/-! ## C02 (key generation part; the import part is `C02_import_attribute_names`) -/

/-- C02. Given serialisable names, key generation fails exactly when two attribute names coincide. -/
theorem C02_keygen_rejects_duplicates (m : IpkMarshal) (names : List Bytes) (ρ : IssuerRand S)
    (hlen : ρ.attrs.length = names.length)
    (hm : ∀ i : IssuerPublicKey, i.attributeNames = names → ∃ b, m i = .ok b) :
    ((∃ e, newIssuerKey T m names ρ = .err e) ↔
      ∃ i j : Nat, i < j ∧ ∃ n, names[i]? = some n ∧ names[j]? = some n) ∧
    newIssuerKey T m names ρ ≠ .panic := by
  have hnd : names.Nodup ↔ ¬ ∃ i j : Nat, i < j ∧ ∃ n, names[i]? = some n ∧ names[j]? = some n := by
    rw [List.nodup_iff_getElem?_ne_getElem?]
    constructor
    · rintro h ⟨i, j, hij, n, h1, h2⟩
      have hj := (List.getElem?_eq_some_iff.mp h2).1
      exact h i j hij hj (h1.trans h2.symm)
    · intro h i j hij hj he
      exact h ⟨i, j, hij, names[j], by rw [he]; exact List.getElem?_eq_getElem hj,
        List.getElem?_eq_getElem hj⟩
  unfold newIssuerKey
  by_cases hn : names.Nodup
  · simp only [hn, decide_true, Bool.not_true, Res.guardErr_false, Res.ok_bind, hlen,
      bne_self_eq_false, Res.guardPanic_false, ipkProofData_eq]
    generalize hi : unhashedIpk T names ρ _ = i
    obtain ⟨b, hb⟩ := hm i (by rw [← hi]; rfl)
    simp only [hb, Res.ok_bind, Res.pure_def]
    refine ⟨⟨?_, fun h => absurd h (hnd.mp hn)⟩, by simp⟩
    rintro ⟨e, he⟩
    cases he
  · simp only [hn, decide_false, Bool.not_false, Res.guardErr_true, Res.err_bind]
    exact ⟨⟨fun _ => by by_contra h; exact hn (hnd.mpr h), fun _ => ⟨_, rfl⟩⟩, by simp⟩

example : ∃ e, newIssuerKey Toy.tr Ex.mar [[1], [2], [1]] Ex.rnd = .err e := ⟨_, rfl⟩

/-! ## C03 -/

/-- C03, first half. A validated key has a non-trivial `BarG1` and a base for every attribute name, and all its points
decode. -/
theorem C03_validated_key_well_formed (m : IpkMarshal) (ipk out : IssuerPublicKey)
    (h : ipk.check T m = .ok out) :
    (∃ b1, T.g1FromProto ipk.barG1 = .ok b1 ∧ b1 ≠ 0) ∧
      ipk.attributeNames.length ≤ ipk.hAttrs.length ∧
      (∀ e ∈ ipk.hAttrs, ∃ P, T.g1FromProto e = .ok P) ∧
      (∃ P, T.g1FromProto ipk.hSk = .ok P) ∧ (∃ P, T.g1FromProto ipk.hRand = .ok P) ∧
      (∃ P, T.g2FromProto ipk.w = .ok P) := by
  obtain ⟨k, b1, b2, ⟨h1, h2, h3, h6⟩, h4, h5, h7, h8, h10, h11⟩ := check_ok_iff.mp h
  refine ⟨⟨b1, h4, h7⟩, ?_, ?_, ⟨_, h1⟩, ⟨_, h2⟩, ⟨_, h6⟩⟩
  · rw [← parseAttrs_length h3]; exact h8
  · intro e he
    obtain ⟨i, hi, rfl⟩ := List.getElem_of_mem he
    rcases parseAttrs_getElem h3 i with ⟨e, P, ha, hb, hc⟩ | ⟨ha, hb⟩
    · rw [List.getElem?_eq_getElem hi] at ha
      cases ha; exact ⟨P, hc⟩
    · rw [List.getElem?_eq_getElem hi] at ha; cases ha

/-- C03, second half (knowledge soundness of the key proof). Two validated keys with the same `W`, `BarG1`,
`BarG2` whose proofs ask the oracle the same question and get different answers give away the scalar `x`
with `W = x·g2` and `BarG2 = x·BarG1`: it is computed from the challenges and responses. -/
theorem C03_issuer_key_extraction (m : IpkMarshal) (h₁ h₂ : Bytes → S.F)
    (ipk₁ ipk₂ out₁ out₂ : IssuerPublicKey)
    (acc₁ : ipk₁.check (T.withHash h₁) m = .ok out₁) (acc₂ : ipk₂.check (T.withHash h₂) m = .ok out₂)
    (w : S.G2) (b1 b2 : S.G1)
    (hw₁ : T.g2FromProto ipk₁.w = .ok w) (hw₂ : T.g2FromProto ipk₂.w = .ok w)
    (hb₁ : T.g1FromProto ipk₁.barG1 = .ok b1) (hb₂ : T.g1FromProto ipk₂.barG1 = .ok b1)
    (hc₁ : T.g1FromProto ipk₁.barG2 = .ok b2) (hc₂ : T.g1FromProto ipk₂.barG2 = .ok b2)
    (sameQuery :
      Spec.ipkTranscript w b1 b2 (S.zrOfBytes ipk₁.proofC) (S.zrOfBytes ipk₁.proofS) =
      Spec.ipkTranscript w b1 b2 (S.zrOfBytes ipk₂.proofC) (S.zrOfBytes ipk₂.proofS))
    (differentAnswers : h₁ (Spec.ipkTranscript w b1 b2 (S.zrOfBytes ipk₁.proofC)
        (S.zrOfBytes ipk₁.proofS)) ≠ h₂ (Spec.ipkTranscript w b1 b2 (S.zrOfBytes ipk₂.proofC)
        (S.zrOfBytes ipk₂.proofS))) :
    w = Spec.witness (S.zrOfBytes ipk₁.proofC) (S.zrOfBytes ipk₂.proofC) (S.zrOfBytes ipk₁.proofS)
        (S.zrOfBytes ipk₂.proofS) • S.genG2 ∧
      b2 = Spec.witness (S.zrOfBytes ipk₁.proofC) (S.zrOfBytes ipk₂.proofC) (S.zrOfBytes ipk₁.proofS)
        (S.zrOfBytes ipk₂.proofS) • b1 := by
  have ch : ∀ (h : Bytes → S.F) (ipk out : IssuerPublicKey), ipk.check (T.withHash h) m = .ok out →
      T.g2FromProto ipk.w = .ok w → T.g1FromProto ipk.barG1 = .ok b1 →
      T.g1FromProto ipk.barG2 = .ok b2 → S.zrOfBytes ipk.proofC =
        h (Spec.ipkTranscript w b1 b2 (S.zrOfBytes ipk.proofC) (S.zrOfBytes ipk.proofS)) := by
    intro h ipk out hacc hw hb hc
    obtain ⟨k, b1', b2', hk, h4, h5, -, -, h10, -⟩ := check_ok_iff.mp hacc
    have e1 : b1' = b1 := by have := h4.symm.trans hb; simpa using this
    have e2 : b2' = b2 := by have := h5.symm.trans hc; simpa using this
    have e3 : k.w = w := by have := hk.w.symm.trans hw; simpa using this
    rw [e1, e2, e3] at h10
    exact h10
  have c1 := ch h₁ _ _ acc₁ hw₁ hb₁ hc₁
  have c2 := ch h₂ _ _ acc₂ hw₂ hb₂ hc₂
  rw [← c1, ← c2] at differentAnswers
  generalize S.zrOfBytes ipk₁.proofC = x1 at *
  generalize S.zrOfBytes ipk₂.proofC = x2 at *
  generalize S.zrOfBytes ipk₁.proofS = s1 at *
  generalize S.zrOfBytes ipk₂.proofS = s2 at *
  simp only [Spec.ipkTranscript, List.append_assoc] at sameQuery
  obtain ⟨q1, sameQuery⟩ := List.append_inj sameQuery (by simp)
  obtain ⟨q2, -⟩ := List.append_inj sameQuery (by simp)
  have q1 := S.g2Bytes_inj q1
  have q2 := S.g1Bytes_inj q2
  have hne : x1 - x2 ≠ 0 := sub_ne_zero.mpr differentAnswers
  unfold Spec.witness
  refine ⟨?_, ?_⟩
  · apply S.smul_right_inj2 hne
    rw [smul_smul, ← mul_assoc, mul_inv_cancel₀ hne, one_mul, sub_smul, sub_smul]
    linear_combination (norm := module) (-1 : S.F) • q1
  · apply S.smul_right_inj hne
    rw [smul_smul, ← mul_assoc, mul_inv_cancel₀ hne, one_mul, sub_smul, sub_smul]
    linear_combination (norm := module) (-1 : S.F) • q2

/-- The key of the examples with another valid proof (oracle answering 2). -/
def Ex.ipk2 : IssuerPublicKey := { Ex.key.ipk with proofC := [2], proofS := [4] }
example : (∃ o, Ex.key.ipk.check (Toy.tr.withHash fun _ => (1 : Toy.K)) Ex.mar = .ok o) ∧
    (∃ o, Ex.ipk2.check (Toy.tr.withHash fun _ => (2 : Toy.K)) Ex.mar = .ok o) ∧
    Spec.ipkTranscript (S := Toy.suite) (3 : Toy.K) (2 : Toy.K) (6 : Toy.K) (1 : Toy.K) (1 : Toy.K) =
      Spec.ipkTranscript (S := Toy.suite) (3 : Toy.K) (2 : Toy.K) (6 : Toy.K) (2 : Toy.K) (4 : Toy.K) :=
  ⟨⟨_, rfl⟩, ⟨_, rfl⟩, by decide⟩

end Idemix.Dlog
