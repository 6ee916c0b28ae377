import Verif.Dlog.PropsExtra
import Verif.Dlog.PropsVerify

/-!
# Altered signatures of the dlog scheme (C103)

Can somebody who sees an accepted signature make another accepted signature from it? The bytes of a signature can be
altered in several ways. What the verifier reads out of them cannot, unless the challenge is altered too or somebody has
broken the hash function or the discrete logarithm.
-/

namespace Idemix.Dlog

open Proto Proto.Spec

variable {S : Suite} {T : Translator S}

/-! ## What can be altered -/

/-- **C103 is violated (bytes).** Whoever sees an accepted signature or pseudonym signature can prepend a field that
nobody declared: these other bytes are accepted too, for the same key, message, attributes and pseudonym. -/
theorem C103_bytes_violated (E : Env S) (ipk : Dyn IssuerPublicKey) :
    (∀ b digest attributes rhIndex eidIndex revPk epoch verType md,
      E.verify ipk b digest attributes rhIndex eidIndex revPk epoch verType md = .ok () →
      [88, 7] ++ b ≠ b ∧ E.verify ipk ([88, 7] ++ b) digest attributes rhIndex eidIndex revPk epoch verType md = .ok ()) ∧
    (∀ b nym digest, E.nymVerify ipk nym b digest = .ok () →
      [88, 7] ++ b ≠ b ∧ E.nymVerify ipk nym ([88, 7] ++ b) digest = .ok ()) := by
  have hne : ∀ b : Bytes, [88, 7] ++ b ≠ b := fun b h => by have := congrArg List.length h; simp at this; omega
  obtain ⟨-, -, -, -, hv, -, hn⟩ := C95_dlog_partial E ipk
  refine ⟨fun b digest attributes rhIndex eidIndex revPk epoch verType md h => ⟨hne b, ?_⟩,
    fun b nym digest h => ⟨hne b, ?_⟩⟩
  · rw [hv b ([88, 7] ++ b) _ _ _ _ _ _ _ _ (.insert (b₁ := []) b .nil
      (Ex.extra (by simp [Schema.declared, Spec.schema, FieldType.wire])))]
    exact h
  · rw [hn b ([88, 7] ++ b) _ _ (.insert (b₁ := []) b .nil
      (Ex.extra (by simp [Schema.declared, Spec.schema, FieldType.wire])))]
    exact h

/-- **C103 is violated (revocation information).** The epoch, the epoch key and the signature on the epoch key are in
every signature, but no proof covers them and no verifier compares them with anything. Any others, as long as the epoch
key is a point, are accepted as well. -/
theorem C103_revocation_fields_violated {RevPk : Type} (sig : Signature) (D : Bytes) (ipk : Option IssuerPublicKey)
    (msg : Bytes) (values : List (Option S.F)) (rhIndex eidIndex : Int) (revPk : RevPk) (epoch : Int) (vt : VerType)
    (md : Option (SignerMetadata S)) (epoch' : Int) (pkSig' : Bytes) (epochPk' : Option ECP2) (P : S.G2)
    (hP : T.g2FromProto epochPk' = .ok P)
    (acc : sig.ver T D ipk msg values rhIndex eidIndex revPk epoch vt md = .ok ()) :
    { sig with epoch := epoch', revocationPkSig := pkSig', revocationEpochPk := epochPk' }.ver T D ipk msg values
      rhIndex eidIndex revPk epoch vt md = .ok () := by
  obtain ⟨i, k, v, vs, e, sh, a⟩ := ver_ok_iff.mp acc
  refine ver_ok_iff.mpr ⟨i, k, v, vs, e, ?_, a⟩
  obtain ⟨d1, d2, d3, d4, d5, d6, d7, d8, d9, d10, d11, d12, d13⟩ := sh.decodes
  exact
    { reads := sh.reads, decodes := ⟨d1, d2, d3, d4, d5, d6, d7, d8, d9, d10, d11, d12, d13⟩
      eid := sh.eid, rh := sh.rh, rh_nonneg := sh.rh_nonneg, rh_lt := sh.rh_lt, D_len := sh.D_len, nrp := sh.nrp
      verType := sh.verType, epochPk := ⟨P, hP⟩, sAttrs_len := sh.sAttrs_len, bases_len := sh.bases_len
      rh_resp := sh.rh_resp, eid_range := sh.eid_range, values := sh.values, values_len := sh.values_len
      metaEid := sh.metaEid, metaRh := sh.metaRh }

/-! ## What cannot be altered -/

namespace Spec

/-- The scalars `xs`, not all of which are 0, are a relation between the points `Ps`. For two points this is the discrete
logarithm of one to the base of the other. -/
def Relation (S : Suite) (xs : List S.F) (Ps : List S.G1) : Prop :=
  xs.length = Ps.length ∧ (∃ x ∈ xs, x ≠ 0) ∧ S.lin xs Ps = 0

end Spec

/-- **C103 (pseudonym signatures, partial).** Two accepted pseudonym signatures for one pseudonym, key and message with
the same challenge have the same content, or their transcripts or final hash inputs collide, or the differences of
their answers are a relation between the two generators of the key. What is missing: the bytes
(`C103_bytes_violated`). -/
theorem C103_nym_signature_partial (sig₁ sig₂ : NymSignature) (nym : S.G1) (ipk : IssuerPublicKey) (msg : Bytes)
    (k : Spec.Key S) (hk : T.g1FromProto ipk.hSk = .ok k.hSk) (hr : T.g1FromProto ipk.hRand = .ok k.hRand)
    (acc₁ : sig₁.ver T nym ipk msg = .ok ()) (acc₂ : sig₂.ver T nym ipk msg = .ok ())
    (sameChallenge : S.zrOfBytes sig₁.proofC = S.zrOfBytes sig₂.proofC) (t₁ t₂ : Bytes)
    (ht₁ : t₁ = Spec.nymTranscript signLabel k nym (S.zrOfBytes sig₁.proofC)
      (S.zrOfBytes sig₁.proofSSk) (S.zrOfBytes sig₁.proofSRNym) ipk.hash msg)
    (ht₂ : t₂ = Spec.nymTranscript signLabel k nym (S.zrOfBytes sig₂.proofC)
      (S.zrOfBytes sig₂.proofSSk) (S.zrOfBytes sig₂.proofSRNym) ipk.hash msg) :
    (S.zrOfBytes sig₁.proofSSk = S.zrOfBytes sig₂.proofSSk ∧
      S.zrOfBytes sig₁.proofSRNym = S.zrOfBytes sig₂.proofSRNym ∧
      S.zrOfBytes sig₁.nonce = S.zrOfBytes sig₂.nonce) ∨
    Spec.Relation S [S.zrOfBytes sig₁.proofSSk - S.zrOfBytes sig₂.proofSSk,
      S.zrOfBytes sig₁.proofSRNym - S.zrOfBytes sig₂.proofSRNym] [k.hSk, k.hRand] ∨
    S.Collision t₁ t₂ ∨
    S.Collision (Spec.second S t₁ (S.zrOfBytes sig₁.nonce)) (Spec.second S t₂ (S.zrOfBytes sig₂.nonce)) := by
  have ch : ∀ sig : NymSignature, sig.ver T nym ipk msg = .ok () → S.zrOfBytes sig.proofC =
        S.hashToZr (Spec.second S (Spec.nymTranscript signLabel k nym (S.zrOfBytes sig.proofC)
      (S.zrOfBytes sig.proofSSk) (S.zrOfBytes sig.proofSRNym) ipk.hash msg) (S.zrOfBytes sig.nonce)) := by
    intro sig hacc
    obtain ⟨hSk, hRand, h1, h2, h3⟩ := nymVer_ok_iff.mp hacc
    have e1 : hSk = k.hSk := by have := h1.symm.trans hk; simpa using this
    have e2 : hRand = k.hRand := by have := h2.symm.trans hr; simpa using this
    rw [e1, e2] at h3
    exact h3
  have c1 := ch _ acc₁
  have c2 := ch _ acc₂
  rw [← ht₁] at c1
  rw [← ht₂] at c2
  by_cases hs : Spec.second S t₁ (S.zrOfBytes sig₁.nonce) = Spec.second S t₂ (S.zrOfBytes sig₂.nonce)
  · have hs' := hs
    simp only [Spec.second] at hs'
    obtain ⟨q1, q2⟩ := List.append_inj hs' (by simp)
    have q1 := S.zrBytes_inj q1
    have hn := S.zrBytes_inj q2
    by_cases ht : t₁ = t₂
    · rw [ht₁, ht₂] at ht
      simp only [Spec.nymTranscript, List.append_assoc, sameChallenge] at ht
      have q := S.g1Bytes_inj (List.append_inj (List.append_cancel_left ht) (by simp)).1
      clear c1 c2 hs hs' q1 q2 ht ht₁ ht₂
      generalize S.zrOfBytes sig₁.proofSSk = s1 at *
      generalize S.zrOfBytes sig₂.proofSSk = s2 at *
      generalize S.zrOfBytes sig₁.proofSRNym = r1 at *
      generalize S.zrOfBytes sig₂.proofSRNym = r2 at *
      by_cases hs : s1 = s2 ∧ r1 = r2
      · exact .inl ⟨hs.1, hs.2, hn⟩
      · refine .inr (.inl ⟨rfl, ?_, ?_⟩)
        · by_cases h1 : s1 = s2
          · exact ⟨r1 - r2, by simp, sub_ne_zero.mpr fun h2 => hs ⟨h1, h2⟩⟩
          · exact ⟨s1 - s2, by simp, sub_ne_zero.mpr h1⟩
        · simp only [Suite.lin_cons, Suite.lin_nil_left, add_zero, sub_smul]
          linear_combination (norm := module) q
    · exact .inr (.inr (.inl ⟨ht, q1⟩))
  · exact .inr (.inr (.inr ⟨hs, by rw [← c1, ← c2, sameChallenge]⟩))

/-- Two points with a relation between them, from an equation between two pairs of answers that differ. -/
theorem relation_two {x₁ x₂ y₁ y₂ : S.F} {P Q R : S.G1} (h : x₁ • P + y₁ • Q - R = x₂ • P + y₂ • Q - R)
    (hne : ¬(x₁ = x₂ ∧ y₁ = y₂)) : Spec.Relation S [x₁ - x₂, y₁ - y₂] [P, Q] := by
  refine ⟨rfl, ?_, ?_⟩
  · by_cases h1 : x₁ = x₂
    · exact ⟨y₁ - y₂, by simp, sub_ne_zero.mpr fun h2 => hne ⟨h1, h2⟩⟩
    · exact ⟨x₁ - x₂, by simp, sub_ne_zero.mpr h1⟩
  · simp only [Suite.lin_cons, Suite.lin_nil_left, add_zero, sub_smul]
    linear_combination (norm := module) h

theorem exists_sub_ne {as bs : List S.F} (hl : as.length = bs.length) (hne : as ≠ bs) :
    ∃ x ∈ List.zipWith (· - ·) as bs, x ≠ 0 := by
  induction as generalizing bs with
  | nil => cases bs <;> simp_all
  | cons a as ih =>
    cases bs with
    | nil => simp at hl
    | cons b bs =>
      by_cases h : a = b
      · subst h
        obtain ⟨x, hx, hx'⟩ := ih (bs := bs) (by simpa using hl) (by simpa using hne)
        exact ⟨x, by simp [hx], hx'⟩
      · exact ⟨a - b, by simp, sub_ne_zero.mpr h⟩

/-- The answers for an attribute pseudonym, given that those for the attributes are the same. -/
theorem nymPart_unique {k : Spec.Key S} {D : Bytes} {v₁ v₂ : Spec.Sig S} {i : Nat} {o₁ o₂ : Option (S.G1 × S.F)}
    (hr : k.hRand ≠ 0) (hs : o₁.isSome = o₂.isSome) (hc : v₁.c = v₂.c) (ha : v₁.sAttrs = v₂.sAttrs)
    (h : v₁.nymPart k D i o₁ = v₂.nymPart k D i o₂) : o₁ = o₂ := by
  cases o₁ with
  | none => cases o₂ <;> simp_all
  | some p₁ =>
    cases o₂ with
    | none => simp at hs
    | some p₂ =>
      obtain ⟨e, t⟩ := nymPart_inj h
      simp only [Spec.Sig.t4, ha, hc, e] at t
      have : p₁.2 = p₂.2 := S.smul_left_inj hr (by linear_combination (norm := module) t)
      exact congrArg some (Prod.ext e this)

/-- **C103 (signatures, partial).** Two signatures that are accepted for one key, disclosure, message and list of values,
have the same attribute pseudonyms or none, and have the same challenge, have the same content as the verifier
sees it: every point, every answer, the nonce and the attribute pseudonyms. Otherwise their transcripts or final hash
inputs collide, or the differences of their answers are a relation between points: between `A'` and `HRand`, between
`HSk` and `HRand`, or between `HRand`, `B'`, `HSk` and the bases of the hidden attributes. What is missing: the bytes and
the revocation information (`C103_bytes_violated`, `C103_revocation_fields_violated`). -/
theorem C103_signature_partial {RevPk : Type} (sig₁ sig₂ : Signature) (vt : VerType) (ipk : IssuerPublicKey)
    (D msg : Bytes) (values : List (Option S.F)) (rhIndex eidIndex : Int) (revPk₁ revPk₂ : RevPk) (epoch₁ epoch₂ : Int)
    (md₁ md₂ : Option (SignerMetadata S))
    (acc₁ : sig₁.ver T D (some ipk) msg values rhIndex eidIndex revPk₁ epoch₁ vt md₁ = .ok ())
    (acc₂ : sig₂.ver T D (some ipk) msg values rhIndex eidIndex revPk₂ epoch₂ vt md₂ = .ok ())
    (sameEid : sig₁.eidNym.isSome = sig₂.eidNym.isSome) (sameRh : sig₁.rhNym.isSome = sig₂.rhNym.isSome)
    (sameChallenge : S.zrOfBytes sig₁.proofC = S.zrOfBytes sig₂.proofC)
    (k : Spec.Key S) (hk : Reads T ipk k) (hr : k.hRand ≠ 0) :
    ∃ (v₁ v₂ : Spec.Sig S) (vs : List S.F) (q₁ q₂ : Bytes),
      Views T sig₁ vt v₁ ∧ Views T sig₂ vt v₂ ∧ vs.map some = dis D values ∧
      q₁ = v₁.transcript (sigLabelOf v₁) k ipk.hash D vs eidIndex.toNat rhIndex.toNat msg ∧
      q₂ = v₂.transcript (sigLabelOf v₂) k ipk.hash D vs eidIndex.toNat rhIndex.toNat msg ∧
      (v₁ = v₂ ∨
        Spec.Relation S [v₁.sE - v₂.sE, v₁.sR2 - v₂.sR2] [v₁.aPrime, k.hRand] ∨
        Spec.Relation S [v₁.sSk - v₂.sSk, v₁.sRNym - v₂.sRNym] [k.hSk, k.hRand] ∨
        Spec.Relation S ((v₁.sSPrime - v₂.sSPrime) :: (v₁.sR3 - v₂.sR3) :: (v₁.sSk - v₂.sSk) ::
          List.zipWith (· - ·) v₁.sAttrs v₂.sAttrs) (k.hRand :: v₁.bPrime :: k.hSk :: hid D k.hAttrs) ∨
        S.Collision q₁ q₂ ∨ S.Collision (Spec.second S q₁ v₁.nonce) (Spec.second S q₂ v₂.nonce)) := by
  obtain ⟨_, k₁, v₁, vs, e₁, sh₁, a₁⟩ := ver_ok_iff.mp acc₁
  obtain ⟨_, k₂, v₂, vs₂, e₂, sh₂, a₂⟩ := ver_ok_iff.mp acc₂
  cases e₁; cases e₂
  obtain rfl := hk.unique sh₁.reads
  obtain rfl := hk.unique sh₂.reads
  obtain rfl : vs = vs₂ := List.map_injective_iff.mpr (Option.some_injective _) (sh₁.values.trans sh₂.values.symm)
  have hse : v₁.eid.isSome = v₂.eid.isSome := by
    rw [sh₁.eid.isSome, sh₂.eid.isSome]; simp [verifyEid, verifyRh, sameEid, sameRh]
  have hsr : v₁.rh.isSome = v₂.rh.isSome := by
    rw [sh₁.rh.isSome, sh₂.rh.isSome]; simp [verifyRh, sameRh]
  have hc : v₁.c = v₂.c := by rw [sh₁.decodes.c, sh₂.decodes.c, sameChallenge]
  refine ⟨v₁, v₂, vs, _, _, ⟨sh₁.decodes, sh₁.eid, sh₁.rh⟩, ⟨sh₂.decodes, sh₂.eid, sh₂.rh⟩, sh₁.values, rfl, rfl, ?_⟩
  have c₁ := a₁.challenge
  have c₂ := a₂.challenge
  generalize hq₁ : v₁.transcript (sigLabelOf v₁) k ipk.hash D vs eidIndex.toNat rhIndex.toNat msg = q₁ at *
  generalize hq₂ : v₂.transcript (sigLabelOf v₂) k ipk.hash D vs eidIndex.toNat rhIndex.toNat msg = q₂ at *
  by_cases hs : Spec.second S q₁ v₁.nonce = Spec.second S q₂ v₂.nonce
  swap
  · exact .inr (.inr (.inr (.inr (.inr ⟨hs, by rw [← c₁, ← c₂, hc]⟩))))
  simp only [Spec.second] at hs
  obtain ⟨n1, n2⟩ := List.append_inj hs (by simp)
  have n1 := S.zrBytes_inj n1
  have n2 := S.zrBytes_inj n2
  by_cases ht : q₁ = q₂
  swap
  · exact .inr (.inr (.inr (.inr (.inl ⟨ht, n1⟩))))
  rw [← hq₁, ← hq₂] at ht
  obtain ⟨t1, t2, t3, p1, p2, p3, p4, p5, p6, -⟩ := transcript_inj rfl hse hsr ht
  simp only [Spec.Sig.t1, Spec.Sig.t2, Spec.Sig.t3, hc, ← p1, ← p2, ← p3, ← p4] at t1 t2 t3
  by_cases h1 : v₁.sE = v₂.sE ∧ v₁.sR2 = v₂.sR2
  swap
  · exact .inr (.inl (relation_two t1 h1))
  by_cases h3 : v₁.sSk = v₂.sSk ∧ v₁.sRNym = v₂.sRNym
  swap
  · exact .inr (.inr (.inl (relation_two t3 h3)))
  have hla : v₁.sAttrs.length = v₂.sAttrs.length := by rw [sh₁.sAttrs_len, sh₂.sAttrs_len]
  by_cases h2 : v₁.sSPrime = v₂.sSPrime ∧ v₁.sR3 = v₂.sR3 ∧ v₁.sAttrs = v₂.sAttrs
  · left
    have h5 := nymPart_unique hr hse hc h2.2.2 p5
    have h6 := nymPart_unique hr hsr hc h2.2.2 p6
    cases v₁; cases v₂
    simp_all
  · refine .inr (.inr (.inr (.inl ⟨?_, ?_, ?_⟩)))
    · have : (hid D k.hAttrs).length = nHid D := hid_length _ _ sh₁.bases_len
      simp [← hla, sh₁.sAttrs_len, this]
    · by_cases h4 : v₁.sSPrime = v₂.sSPrime
      · by_cases h5 : v₁.sR3 = v₂.sR3
        · obtain ⟨x, hx, hx'⟩ := exists_sub_ne hla fun h => h2 ⟨h4, h5, h⟩
          exact ⟨x, by simp [hx], hx'⟩
        · exact ⟨v₁.sR3 - v₂.sR3, by simp, sub_ne_zero.mpr h5⟩
      · exact ⟨v₁.sSPrime - v₂.sSPrime, by simp, sub_ne_zero.mpr h4⟩
    · simp only [Suite.lin_cons, S.lin_sub hla, sub_smul]
      linear_combination (norm := module) t2

/-! ## Examples -/

/-- A pseudonym signature and another with the same challenge: in the toy group everybody knows the discrete logarithm. -/
example : ∃ sig : NymSignature, newNymSignature Toy.tr (4 : Toy.K) Ex.nym (2 : Toy.K) Ex.key.ipk [9, 9] Ex.nymRnd =
    .ok sig ∧ sig.ver Toy.tr Ex.nym Ex.key.ipk [9, 9] = .ok () ∧
    { sig with proofSSk := Toy.enc (Toy.dec sig.proofSSk + 5), proofSRNym := Toy.enc (Toy.dec sig.proofSRNym + 1) } ≠ sig ∧
    { sig with proofSSk := Toy.enc (Toy.dec sig.proofSSk + 5), proofSRNym := Toy.enc (Toy.dec sig.proofSRNym + 1) }.ver
      Toy.tr Ex.nym Ex.key.ipk [9, 9] = .ok () :=
  ⟨_, rfl, by decide, by decide, by decide⟩

set_option maxRecDepth 40000 in
/-- An accepted signature, the same with other revocation information, and the conditions on the key. -/
example : ∃ sig m, newSignature Toy.tr Ex.cred (4 : Toy.K) Ex.nym (2 : Toy.K) Ex.key.ipk
      Ex.discl [8] 2 1 Ex.cri Ex.sigRnd .eidNymRhNym none = .ok (sig, m) ∧
    sig.ver Toy.tr Ex.discl (some Ex.key.ipk) [8] Ex.vals 2 1 () 0 .expectEidNymRhNym none = .ok () ∧
    { sig with epoch := 99, revocationPkSig := [1] } ≠ sig ∧
    { sig with epoch := 99, revocationPkSig := [1] }.ver Toy.tr Ex.discl (some Ex.key.ipk) [8] Ex.vals 2 1 () 0
      .expectEidNymRhNym none = .ok () ∧
    (∃ P, Toy.tr.g2FromProto sig.revocationEpochPk = .ok P) :=
  ⟨_, _, rfl, by decide, by decide, by decide, _, rfl⟩

end Idemix.Dlog
