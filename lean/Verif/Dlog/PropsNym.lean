import Verif.Dlog.PropsCred

/-!
# C17, C18: pseudonyms and pseudonym signatures
-/

namespace Idemix.Dlog

variable {S : Suite} (T : Translator S)

/-! ## C17 -/

/-- C17, completeness: for a pseudonym derived by `makeNym` signing succeeds and the signature verifies. -/
theorem C17_nym_signature_complete (ipk : IssuerPublicKey) (sk r rNym : S.F) (nym : S.G1)
    (hn : makeNym T sk ipk r = .ok (nym, rNym)) (msg : Bytes) (ρ : NymRand S) :
    ∃ sig, newNymSignature T sk nym rNym ipk msg ρ = .ok sig ∧ sig.ver T nym ipk msg = .ok () := by
  simp only [makeNym, Res.bind_eq_ok, Res.pure_def, Res.ok.injEq, Prod.mk.injEq] at hn
  obtain ⟨hSk, h1, hRand, h2, h3, h4⟩ := hn
  have hle : ∀ (t : S.G1), 2 * S.scalarLen ≤ (signLabel ++ S.g1Bytes t ++ S.g1Bytes nym ++
      Buf.padTo S.scalarLen ipk.hash ++ msg).length := by
    intro t
    have := S.scalarLen_le
    simp; omega
  simp only [newNymSignature, h1, h2, Res.ok_bind, nymSigProofData_eq, secondHash_eq _ _ _ (hle _),
    Res.pure_def]
  refine ⟨_, rfl, ?_⟩
  rw [nymVer_ok_iff]
  refine ⟨hSk, hRand, h1, h2, ?_⟩
  simp only [Suite.zrOfBytes_zrBytes, Spec.nymTranscript, Spec.second]
  generalize hc : S.hashToZr (_ ++ S.zrBytes ρ.nonce) = c
  have e : (ρ.rSk + c * sk) • hSk + (ρ.rRNym + c * rNym) • hRand - c • nym =
      ρ.rSk • hSk + ρ.rRNym • hRand := by rw [← h3, h4]; module
  rw [e, ← hc]

/-- C17, knowledge soundness: two signatures for one pseudonym, accepted under two oracles with the same
first hash question and different challenges, give away an opening of the pseudonym: it is computed from the
challenges and responses. -/
theorem C17_nym_signature_extraction (h₁ h₂ : Bytes → S.F) (ipk : IssuerPublicKey) (nym : S.G1)
    (sig₁ sig₂ : NymSignature) (msg₁ msg₂ : Bytes) (k : Spec.Key S)
    (hk : T.g1FromProto ipk.hSk = .ok k.hSk) (hr : T.g1FromProto ipk.hRand = .ok k.hRand)
    (acc₁ : sig₁.ver (T.withHash h₁) nym ipk msg₁ = .ok ())
    (acc₂ : sig₂.ver (T.withHash h₂) nym ipk msg₂ = .ok ())
    (tr : NymSignature → Bytes → Bytes)
    (htr : ∀ sig msg, tr sig msg = Spec.nymTranscript signLabel k nym (S.zrOfBytes sig.proofC)
      (S.zrOfBytes sig.proofSSk) (S.zrOfBytes sig.proofSRNym) ipk.hash msg)
    (sameQuery : tr sig₁ msg₁ = tr sig₂ msg₂)
    (differentAnswers :
      h₁ (Spec.second (S.withHash h₁) (tr sig₁ msg₁) (S.zrOfBytes sig₁.nonce)) ≠
      h₂ (Spec.second (S.withHash h₂) (tr sig₂ msg₂) (S.zrOfBytes sig₂.nonce))) :
    nym = Spec.nym k
      (Spec.witness (S.zrOfBytes sig₁.proofC) (S.zrOfBytes sig₂.proofC) (S.zrOfBytes sig₁.proofSSk)
        (S.zrOfBytes sig₂.proofSSk))
      (Spec.witness (S.zrOfBytes sig₁.proofC) (S.zrOfBytes sig₂.proofC) (S.zrOfBytes sig₁.proofSRNym)
        (S.zrOfBytes sig₂.proofSRNym)) := by
  have ch : ∀ (h : Bytes → S.F) (sig : NymSignature) (msg : Bytes),
      sig.ver (T.withHash h) nym ipk msg = .ok () → S.zrOfBytes sig.proofC =
        h (Spec.second (S.withHash h) (tr sig msg) (S.zrOfBytes sig.nonce)) := by
    intro h sig msg hacc
    obtain ⟨hSk, hRand, h1, h2, h3⟩ := nymVer_ok_iff.mp hacc
    have e1 : hSk = k.hSk := by have := h1.symm.trans hk; simpa using this
    have e2 : hRand = k.hRand := by have := h2.symm.trans hr; simpa using this
    rw [e1, e2] at h3
    rw [htr]
    exact h3
  have c1 := ch _ _ _ acc₁
  have c2 := ch _ _ _ acc₂
  rw [← c1, ← c2] at differentAnswers
  simp only [htr] at sameQuery
  generalize S.zrOfBytes sig₁.proofC = x1 at *
  generalize S.zrOfBytes sig₂.proofC = x2 at *
  generalize S.zrOfBytes sig₁.proofSSk = s1 at *
  generalize S.zrOfBytes sig₂.proofSSk = s2 at *
  generalize S.zrOfBytes sig₁.proofSRNym = r1 at *
  generalize S.zrOfBytes sig₂.proofSRNym = r2 at *
  simp only [Spec.nymTranscript, List.append_assoc] at sameQuery
  have q1 := (List.append_inj (List.append_cancel_left sameQuery) (by simp)).1
  have q1 := S.g1Bytes_inj q1
  have hne : x1 - x2 ≠ 0 := sub_ne_zero.mpr differentAnswers
  unfold Spec.witness
  apply S.smul_right_inj hne
  rw [Spec.nym, smul_add, smul_smul, smul_smul, ← mul_assoc, ← mul_assoc, mul_inv_cancel₀ hne, one_mul,
    one_mul, sub_smul, sub_smul, sub_smul]
  linear_combination (norm := module) (-1 : S.F) • q1

/-- C17, binding: two accepted signatures with the same challenge are for the same message, pseudonym and
nonce (and the same issuer key hash, if of the scalar length), or one of the two hash inputs computed
during verification is a collision. In particular a signature accepted for two messages gives one. -/
theorem C17_nym_signature_binding (sig₁ sig₂ : NymSignature) (nym₁ nym₂ : S.G1)
    (ipk₁ ipk₂ : IssuerPublicKey) (msg₁ msg₂ : Bytes) (k₁ k₂ : Spec.Key S)
    (hk₁ : T.g1FromProto ipk₁.hSk = .ok k₁.hSk) (hr₁ : T.g1FromProto ipk₁.hRand = .ok k₁.hRand)
    (hk₂ : T.g1FromProto ipk₂.hSk = .ok k₂.hSk) (hr₂ : T.g1FromProto ipk₂.hRand = .ok k₂.hRand)
    (acc₁ : sig₁.ver T nym₁ ipk₁ msg₁ = .ok ()) (acc₂ : sig₂.ver T nym₂ ipk₂ msg₂ = .ok ())
    (sameChallenge : S.zrOfBytes sig₁.proofC = S.zrOfBytes sig₂.proofC)
    (t₁ t₂ : Bytes)
    (ht₁ : t₁ = Spec.nymTranscript signLabel k₁ nym₁ (S.zrOfBytes sig₁.proofC)
      (S.zrOfBytes sig₁.proofSSk) (S.zrOfBytes sig₁.proofSRNym) ipk₁.hash msg₁)
    (ht₂ : t₂ = Spec.nymTranscript signLabel k₂ nym₂ (S.zrOfBytes sig₂.proofC)
      (S.zrOfBytes sig₂.proofSSk) (S.zrOfBytes sig₂.proofSRNym) ipk₂.hash msg₂) :
    (msg₁ = msg₂ ∧ nym₁ = nym₂ ∧ S.zrOfBytes sig₁.nonce = S.zrOfBytes sig₂.nonce ∧
      (ipk₁.hash.length = S.scalarLen → ipk₂.hash.length = S.scalarLen → ipk₁.hash = ipk₂.hash)) ∨
    S.Collision t₁ t₂ ∨
    S.Collision (Spec.second S t₁ (S.zrOfBytes sig₁.nonce))
      (Spec.second S t₂ (S.zrOfBytes sig₂.nonce)) := by
  have ch : ∀ (sig : NymSignature) (nym : S.G1) (ipk : IssuerPublicKey) (msg : Bytes) (k : Spec.Key S),
      T.g1FromProto ipk.hSk = .ok k.hSk → T.g1FromProto ipk.hRand = .ok k.hRand →
      sig.ver T nym ipk msg = .ok () → S.zrOfBytes sig.proofC =
        S.hashToZr (Spec.second S (Spec.nymTranscript signLabel k nym (S.zrOfBytes sig.proofC)
      (S.zrOfBytes sig.proofSSk) (S.zrOfBytes sig.proofSRNym) ipk.hash msg) (S.zrOfBytes sig.nonce)) := by
    intro sig nym ipk msg k hk hr hacc
    obtain ⟨hSk, hRand, h1, h2, h3⟩ := nymVer_ok_iff.mp hacc
    have e1 : hSk = k.hSk := by have := h1.symm.trans hk; simpa using this
    have e2 : hRand = k.hRand := by have := h2.symm.trans hr; simpa using this
    rw [e1, e2] at h3
    exact h3
  have c1 := ch _ _ _ _ _ hk₁ hr₁ acc₁
  have c2 := ch _ _ _ _ _ hk₂ hr₂ acc₂
  rw [← ht₁] at c1
  rw [← ht₂] at c2
  by_cases hs : Spec.second S t₁ (S.zrOfBytes sig₁.nonce) = Spec.second S t₂ (S.zrOfBytes sig₂.nonce)
  · have hs' := hs
    simp only [Spec.second] at hs'
    obtain ⟨q1, q2⟩ := List.append_inj hs' (by simp)
    have q1 := S.zrBytes_inj q1
    have q2 := S.zrBytes_inj q2
    by_cases ht : t₁ = t₂
    · left
      rw [ht₁, ht₂] at ht
      simp only [Spec.nymTranscript, List.append_assoc] at ht
      obtain ⟨-, ht⟩ := List.append_inj (List.append_cancel_left ht) (by simp)
      obtain ⟨p2, ht⟩ := List.append_inj ht (by simp)
      obtain ⟨p3, p4⟩ := List.append_inj ht (by simp)
      refine ⟨p4, S.g1Bytes_inj p2, q2, fun l1 l2 => ?_⟩
      rwa [Buf.padTo_of_length l1, Buf.padTo_of_length l2] at p3
    · exact .inr (.inl ⟨ht, q1⟩)
  · exact .inr (.inr ⟨hs, by rw [← c1, ← c2, sameChallenge]⟩)

namespace Ex
/-- The pseudonym of the user with secret 4 and randomness 2. -/
def nym : Toy.K := 3
theorem nym_eq : makeNym Toy.tr (4 : Toy.K) key.ipk (2 : Toy.K) = .ok (nym, (2 : Toy.K)) := by decide
/-- The randomness of a pseudonym signature. -/
def nymRnd : NymRand Toy.suite := ⟨(1 : Toy.K), 3, 5⟩
end Ex

example : ∃ sig, newNymSignature Toy.tr (4 : Toy.K) Ex.nym (2 : Toy.K) Ex.key.ipk [9, 9] Ex.nymRnd =
    .ok sig ∧ sig.ver Toy.tr Ex.nym Ex.key.ipk [9, 9] = .ok () ∧
      sig.ver Toy.tr Ex.nym Ex.key.ipk [9, 8] ≠ .ok () := ⟨_, rfl, by decide, by decide⟩

/-- Two signatures made with the same randomness against the constant oracles 1 and 2 meet the hypotheses
of the extraction theorem. -/
example : ∃ s1 s2, newNymSignature (Toy.tr.withHash fun _ => (1 : Toy.K)) (4 : Toy.K) Ex.nym
      (2 : Toy.K) Ex.key.ipk [9] ⟨(1 : Toy.K), 3, 5⟩ = .ok s1 ∧
    newNymSignature (Toy.tr.withHash fun _ => (2 : Toy.K)) (4 : Toy.K) Ex.nym
      (2 : Toy.K) Ex.key.ipk [9] ⟨(1 : Toy.K), 3, 5⟩ = .ok s2 ∧
    s1.ver (Toy.tr.withHash fun _ => (1 : Toy.K)) Ex.nym Ex.key.ipk [9] = .ok () ∧
    s2.ver (Toy.tr.withHash fun _ => (2 : Toy.K)) Ex.nym Ex.key.ipk [9] = .ok () ∧
    Spec.nymTranscript (S := Toy.suite) signLabel ⟨(3 : Toy.K), (6 : Toy.K), [], (0 : Toy.K)⟩ Ex.nym
      (Toy.dec s1.proofC) (Toy.dec s1.proofSSk) (Toy.dec s1.proofSRNym) Ex.key.ipk.hash [9] =
    Spec.nymTranscript (S := Toy.suite) signLabel ⟨(3 : Toy.K), (6 : Toy.K), [], (0 : Toy.K)⟩ Ex.nym
      (Toy.dec s2.proofC) (Toy.dec s2.proofSSk) (Toy.dec s2.proofSRNym) Ex.key.ipk.hash [9] :=
  ⟨_, _, rfl, rfl, by decide, by decide, by decide⟩

/-! ## C18 -/

/-- C18. For an issuer key with `HRand ≠ 1`, every group element is a pseudonym of every user for exactly
one randomness. -/
theorem C18_nym_hides_user (ipk : IssuerPublicKey) (hSk hRand : S.G1)
    (hk : T.g1FromProto ipk.hSk = .ok hSk) (hr : T.g1FromProto ipk.hRand = .ok hRand) (hne : hRand ≠ 0)
    (sk₁ sk₂ r₁ : S.F) :
    ∃ nym, makeNym T sk₁ ipk r₁ = .ok (nym, r₁) ∧
      ∃! r₂ : S.F, makeNym T sk₂ ipk r₂ = .ok (nym, r₂) := by
  simp only [makeNym, hk, hr, Res.ok_bind, Res.pure_def, Res.ok.injEq, Prod.mk.injEq, and_true]
  refine ⟨_, rfl, ?_⟩
  obtain ⟨x, hx⟩ := S.g1_span hne (sk₁ • hSk + r₁ • hRand - sk₂ • hSk)
  refine ⟨x, ?_, ?_⟩
  · beta_reduce; rw [← hx]; abel
  · intro y hy
    apply S.smul_left_inj hne
    rw [← hx, ← hy]; abel

example : makeNym Toy.tr (4 : Toy.K) Ex.key.ipk (2 : Toy.K) = .ok (Ex.nym, (2 : Toy.K)) ∧
    makeNym Toy.tr (1 : Toy.K) Ex.key.ipk (0 : Toy.K) = .ok (Ex.nym, (0 : Toy.K)) := by decide

end Idemix.Dlog
