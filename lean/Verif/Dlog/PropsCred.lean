import Verif.Dlog.PropsIssue

/-!
# C04–C08: credential requests and credentials
-/

namespace Idemix.Dlog

variable {S : Suite} (T : Translator S)

namespace Ex
/-- A credential request of the user with secret 4, nonce `[6]`. -/
def req : CredRequest := ⟨some ⟨[5], []⟩, some [6], [6], [1]⟩
theorem req_eq : newCredRequest Toy.tr (4 : Toy.K) (some [6]) key.ipk (5 : Toy.K) = .ok req := by decide
/-- The credential issued on it for the attributes 1, 0, 6. -/
def cred : Credential := ⟨some ⟨[3], []⟩, some ⟨[1], []⟩, [2], [2], [[1], [0], [6]]⟩
theorem cred_eq : newCredential Toy.tr key req [(1 : Toy.K), 0, 6] (2 : Toy.K) (2 : Toy.K) = .ok cred := by
  decide
end Ex

/-! ## C04 (crypto part; the nonce comparison of the bridge is `C04_bridge_request_nonce`) -/

/-- C04. A request created for a nonce of the scalar length (more generally: at most two scalars long) is
accepted by the issuer, and carries that nonce. -/
theorem C04_request_accepted (ipk : IssuerPublicKey) (sk rSk : S.F) (nonce : Bytes) (hSk : S.G1)
    (hk : T.g1FromProto ipk.hSk = .ok hSk) (hn : nonce.length ≤ 2 * S.scalarLen) :
    ∃ req, newCredRequest T sk (some nonce) ipk rSk = .ok req ∧ req.issuerNonce = some nonce ∧
      req.check T ipk = .ok () := by
  simp only [newCredRequest, hk, Res.ok_bind, Option.getD_some, credReqProofData_of_le _ _ _ _ _ hn,
    Res.pure_def]
  refine ⟨_, rfl, rfl, ?_⟩
  rw [reqCheck_ok_iff]
  refine ⟨_, hSk, nonce, T.g1_rt _, hk, rfl, hn, ?_⟩
  simp only [Suite.zrOfBytes_zrBytes, Spec.requestTranscript]
  generalize hc : S.hashToZr _ = c
  have e : (c * sk + rSk) • hSk - c • sk • hSk = rSk • hSk := by module
  rw [e, ← hc]

/-- C04. A request without a nonce is refused, also by the issuer's cryptographic check. -/
theorem C04_request_without_nonce_refused (ipk : IssuerPublicKey) (req : CredRequest)
    (h : req.issuerNonce = none) : req.check T ipk ≠ .ok () := by
  intro hc
  obtain ⟨_, _, n, _, _, hn, _⟩ := reqCheck_ok_iff.mp hc
  rw [h] at hn; cases hn

example : Ex.req.check Toy.tr Ex.key.ipk = .ok () := by decide

/-! ## C05 -/

/-- C05. Knowledge soundness of requests: two requests for the same pseudonym, accepted under two oracles
after asking the same question and getting different answers, give away `sk` with `Nym = sk·HSk`: it is
computed from the challenges and responses. -/
theorem C05_request_extraction (h₁ h₂ : Bytes → S.F) (ipk : IssuerPublicKey) (req₁ req₂ : CredRequest)
    (acc₁ : req₁.check (T.withHash h₁) ipk = .ok ()) (acc₂ : req₂.check (T.withHash h₂) ipk = .ok ())
    (nym hSk : S.G1) (n₁ n₂ : Bytes)
    (hn₁ : T.g1FromProto req₁.nym = .ok nym) (hn₂ : T.g1FromProto req₂.nym = .ok nym)
    (hk : T.g1FromProto ipk.hSk = .ok hSk)
    (ho₁ : req₁.issuerNonce = some n₁) (ho₂ : req₂.issuerNonce = some n₂)
    (sameQuery :
      Spec.requestTranscript credRequestLabel hSk nym (S.zrOfBytes req₁.proofC)
        (S.zrOfBytes req₁.proofS) n₁ ipk.hash =
      Spec.requestTranscript credRequestLabel hSk nym (S.zrOfBytes req₂.proofC)
        (S.zrOfBytes req₂.proofS) n₂ ipk.hash)
    (differentAnswers :
      h₁ (Spec.requestTranscript credRequestLabel hSk nym (S.zrOfBytes req₁.proofC)
        (S.zrOfBytes req₁.proofS) n₁ ipk.hash) ≠
      h₂ (Spec.requestTranscript credRequestLabel hSk nym (S.zrOfBytes req₂.proofC)
        (S.zrOfBytes req₂.proofS) n₂ ipk.hash)) :
    nym = Spec.witness (S.zrOfBytes req₁.proofC) (S.zrOfBytes req₂.proofC) (S.zrOfBytes req₁.proofS)
      (S.zrOfBytes req₂.proofS) • hSk := by
  have ch : ∀ (h : Bytes → S.F) (req : CredRequest) (n : Bytes), req.check (T.withHash h) ipk = .ok () →
      T.g1FromProto req.nym = .ok nym → req.issuerNonce = some n → S.zrOfBytes req.proofC =
        h (Spec.requestTranscript credRequestLabel hSk nym (S.zrOfBytes req.proofC)
          (S.zrOfBytes req.proofS) n ipk.hash) := by
    intro h req n hacc hn ho
    obtain ⟨nym', hSk', n', h1, h2, h3, -, h5⟩ := reqCheck_ok_iff.mp hacc
    have e1 : nym' = nym := by have := h1.symm.trans hn; simpa using this
    have e2 : hSk' = hSk := by have := h2.symm.trans hk; simpa using this
    have e3 : n' = n := by have := h3.symm.trans ho; simpa using this
    rw [e1, e2, e3] at h5
    exact h5
  have c1 := ch h₁ _ _ acc₁ hn₁ ho₁
  have c2 := ch h₂ _ _ acc₂ hn₂ ho₂
  rw [← c1, ← c2] at differentAnswers
  generalize S.zrOfBytes req₁.proofC = x1 at *
  generalize S.zrOfBytes req₂.proofC = x2 at *
  generalize S.zrOfBytes req₁.proofS = s1 at *
  generalize S.zrOfBytes req₂.proofS = s2 at *
  simp only [Spec.requestTranscript, List.append_assoc] at sameQuery
  have q1 := (List.append_inj (List.append_cancel_left sameQuery) (by simp)).1
  have q1 := S.g1Bytes_inj q1
  have hne : x1 - x2 ≠ 0 := sub_ne_zero.mpr differentAnswers
  unfold Spec.witness
  apply S.smul_right_inj hne
  rw [smul_smul, ← mul_assoc, mul_inv_cancel₀ hne, one_mul, sub_smul, sub_smul]
  linear_combination (norm := module) (-1 : S.F) • q1

example : (newCredRequest (Toy.tr.withHash fun _ => (1 : Toy.K)) (4 : Toy.K) (some [6]) Ex.key.ipk
      (5 : Toy.K) = .ok ⟨some ⟨[5], []⟩, some [6], [1], [2]⟩) ∧
    (newCredRequest (Toy.tr.withHash fun _ => (2 : Toy.K)) (4 : Toy.K) (some [6]) Ex.key.ipk
      (5 : Toy.K) = .ok ⟨some ⟨[5], []⟩, some [6], [2], [6]⟩) ∧
    Spec.requestTranscript (S := Toy.suite) credRequestLabel (3 : Toy.K) (5 : Toy.K) (1 : Toy.K)
        (2 : Toy.K) [6] [5] =
      Spec.requestTranscript (S := Toy.suite) credRequestLabel (3 : Toy.K) (5 : Toy.K) (2 : Toy.K)
        (6 : Toy.K) [6] [5] := by decide

/-- C05. Requests are bound to nonce, pseudonym and issuer key: if two accepted requests carry the same
challenge, then they agree on the nonce, the pseudonym, the base `HSk` and the issuer key hash (nonces
and hashes having the scalar length), or their transcripts are a collision of hash-to-scalar. -/
theorem C05_request_binding (req₁ req₂ : CredRequest) (ipk₁ ipk₂ : IssuerPublicKey)
    (acc₁ : req₁.check T ipk₁ = .ok ()) (acc₂ : req₂.check T ipk₂ = .ok ())
    (nym₁ nym₂ hSk₁ hSk₂ : S.G1) (n₁ n₂ : Bytes)
    (hn₁ : T.g1FromProto req₁.nym = .ok nym₁) (hn₂ : T.g1FromProto req₂.nym = .ok nym₂)
    (hk₁ : T.g1FromProto ipk₁.hSk = .ok hSk₁) (hk₂ : T.g1FromProto ipk₂.hSk = .ok hSk₂)
    (ho₁ : req₁.issuerNonce = some n₁) (ho₂ : req₂.issuerNonce = some n₂)
    (hl₁ : n₁.length = S.scalarLen) (hl₂ : n₂.length = S.scalarLen)
    (hh₁ : ipk₁.hash.length = S.scalarLen) (hh₂ : ipk₂.hash.length = S.scalarLen)
    (sameChallenge : S.zrOfBytes req₁.proofC = S.zrOfBytes req₂.proofC) :
    (n₁ = n₂ ∧ nym₁ = nym₂ ∧ hSk₁ = hSk₂ ∧ ipk₁.hash = ipk₂.hash) ∨
    S.Collision
      (Spec.requestTranscript credRequestLabel hSk₁ nym₁ (S.zrOfBytes req₁.proofC)
        (S.zrOfBytes req₁.proofS) n₁ ipk₁.hash)
      (Spec.requestTranscript credRequestLabel hSk₂ nym₂ (S.zrOfBytes req₂.proofC)
        (S.zrOfBytes req₂.proofS) n₂ ipk₂.hash) := by
  have ch : ∀ (ipk : IssuerPublicKey) (req : CredRequest) (n : Bytes) (nym hSk : S.G1),
      req.check T ipk = .ok () → T.g1FromProto req.nym = .ok nym → T.g1FromProto ipk.hSk = .ok hSk →
      req.issuerNonce = some n → S.zrOfBytes req.proofC =
        S.hashToZr (Spec.requestTranscript credRequestLabel hSk nym (S.zrOfBytes req.proofC)
          (S.zrOfBytes req.proofS) n ipk.hash) := by
    intro ipk req n nym hSk hacc hn hk ho
    obtain ⟨nym', hSk', n', h1, h2, h3, -, h5⟩ := reqCheck_ok_iff.mp hacc
    have e1 : nym' = nym := by have := h1.symm.trans hn; simpa using this
    have e2 : hSk' = hSk := by have := h2.symm.trans hk; simpa using this
    have e3 : n' = n := by have := h3.symm.trans ho; simpa using this
    rw [e1, e2, e3] at h5
    exact h5
  have c1 := ch _ _ _ _ _ acc₁ hn₁ hk₁ ho₁
  have c2 := ch _ _ _ _ _ acc₂ hn₂ hk₂ ho₂
  by_cases heq : Spec.requestTranscript credRequestLabel hSk₁ nym₁ (S.zrOfBytes req₁.proofC)
        (S.zrOfBytes req₁.proofS) n₁ ipk₁.hash =
      Spec.requestTranscript credRequestLabel hSk₂ nym₂ (S.zrOfBytes req₂.proofC)
        (S.zrOfBytes req₂.proofS) n₂ ipk₂.hash
  · left
    simp only [Spec.requestTranscript, List.append_assoc] at heq
    rw [Buf.padTo_of_length (by simp; omega), Buf.padTo_of_length (by simp; omega)] at heq
    obtain ⟨-, heq⟩ := List.append_inj (List.append_cancel_left heq) (by simp)
    obtain ⟨q1, heq⟩ := List.append_inj heq (by simp)
    obtain ⟨q2, heq⟩ := List.append_inj heq (by simp)
    obtain ⟨q3, q4⟩ := List.append_inj heq (by omega)
    exact ⟨q3, S.g1Bytes_inj q2, S.g1Bytes_inj q1, q4⟩
  · exact .inr ⟨heq, by rw [← c1, ← c2, sameChallenge]⟩

/-! ## C06 -/

/-- C06. End-to-end issuance: with distinct serialisable names, non-degenerate randomness, a nonce of the
scalar length, one attribute per name and `isk + e ≠ 0`, key generation, request and issuing succeed,
the credential carries exactly the issued attributes and verifies under the user's secret key. -/
theorem C06_issued_credential_verifies (m : IpkMarshal) (names : List Bytes) (ρ : IssuerRand S)
    (hnodup : names.Nodup) (hlen : ρ.attrs.length = names.length)
    (hm : ∀ i : IssuerPublicKey, i.attributeNames = names → ∃ b, m i = .ok b)
    (sk rSk : S.F) (nonce : Bytes) (hnonce : nonce.length = S.scalarLen)
    (attrs : List S.F) (hattrs : attrs.length = names.length) (e s : S.F) (he : ρ.isk + e ≠ 0) :
    ∃ key req cred, newIssuerKey T m names ρ = .ok key ∧
      newCredRequest T sk (some nonce) key.ipk rSk = .ok req ∧
      newCredential T key req attrs e s = .ok cred ∧
      cred.attrs.map S.zrOfBytes = attrs ∧ cred.ver T sk key.ipk = .ok () := by
  unfold newIssuerKey
  simp only [hnodup, decide_true, Bool.not_true, Res.guardErr_false, Res.ok_bind, hlen,
    bne_self_eq_false, Res.guardPanic_false, ipkProofData_eq]
  generalize S.hashToZr _ = c
  generalize hi : unhashedIpk T names ρ c = i
  obtain ⟨b, hb⟩ := hm i (by rw [← hi]; rfl)
  simp only [hb, Res.ok_bind, Res.pure_def]
  generalize hkey : (⟨S.zrBytes ρ.isk, { i with hash := S.zrBytes (S.hashToZr b) }⟩ : IssuerKey) = key
  have hisk : S.zrOfBytes key.isk = ρ.isk := by rw [← hkey]; simp
  have hnames : key.ipk.attributeNames = names := by rw [← hkey, ← hi]; rfl
  have hreads : Reads T key.ipk ⟨ρ.hSk • S.genG1, ρ.hRand • S.genG1, ρ.attrs.map (· • S.genG1),
      ρ.isk • S.genG2⟩ := by
    subst hkey hi
    refine ⟨by simp [unhashedIpk], by simp [unhashedIpk], ?_, by simp [unhashedIpk]⟩
    have := parseAttrs_toProto (T := T) (ρ.attrs.map (· • S.genG1))
    simpa [unhashedIpk, Function.comp_def] using this
  have hsl := S.scalarLen_pos
  obtain ⟨req, hreq, hno, hchk⟩ := C04_request_accepted T key.ipk sk rSk nonce _ hreads.hSk (by omega)
  have hnym : T.g1FromProto req.nym = .ok (sk • ρ.hSk • S.genG1) := by
    simp only [newCredRequest, hreads.hSk, Res.ok_bind, Option.getD_some,
      credReqProofData_of_le _ _ _ _ _ (show nonce.length ≤ 2 * S.scalarLen by omega), Res.pure_def,
      Res.ok.injEq] at hreq
    rw [← hreq]; simp
  have hle : attrs.length ≤ (ρ.attrs.map (· • S.genG1)).length := by simp; omega
  obtain ⟨B, hB⟩ : ∃ B : S.G1, B = S.genG1 + sk • ρ.hSk • S.genG1 + s • ρ.hRand • S.genG1 +
    S.lin attrs (ρ.attrs.map (· • S.genG1)) := ⟨_, rfl⟩
  have hcred : newCredential T key req attrs e s = .ok ⟨some (T.g1ToProto ((ρ.isk + e)⁻¹ • B)),
      some (T.g1ToProto B), S.zrBytes e, S.zrBytes s, attrs.map S.zrBytes⟩ := by
    simp only [newCredential, hchk, Res.ok_bind, hattrs, hnames, ne_eq, not_true_eq_false, decide_false,
      Res.guardErr_false, hnym, hreads.hRand, hreads.hAttrs, addPairs_ok _ _ _ hle, hisk, Res.pure_def,
      hB]
  refine ⟨key, req, _, rfl, hreq, hcred, ?_, ?_⟩
  · simp [Function.comp_def]
  · rw [credVer_ok_iff]
    refine ⟨_, _, _, hreads, T.g1_rt _, T.g1_rt _, by simpa using hle, ?_, ?_⟩
    · simpa only [Spec.signed, List.map_map, Function.comp_def, Suite.zrOfBytes_zrBytes,
        List.map_id'] using hB
    · simp only [Spec.IsCredential, Spec.signed, Suite.zrOfBytes_zrBytes, List.map_map,
        Function.comp_def, List.map_id']
      rw [← hB, ← add_smul, map_smul, map_smul, LinearMap.smul_apply, smul_smul, inv_mul_cancel₀ he,
        one_smul]

example : Ex.cred.ver Toy.tr (4 : Toy.K) Ex.key.ipk = .ok () := by decide

/-! ## C07 -/

/-- C07. The issuer signs only a request whose proof it accepts, and only one attribute value per attribute
name of its key. -/
theorem C07_issuer_refuses_bad_requests (key : IssuerKey) (req : CredRequest) (attrs : List S.F)
    (e s : S.F) (cred : Credential) (h : newCredential T key req attrs e s = .ok cred) :
    req.check T key.ipk = .ok () ∧ attrs.length = key.ipk.attributeNames.length ∧
      cred.attrs = attrs.map S.zrBytes := by
  simp only [newCredential, Res.bind_eq_ok, Res.guardErr_eq_ok, decide_eq_false_iff_not, ne_eq,
    Decidable.not_not, Res.pure_def, Res.ok.injEq] at h
  obtain ⟨_, h1, _, h2, _, -, _, -, _, -, _, -, rfl⟩ := h
  exact ⟨h1, h2, rfl⟩

/-- C07. Conversely, for a key whose points decode, a request the issuer accepts and one attribute per name
(with a base for each) issuing succeeds. -/
theorem C07_issuer_accepts_good_requests (key : IssuerKey) (k : Spec.Key S) (hk : Reads T key.ipk k)
    (req : CredRequest) (hreq : req.check T key.ipk = .ok ()) (attrs : List S.F)
    (hlen : attrs.length = key.ipk.attributeNames.length)
    (hbases : key.ipk.attributeNames.length ≤ k.hAttrs.length) (e s : S.F) :
    ∃ cred, newCredential T key req attrs e s = .ok cred := by
  obtain ⟨nym, _, _, h1, -⟩ := reqCheck_ok_iff.mp hreq
  simp only [newCredential, hreq, Res.ok_bind, hlen, ne_eq, not_true_eq_false, decide_false,
    Res.guardErr_false, h1, hk.hRand, hk.hAttrs, addPairs_ok _ _ _ (hlen ▸ hbases)]
  exact ⟨_, rfl⟩

example : newCredential Toy.tr Ex.key Ex.req [(1 : Toy.K), 0] (2 : Toy.K) (3 : Toy.K) =
    .err "incorrect number of attribute values passed" := by decide
example : (newCredential Toy.tr Ex.key { Ex.req with issuerNonce := some [5] } [(1 : Toy.K), 0, 6]
    (2 : Toy.K) (3 : Toy.K)) = .err "zero knowledge proof is invalid" := by decide

/-! ## C08 (crypto part; the comparison with supplied attributes is `C08_bridge_attributes`) -/

/-- C08. Credential verification is exact: it succeeds iff all points decode, there is a base for every
attribute, `B` is the signed element for this secret and these attributes, and `(A, e, s)` satisfies the
BBS+ equation on them. -/
theorem C08_credential_verification_exact (cred : Credential) (sk : S.F) (ipk : IssuerPublicKey) :
    cred.ver T sk ipk = .ok () ↔ ∃ (k : Spec.Key S) (A B : S.G1), Reads T ipk k ∧
      T.g1FromProto cred.a = .ok A ∧ T.g1FromProto cred.b = .ok B ∧
      cred.attrs.length ≤ k.hAttrs.length ∧
      B = Spec.signed k sk (S.zrOfBytes cred.s) (cred.attrs.map S.zrOfBytes) ∧
      Spec.IsCredential k A (S.zrOfBytes cred.e) (S.zrOfBytes cred.s) sk
        (cred.attrs.map S.zrOfBytes) := credVer_ok_iff

/-- C08. A credential verifies for at most one user secret. -/
theorem C08_one_secret_per_credential (cred : Credential) (sk₁ sk₂ : S.F) (ipk : IssuerPublicKey)
    (hSk : S.G1) (hk : T.g1FromProto ipk.hSk = .ok hSk) (hne : hSk ≠ 0)
    (h₁ : cred.ver T sk₁ ipk = .ok ()) (h₂ : cred.ver T sk₂ ipk = .ok ()) : sk₁ = sk₂ := by
  obtain ⟨k, A, B, hr, ha, hb, -, h6, -⟩ := credVer_ok_iff.mp h₁
  obtain ⟨k', A', B', hr', ha', hb', -, h6', -⟩ := credVer_ok_iff.mp h₂
  obtain rfl := hr.unique hr'
  have eB : B = B' := by have := hb.symm.trans hb'; simpa using this
  have eS : k.hSk = hSk := by have := hr.hSk.symm.trans hk; simpa using this
  rw [h6, h6'] at eB
  simp only [Spec.signed, eS] at eB
  apply S.smul_left_inj hne
  linear_combination (norm := module) (1 : S.F) • eB

/-- C08. If two credentials with the same `(A, e, s)` verify for one user secret, their attribute vectors
satisfy the linear relation `Σ attrs₁·HAttrs = Σ attrs₂·HAttrs`. -/
theorem C08_same_signature_attribute_relation (cred₁ cred₂ : Credential) (sk : S.F)
    (ipk : IssuerPublicKey) (k : Spec.Key S) (hk : Reads T ipk k) (hA : cred₁.a = cred₂.a)
    (he : cred₁.e = cred₂.e) (hs : cred₁.s = cred₂.s)
    (h₁ : cred₁.ver T sk ipk = .ok ()) (h₂ : cred₂.ver T sk ipk = .ok ()) :
    S.lin (cred₁.attrs.map S.zrOfBytes) k.hAttrs = S.lin (cred₂.attrs.map S.zrOfBytes) k.hAttrs := by
  obtain ⟨k₁, A, B, hr, ha, hb, -, h6, h7⟩ := credVer_ok_iff.mp h₁
  obtain ⟨k₂, A', B', hr', ha', hb', -, h6', h7'⟩ := credVer_ok_iff.mp h₂
  obtain rfl := hr.unique hk
  obtain rfl := hr'.unique hr
  have eA : A = A' := by rw [hA] at ha; have := ha.symm.trans ha'; simpa using this
  simp only [Spec.IsCredential] at h7 h7'
  rw [eA, he] at h7
  have := S.pair_gen_inj (h7.symm.trans h7')
  simp only [Spec.signed, hs] at this
  exact add_left_cancel this

/-- C08. Hence two attribute vectors that differ in at most one place, whose base is not the identity, are equal. -/
theorem C08_one_place (cred₁ cred₂ : Credential) (sk : S.F)
    (ipk : IssuerPublicKey) (k : Spec.Key S) (hk : Reads T ipk k) (hA : cred₁.a = cred₂.a)
    (he : cred₁.e = cred₂.e) (hs : cred₁.s = cred₂.s)
    (h₁ : cred₁.ver T sk ipk = .ok ()) (h₂ : cred₂.ver T sk ipk = .ok ())
    (pre post : List Bytes) (v₁ v₂ : Bytes) (h1 : cred₁.attrs = pre ++ v₁ :: post)
    (h2 : cred₂.attrs = pre ++ v₂ :: post) (P : S.G1) (hP : k.hAttrs[pre.length]? = some P)
    (hP0 : P ≠ 0) : S.zrOfBytes v₁ = S.zrOfBytes v₂ := by
  have h := C08_same_signature_attribute_relation T cred₁ cred₂ sk ipk k hk hA he hs h₁ h₂
  obtain ⟨hi, hPe⟩ := List.getElem?_eq_some_iff.mp hP
  have hsplit : k.hAttrs = k.hAttrs.take pre.length ++ P :: k.hAttrs.drop (pre.length + 1) := by
    conv_lhs => rw [← List.take_append_drop pre.length k.hAttrs, List.drop_eq_getElem_cons hi, hPe]
  have hl : (pre.map S.zrOfBytes).length = (k.hAttrs.take pre.length).length := by simp; omega
  rw [h1, h2, hsplit] at h
  simp only [List.map_append, List.map_cons, S.lin_append hl, Suite.lin_cons] at h
  apply S.smul_left_inj hP0
  exact add_right_cancel (add_left_cancel h)

example : (({ Ex.cred with attrs := [[1], [1], [6]] } : Credential).ver Toy.tr (4 : Toy.K) Ex.key.ipk) ≠
    .ok () := by decide

end Idemix.Dlog
