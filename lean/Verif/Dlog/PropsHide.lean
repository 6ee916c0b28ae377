import Verif.Dlog.PropsNym

/-!
# C71, C72: what credential requests and pseudonym signatures give away (dlog)
-/

namespace Idemix.Dlog

variable {S : Suite} (T : Translator S)

/-! ## C72 -/

/-- The first message of the proof in a pseudonym signature. -/
def nymFirst (hSk hRand : S.G1) (ρ : NymRand S) : S.G1 := ρ.rSk • hSk + ρ.rRNym • hRand

/-- The challenge of a pseudonym signature. -/
def nymChal (hSk hRand nym : S.G1) (hash msg : Bytes) (ρ : NymRand S) : S.F :=
  S.hashToZr (S.zrBytes (S.hashToZr (signLabel ++ S.g1Bytes (nymFirst hSk hRand ρ) ++ S.g1Bytes nym ++
    Buf.padTo S.scalarLen hash ++ msg)) ++ S.zrBytes ρ.nonce)

/-- The tape that makes another opening answer the same. -/
def nymShift (c a b : S.F) (ρ : NymRand S) : NymRand S := ⟨ρ.nonce, ρ.rSk + c * a, ρ.rRNym + c * b⟩

theorem nymFirst_shift (hSk hRand : S.G1) (c a b : S.F) (h : a • hSk + b • hRand = 0) (ρ : NymRand S) :
    nymFirst hSk hRand (nymShift c a b ρ) = nymFirst hSk hRand ρ := by
  have : nymFirst hSk hRand (nymShift c a b ρ) = nymFirst hSk hRand ρ + c • (a • hSk + b • hRand) := by
    simp only [nymFirst, nymShift]; module
  rw [this, h, smul_zero, add_zero]

theorem nymChal_shift (hSk hRand nym : S.G1) (hash msg : Bytes) (c a b : S.F) (h : a • hSk + b • hRand = 0)
    (ρ : NymRand S) : nymChal hSk hRand nym hash msg (nymShift c a b ρ) = nymChal hSk hRand nym hash msg ρ := by
  rw [nymChal, nymFirst_shift _ _ _ _ _ h]
  rfl

/-- The tapes of two openings of one pseudonym that give the same signature. -/
def nymTapes (hSk hRand nym : S.G1) (hash msg : Bytes) (a b : S.F) (h : a • hSk + b • hRand = 0) :
    NymRand S ≃ NymRand S where
  toFun ρ := nymShift (nymChal hSk hRand nym hash msg ρ) a b ρ
  invFun ρ := nymShift (nymChal hSk hRand nym hash msg ρ) (-a) (-b) ρ
  left_inv ρ := by
    have := nymChal_shift hSk hRand nym hash msg (nymChal hSk hRand nym hash msg ρ) a b h ρ
    simp only [this]
    simp [nymShift]
  right_inv ρ := by
    have h' : (-a) • hSk + (-b) • hRand = 0 := by
      rw [neg_smul, neg_smul, ← neg_add, h, neg_zero]
    have := nymChal_shift hSk hRand nym hash msg (nymChal hSk hRand nym hash msg ρ) (-a) (-b) h' ρ
    simp only [this]
    simp [nymShift]

variable {T}

theorem newNymSignature_eq {ipk : IssuerPublicKey} {hSk hRand : S.G1} (hk : T.g1FromProto ipk.hSk = .ok hSk)
    (hr : T.g1FromProto ipk.hRand = .ok hRand) (sk r : S.F) (nym : S.G1) (msg : Bytes) (ρ : NymRand S) :
    newNymSignature T sk nym r ipk msg ρ =
      .ok { proofC := S.zrBytes (nymChal hSk hRand nym ipk.hash msg ρ),
            proofSSk := S.zrBytes (ρ.rSk + nymChal hSk hRand nym ipk.hash msg ρ * sk),
            proofSRNym := S.zrBytes (ρ.rRNym + nymChal hSk hRand nym ipk.hash msg ρ * r),
            nonce := S.zrBytes ρ.nonce } := by
  have hle : ∀ (t : S.G1), 2 * S.scalarLen ≤ (signLabel ++ S.g1Bytes t ++ S.g1Bytes nym ++
      Buf.padTo S.scalarLen ipk.hash ++ msg).length := by
    intro t
    have := S.scalarLen_le
    simp; omega
  simp only [newNymSignature, hk, hr, Res.ok_bind, nymSigProofData_eq, secondHash_eq _ _ _ (hle _), Res.pure_def,
    nymChal, nymFirst]

variable (T) in
/-- **C72** (dlog). Users derive pseudonyms, one for each `j`, and make signatures with each, one for each `i`. For any
two ways `sk₁`, `sk₂` to say which user's secret is behind which pseudonym there is a one-to-one correspondence of the
random choices that leads to the same pseudonyms and the same signatures: all the pseudonyms and signatures together
have the same distribution whoever is behind them. In particular they do not tell whether two pseudonyms belong to one
user. The key must be readable and its blinding generator not zero. -/
theorem C72_pseudonyms_hide_users {J I : Type} (ipk : IssuerPublicKey) (hSk hRand : S.G1)
    (hk : T.g1FromProto ipk.hSk = .ok hSk) (hr : T.g1FromProto ipk.hRand = .ok hRand) (hne : hRand ≠ 0)
    (msgs : J → I → Bytes) (sk₁ sk₂ : J → S.F) :
    ∃ φ : (J → S.F × (I → NymRand S)) ≃ (J → S.F × (I → NymRand S)), ∀ ρ j, ∃ nym,
      makeNym T (sk₁ j) ipk (ρ j).1 = .ok (nym, (ρ j).1) ∧
      makeNym T (sk₂ j) ipk (φ ρ j).1 = .ok (nym, (φ ρ j).1) ∧
      ∀ i, ∃ sig, newNymSignature T (sk₁ j) nym (ρ j).1 ipk (msgs j i) ((ρ j).2 i) = .ok sig ∧
        newNymSignature T (sk₂ j) nym (φ ρ j).1 ipk (msgs j i) ((φ ρ j).2 i) = .ok sig := by
  have hx : ∀ j, ∃ b : S.F, (sk₁ j - sk₂ j) • hSk + (-b) • hRand = 0 := by
    intro j
    obtain ⟨b, hb⟩ := S.g1_span hne ((sk₁ j - sk₂ j) • hSk)
    exact ⟨b, by rw [hb, neg_smul, add_neg_cancel]⟩
  choose b hb using hx
  refine ⟨Equiv.piCongrRight fun j => Equiv.prodShear (Equiv.addRight (b j)) fun r => Equiv.piCongrRight fun i =>
    nymTapes hSk hRand (sk₁ j • hSk + r • hRand) ipk.hash (msgs j i) (sk₁ j - sk₂ j) (-b j) (hb j), ?_⟩
  intro ρ j
  have e : sk₂ j • hSk + ((ρ j).1 + b j) • hRand = sk₁ j • hSk + (ρ j).1 • hRand := by
    have : sk₂ j • hSk + ((ρ j).1 + b j) • hRand = sk₁ j • hSk + (ρ j).1 • hRand -
        ((sk₁ j - sk₂ j) • hSk + (-b j) • hRand) := by module
    rw [this, hb, sub_zero]
  refine ⟨sk₁ j • hSk + (ρ j).1 • hRand, ?_, ?_, ?_⟩
  · simp [makeNym, hk, hr]
  · simp [makeNym, hk, hr, Equiv.prodShear, e]
  · intro i
    refine ⟨_, newNymSignature_eq hk hr _ _ _ _ _, ?_⟩
    rw [newNymSignature_eq hk hr]
    simp only [Equiv.piCongrRight_apply, Pi.map_apply, Equiv.prodShear_apply, Equiv.coe_addRight, nymTapes,
      Equiv.coe_fn_mk, nymChal_shift hSk hRand _ ipk.hash (msgs j i) _ _ _ (hb j)]
    simp only [nymShift]
    refine congrArg Res.ok ?_
    congr 2 <;> ring

set_option maxRecDepth 20000 in
/-- The users with secrets 4 and 1 give the same pseudonym and the same signature of it, with tapes that differ. -/
example : ∃ hSk hRand : Toy.K, Toy.tr.g1FromProto Ex.key.ipk.hSk = .ok hSk ∧
    Toy.tr.g1FromProto Ex.key.ipk.hRand = .ok hRand ∧ hRand ≠ 0 ∧
    ∃ sig, newNymSignature Toy.tr (4 : Toy.K) Ex.nym (2 : Toy.K) Ex.key.ipk [9, 9] Ex.nymRnd = .ok sig ∧
      ∃ rSk rR : Toy.K, newNymSignature Toy.tr (1 : Toy.K) Ex.nym (0 : Toy.K) Ex.key.ipk [9, 9] ⟨(1 : Toy.K), rSk, rR⟩ =
        .ok sig ∧ rSk ≠ 3 := by
  refine ⟨_, _, rfl, rfl, by decide, _, rfl, ?_⟩
  decide

/-! ## C71 -/

/-- The question of a credential request to the hash function, of the parts that an observer sees. -/
def Spec.requestQuestion (S : Suite) (hSk nym : S.G1) (nonce hash : Bytes) (c s : S.F) : Bytes :=
  credRequestLabel ++ S.g1Bytes (s • hSk - c • nym) ++ S.g1Bytes hSk ++ S.g1Bytes nym ++ nonce ++ hash

theorem newCredRequest_eq {ipk : IssuerPublicKey} {hSk : S.G1} (hk : T.g1FromProto ipk.hSk = .ok hSk) (sk r : S.F)
    (nonce : Bytes) (hlen : nonce.length + ipk.hash.length = 2 * S.scalarLen) :
    newCredRequest T sk (some nonce) ipk r =
      .ok { nym := some (T.g1ToProto (sk • hSk)), issuerNonce := some nonce,
            proofC := S.zrBytes (S.hashToZr (credRequestLabel ++ S.g1Bytes (r • hSk) ++ S.g1Bytes hSk ++
              S.g1Bytes (sk • hSk) ++ nonce ++ ipk.hash)),
            proofS := S.zrBytes (S.hashToZr (credRequestLabel ++ S.g1Bytes (r • hSk) ++ S.g1Bytes hSk ++
              S.g1Bytes (sk • hSk) ++ nonce ++ ipk.hash) * sk + r) } := by
  simp only [newCredRequest, hk, Res.ok_bind, Option.getD_some, credReqProofData_eq _ _ _ _ _ hlen, Res.pure_def]

variable (T) in
/-- **C71 (violated)** (dlog). A request carries `h_sk` raised to the user's secret with nothing to blind it: whatever
the nonces and random choices, the pseudonyms of two requests are equal exactly if the secrets are. The issuer (anyone
who sees requests) recognises the requests of one user and can test guesses of the secret. -/
theorem C71_dlog_requests_linkable_violated (ipk : IssuerPublicKey) (hSk : S.G1)
    (hk : T.g1FromProto ipk.hSk = .ok hSk) (hne : hSk ≠ 0) (sk₁ sk₂ r₁ r₂ : S.F) (nonce₁ nonce₂ : Option Bytes)
    (req₁ req₂ : CredRequest) (h₁ : newCredRequest T sk₁ nonce₁ ipk r₁ = .ok req₁)
    (h₂ : newCredRequest T sk₂ nonce₂ ipk r₂ = .ok req₂) : req₁.nym = req₂.nym ↔ sk₁ = sk₂ := by
  have key : ∀ {sk r : S.F} {nonce : Option Bytes} {req : CredRequest}, newCredRequest T sk nonce ipk r = .ok req →
      req.nym = some (T.g1ToProto (sk • hSk)) := by
    intro sk r nonce req h
    simp only [newCredRequest, hk, Res.ok_bind, Res.bind_eq_ok, Res.pure_def] at h
    obtain ⟨_, -, h⟩ := h
    rw [← Res.ok.inj h]
  rw [key h₁, key h₂]
  constructor
  · intro h
    have h' := congrArg (fun o => T.g1FromProto o) h
    simp only [T.g1_rt, Res.ok.injEq] at h'
    exact S.smul_left_inj hne h'
  · rintro rfl; rfl

variable (T) in
/-- **C71 (partial)** (dlog). Beyond that point a request gives nothing away: for every pseudonym `nym`, challenge `c`
and response `s`, if the hash function answers `c` to the question that these determine, then the user whose pseudonym
this is makes the request `(nym, nonce, c, s)` with exactly one random choice. So the pair of a request and the answer
of the hash function can be simulated, with a random challenge and response, without the secret. What is missing: the
pseudonym itself (`C71_dlog_requests_linkable_violated`). -/
theorem C71_dlog_requests_simulated_partial (h : Bytes → S.F) (ipk : IssuerPublicKey) (hSk : S.G1)
    (hk : T.g1FromProto ipk.hSk = .ok hSk) (sk : S.F) (nonce : Bytes)
    (hlen : nonce.length + ipk.hash.length = 2 * S.scalarLen) (c s : S.F)
    (hq : h (Spec.requestQuestion S hSk (sk • hSk) nonce ipk.hash c s) = c) :
    ∃! r : S.F, newCredRequest (T.withHash h) sk (some nonce) ipk r =
        .ok { nym := some (T.g1ToProto (sk • hSk)), issuerNonce := some nonce, proofC := S.zrBytes c,
              proofS := S.zrBytes s } ∧ r • hSk = s • hSk - c • (sk • hSk) := by
  have eq : ∀ r : S.F, newCredRequest (T.withHash h) sk (some nonce) ipk r =
      .ok { nym := some (T.g1ToProto (sk • hSk)), issuerNonce := some nonce,
            proofC := S.zrBytes (h (credRequestLabel ++ S.g1Bytes (r • hSk) ++ S.g1Bytes hSk ++
              S.g1Bytes (sk • hSk) ++ nonce ++ ipk.hash)),
            proofS := S.zrBytes (h (credRequestLabel ++ S.g1Bytes (r • hSk) ++ S.g1Bytes hSk ++
              S.g1Bytes (sk • hSk) ++ nonce ++ ipk.hash) * sk + r) } := by
    intro r
    exact newCredRequest_eq (T := T.withHash h) (hSk := hSk) hk sk r nonce hlen
  have e1 : (s - c * sk) • hSk = s • hSk - c • (sk • hSk) := by module
  refine ⟨s - c * sk, ⟨?_, e1⟩, ?_⟩
  · rw [eq, e1]
    have hq' : h (credRequestLabel ++ S.g1Bytes (s • hSk - c • (sk • hSk)) ++ S.g1Bytes hSk ++
              S.g1Bytes (sk • hSk) ++ nonce ++ ipk.hash) = c := hq
    rw [hq']
    congr 4
    ring
  · rintro r ⟨h1, h2⟩
    rw [eq] at h1
    have h3 := Res.ok.inj h1
    simp only [CredRequest.mk.injEq, true_and] at h3
    have c1 := S.zrBytes_inj h3.1
    have c2 := S.zrBytes_inj h3.2
    rw [c1] at c2
    rw [← c2]; ring

/-- Two requests of the user with secret 4 show the same pseudonym, the request of the user with secret 5 another. -/
example : ∃ (hSk : Toy.K) (a b d : CredRequest), Toy.tr.g1FromProto Ex.key.ipk.hSk = .ok hSk ∧ hSk ≠ 0 ∧
    newCredRequest Toy.tr (4 : Toy.K) (some [6]) Ex.key.ipk (5 : Toy.K) = .ok a ∧
    newCredRequest Toy.tr (4 : Toy.K) (some [1]) Ex.key.ipk (2 : Toy.K) = .ok b ∧
    newCredRequest Toy.tr (5 : Toy.K) (some [1]) Ex.key.ipk (2 : Toy.K) = .ok d ∧ a.nym = b.nym ∧ a.nym ≠ d.nym :=
  ⟨_, _, _, _, rfl, by decide, rfl, rfl, rfl, by decide, by decide⟩

/-- The request with challenge 3 and response 6 against the oracle that always answers 3. -/
example : ([6] : Bytes).length + Ex.key.ipk.hash.length = 2 * Toy.suite.scalarLen ∧
    newCredRequest (Toy.tr.withHash fun _ => (3 : Toy.K)) (4 : Toy.K) (some [6]) Ex.key.ipk ((6 : Toy.K) - 3 * 4) =
      .ok { nym := Ex.req.nym, issuerNonce := some [6], proofC := Toy.suite.zrBytes (3 : Toy.K),
            proofS := Toy.suite.zrBytes (6 : Toy.K) } := by decide

end Idemix.Dlog
