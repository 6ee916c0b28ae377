import Verif.Dlog.PropsAudit

/-!
# C106: signatures with one pseudonym are made with one secret (dlog scheme)
-/

namespace Idemix.Dlog

open Spec

variable {S : Suite}

/-- What is extracted from a signer (as in C10): two signatures of theirs that are accepted for one issuer key, disclosure vector and
list of values, after the same first hash question and with different answers. -/
structure Spec.Rewound (T : Translator S) (RevPk : Type) (ipk : IssuerPublicKey) (k : Spec.Key S) where
  (h₁ h₂ : Bytes → S.F)
  (sig₁ sig₂ : Signature)
  (D msg₁ msg₂ : Bytes)
  values : List (Option S.F)
  (rhIndex eidIndex : Int)
  (revPk₁ revPk₂ : RevPk)
  (epoch₁ epoch₂ : Int)
  vt : VerType
  md₁ : Option (SignerMetadata (S.withHash h₁))
  md₂ : Option (SignerMetadata (S.withHash h₂))
  (v₁ v₂ : Spec.Sig S)
  vs : List S.F
  acc₁ : sig₁.ver (T.withHash h₁) D (some ipk) msg₁ values rhIndex eidIndex revPk₁ epoch₁ vt md₁ = .ok ()
  acc₂ : sig₂.ver (T.withHash h₂) D (some ipk) msg₂ values rhIndex eidIndex revPk₂ epoch₂ vt md₂ = .ok ()
  hv₁ : Views T sig₁ vt v₁
  hv₂ : Views T sig₂ vt v₂
  hpat : Spec.SamePattern vt v₁ v₂
  hvs : vs.map some = dis D values
  sameQuery : v₁.transcript (sigLabelOf v₁) k ipk.hash D vs eidIndex.toNat rhIndex.toNat msg₁ =
    v₂.transcript (sigLabelOf v₂) k ipk.hash D vs eidIndex.toNat rhIndex.toNat msg₂
  differentAnswers :
    h₁ (Spec.second (S.withHash h₁) (v₁.transcript (sigLabelOf v₁) k ipk.hash D vs eidIndex.toNat rhIndex.toNat msg₁) v₁.nonce) ≠
    h₂ (Spec.second (S.withHash h₂) (v₂.transcript (sigLabelOf v₂) k ipk.hash D vs eidIndex.toNat rhIndex.toNat msg₂) v₂.nonce)

/-- The same for signers with a pseudonym only (as in C17). -/
structure Spec.NymRewound (T : Translator S) (ipk : IssuerPublicKey) (k : Spec.Key S) (nym : S.G1) where
  (h₁ h₂ : Bytes → S.F)
  (sig₁ sig₂ : NymSignature)
  (msg₁ msg₂ : Bytes)
  acc₁ : sig₁.ver (T.withHash h₁) nym ipk msg₁ = .ok ()
  acc₂ : sig₂.ver (T.withHash h₂) nym ipk msg₂ = .ok ()
  sameQuery : Spec.nymTranscript signLabel k nym (S.zrOfBytes sig₁.proofC) (S.zrOfBytes sig₁.proofSSk)
      (S.zrOfBytes sig₁.proofSRNym) ipk.hash msg₁ =
    Spec.nymTranscript signLabel k nym (S.zrOfBytes sig₂.proofC) (S.zrOfBytes sig₂.proofSSk)
      (S.zrOfBytes sig₂.proofSRNym) ipk.hash msg₂
  differentAnswers :
    h₁ (Spec.second (S.withHash h₁) (Spec.nymTranscript signLabel k nym (S.zrOfBytes sig₁.proofC) (S.zrOfBytes sig₁.proofSSk)
      (S.zrOfBytes sig₁.proofSRNym) ipk.hash msg₁) (S.zrOfBytes sig₁.nonce)) ≠
    h₂ (Spec.second (S.withHash h₂) (Spec.nymTranscript signLabel k nym (S.zrOfBytes sig₂.proofC) (S.zrOfBytes sig₂.proofSSk)
      (S.zrOfBytes sig₂.proofSRNym) ipk.hash msg₂) (S.zrOfBytes sig₂.nonce))

/-- The secret that is extracted from a signer with a pseudonym only. -/
def Spec.NymRewound.sk {T : Translator S} {ipk : IssuerPublicKey} {k : Spec.Key S} {nym : S.G1} (R : Spec.NymRewound T ipk k nym) :
    S.F :=
  Spec.witness (S.zrOfBytes R.sig₁.proofC) (S.zrOfBytes R.sig₂.proofC) (S.zrOfBytes R.sig₁.proofSSk) (S.zrOfBytes R.sig₂.proofSSk)

/-- The randomness of the pseudonym, see `Spec.NymRewound.sk`. -/
def Spec.NymRewound.rNym {T : Translator S} {ipk : IssuerPublicKey} {k : Spec.Key S} {nym : S.G1} (R : Spec.NymRewound T ipk k nym) :
    S.F :=
  Spec.witness (S.zrOfBytes R.sig₁.proofC) (S.zrOfBytes R.sig₂.proofC) (S.zrOfBytes R.sig₁.proofSRNym)
    (S.zrOfBytes R.sig₂.proofSRNym)

theorem Spec.Rewound.credential {T : Translator S} {RevPk : Type} {ipk : IssuerPublicKey} {k : Spec.Key S} (hk : Reads T ipk k)
    (R : Spec.Rewound T RevPk ipk k) :
    let x := R.v₁.extract R.v₂
    ∃ attrs, Spec.Discloses R.D R.values attrs ∧ hid R.D attrs = x.hidden ∧ Spec.IsCredential k x.A x.e x.s x.sk attrs ∧
      R.v₁.nym = Spec.nym k x.sk x.rNym := by
  obtain ⟨attrs, a, b, c, -, d⟩ := C10_signature_extraction T R.h₁ R.h₂ ipk R.sig₁ R.sig₂ R.D R.msg₁ R.msg₂ R.values R.rhIndex
    R.eidIndex R.revPk₁ R.revPk₂ R.epoch₁ R.epoch₂ R.vt R.md₁ R.md₂ R.acc₁ R.acc₂ k hk R.v₁ R.v₂ R.hv₁ R.hv₂ R.hpat R.vs R.hvs
    _ _ rfl rfl R.sameQuery R.differentAnswers
  exact ⟨attrs, a, b, c, d⟩

theorem one_secret {k : Spec.Key S} {N : S.G1} {x r y s : S.F} (h₁ : N = Spec.nym k x r) (h₂ : N = Spec.nym k y s) :
    x = y ∨ Relation S [x - y, r - s] [k.hSk, k.hRand] := by
  by_cases h : x = y
  · exact .inl h
  · exact .inr (relation_two (R := 0) (by rw [Spec.nym] at h₁ h₂; rw [← h₁, ← h₂]) fun e => h e.1)

/-- **C106 (dlog).** If two signatures carry the same pseudonym, whatever else they are about, then the credentials that are
extracted from their signers, with the attributes that each signature discloses, are for the same secret; or a relation
between the bases of pseudonyms is computed. -/
theorem C106_dlog_signatures (T : Translator S) (RevPk : Type) (ipk : IssuerPublicKey) (k : Spec.Key S) (hk : Reads T ipk k)
    (R R' : Spec.Rewound T RevPk ipk k) (sameNym : R.sig₁.nym = R'.sig₁.nym) :
    let x := R.v₁.extract R.v₂
    let y := R'.v₁.extract R'.v₂
    ∃ as bs, Spec.Discloses R.D R.values as ∧ Spec.Discloses R'.D R'.values bs ∧ hid R.D as = x.hidden ∧ hid R'.D bs = y.hidden ∧
      Spec.IsCredential k x.A x.e x.s x.sk as ∧ Spec.IsCredential k y.A y.e y.s y.sk bs ∧
      (x.sk = y.sk ∨ Relation S [x.sk - y.sk, x.rNym - y.rNym] [k.hSk, k.hRand]) := by
  intro x y
  obtain ⟨as, a1, a2, a3, a4⟩ := R.credential hk
  obtain ⟨bs, b1, b2, b3, b4⟩ := R'.credential hk
  have hn : R.v₁.nym = R'.v₁.nym := by
    have h := R.hv₁.decodes.nym
    rw [sameNym, R'.hv₁.decodes.nym] at h
    exact (Res.ok.inj h).symm
  exact ⟨as, bs, a1, b1, a2, b2, a3, b3, one_secret a4 (hn ▸ b4)⟩

/-- **C106 (dlog), pseudonym signatures.** If a pseudonym signature is accepted for the pseudonym in a signature, then the
secret of whoever made it is the one for which the signer has a credential; or a relation between the bases is computed. -/
theorem C106_dlog_nym_signatures (T : Translator S) (RevPk : Type) (ipk : IssuerPublicKey) (k : Spec.Key S) (hk : Reads T ipk k)
    (R : Spec.Rewound T RevPk ipk k) (nym : S.G1) (hnym : T.g1FromProto R.sig₁.nym = .ok nym) (R' : Spec.NymRewound T ipk k nym) :
    let x := R.v₁.extract R.v₂
    ∃ attrs, Spec.Discloses R.D R.values attrs ∧ hid R.D attrs = x.hidden ∧ Spec.IsCredential k x.A x.e x.s x.sk attrs ∧
      (x.sk = R'.sk ∨ Relation S [x.sk - R'.sk, x.rNym - R'.rNym] [k.hSk, k.hRand]) := by
  intro x
  obtain ⟨as, a1, a2, a3, a4⟩ := R.credential hk
  have hn : nym = R.v₁.nym := by
    have h := R.hv₁.decodes.nym
    rw [hnym] at h
    exact Res.ok.inj h
  have := C17_nym_signature_extraction T R'.h₁ R'.h₂ ipk nym R'.sig₁ R'.sig₂ R'.msg₁ R'.msg₂ k hk.hSk hk.hRand R'.acc₁ R'.acc₂
    (fun sig msg => Spec.nymTranscript signLabel k nym (S.zrOfBytes sig.proofC) (S.zrOfBytes sig.proofSSk)
      (S.zrOfBytes sig.proofSRNym) ipk.hash msg) (fun _ _ => rfl) R'.sameQuery R'.differentAnswers
  exact ⟨as, a1, a2, a3, one_secret a4 (hn.symm.trans this)⟩

/-! ## Examples -/

namespace Ex

/-- What a signer signs against the oracle that always answers `c`, for a message and with given coins. -/
def linkSig (msg : Bytes) (c n : Toy.K) : Signature :=
  match newSignature (Toy.tr.withHash fun _ => c) cred (4 : Toy.K) nym (2 : Toy.K) key.ipk discl msg 2 1 cri
      ⟨(2 : Toy.K), (3 : Toy.K), 1, 4, 5, 6, 1, 2, n, [4, 5], 2, 3, 4, 5⟩ .standard none with
  | .ok (s, _) => s
  | _ => ⟨none, none, none, [], [], [], [], [], [], [], [], none, [], none, [], 0, none, none, none⟩

set_option maxRecDepth 20000 in
/-- The signer's two signatures on `[8]`. -/
def link₁ : Spec.Rewound Toy.tr Unit key.ipk key' where
  h₁ := fun _ => (1 : Toy.K)
  h₂ := fun _ => (2 : Toy.K)
  sig₁ := linkSig [8] 1 3
  sig₂ := linkSig [8] 2 3
  D := discl
  msg₁ := [8]
  msg₂ := [8]
  values := vals
  rhIndex := 2
  eidIndex := 1
  revPk₁ := ()
  revPk₂ := ()
  epoch₁ := 0
  epoch₂ := 0
  vt := .expectStandard
  md₁ := none
  md₂ := none
  v₁ := view (linkSig [8] 1 3)
  v₂ := view (linkSig [8] 2 3)
  vs := [(1 : Toy.K)]
  acc₁ := by decide +kernel
  acc₂ := by decide +kernel
  hv₁ := ⟨by constructor <;> rfl, .inl ⟨rfl, rfl⟩, .inl ⟨rfl, rfl⟩⟩
  hv₂ := ⟨by constructor <;> rfl, .inl ⟨rfl, rfl⟩, .inl ⟨rfl, rfl⟩⟩
  hpat := .inl (by decide)
  hvs := by decide
  sameQuery := by decide +kernel
  differentAnswers := by decide +kernel

set_option maxRecDepth 20000 in
/-- The signer's two signatures on `[9, 1]`, with other coins. -/
def link₂ : Spec.Rewound Toy.tr Unit key.ipk key' where
  h₁ := fun _ => (1 : Toy.K)
  h₂ := fun _ => (2 : Toy.K)
  sig₁ := linkSig [9, 1] 1 5
  sig₂ := linkSig [9, 1] 2 5
  D := discl
  msg₁ := [9, 1]
  msg₂ := [9, 1]
  values := vals
  rhIndex := 2
  eidIndex := 1
  revPk₁ := ()
  revPk₂ := ()
  epoch₁ := 0
  epoch₂ := 0
  vt := .expectStandard
  md₁ := none
  md₂ := none
  v₁ := view (linkSig [9, 1] 1 5)
  v₂ := view (linkSig [9, 1] 2 5)
  vs := [(1 : Toy.K)]
  acc₁ := by decide +kernel
  acc₂ := by decide +kernel
  hv₁ := ⟨by constructor <;> rfl, .inl ⟨rfl, rfl⟩, .inl ⟨rfl, rfl⟩⟩
  hv₂ := ⟨by constructor <;> rfl, .inl ⟨rfl, rfl⟩, .inl ⟨rfl, rfl⟩⟩
  hpat := .inl (by decide)
  hvs := by decide
  sameQuery := by decide +kernel
  differentAnswers := by decide +kernel

/-- What the signer signs with the pseudonym only. -/
def linkNymSig (c : Toy.K) : NymSignature :=
  match newNymSignature (Toy.tr.withHash fun _ => c) (4 : Toy.K) nym (2 : Toy.K) key.ipk [7] ⟨(3 : Toy.K), (5 : Toy.K), (6 : Toy.K)⟩ with
  | .ok s => s
  | _ => ⟨[], [], [], []⟩

set_option maxRecDepth 20000 in
/-- The signer's two pseudonym signatures on `[7]`. -/
def linkNym : Spec.NymRewound Toy.tr key.ipk key' nym where
  h₁ := fun _ => (1 : Toy.K)
  h₂ := fun _ => (2 : Toy.K)
  sig₁ := linkNymSig 1
  sig₂ := linkNymSig 2
  msg₁ := [7]
  msg₂ := [7]
  acc₁ := by decide +kernel
  acc₂ := by decide +kernel
  sameQuery := by decide +kernel
  differentAnswers := by decide +kernel

end Ex

/-- The three carry the same pseudonym, and the signer's secret is extracted from each. -/
example : Ex.link₁.sig₁.nym = Ex.link₂.sig₁.nym ∧ Toy.tr.g1FromProto Ex.link₁.sig₁.nym = .ok Ex.nym ∧
    Ex.link₁.sig₁ ≠ Ex.link₂.sig₁ ∧ (Ex.link₁.v₁.extract Ex.link₁.v₂).sk = (4 : Toy.K) ∧
    (Ex.link₂.v₁.extract Ex.link₂.v₂).sk = (4 : Toy.K) ∧ Ex.linkNym.sk = (4 : Toy.K) := by
  decide +kernel

end Idemix.Dlog
