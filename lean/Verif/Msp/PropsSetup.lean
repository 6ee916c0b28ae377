import Verif.Msp.PropsPanic
import Verif.Dlog.Translator

/-!
# Set-up of an MSP: C58

Concrete cases that meet the hypotheses of the theorems are in `Verif/Tools/Examples.lean`.
-/

namespace Idemix.Msp

open Provider (Backend Key SigOpts NymSigOpts SignerOpts ImportOpts DerivOpts Raw)

variable {W : World}

namespace Spec

/-- The names of the curves in configurations. -/
def curveName : CurveId → String
  | .fp256bnAmcl => "FP256BN_AMCL"
  | .bn254 => "BN254"
  | .fp256bnAmclMiracl => "FP256BN_AMCL_MIRACL"
  | .bls12_377Gurvy => "BLS12_377_GURVY"
  | .bls12_381Gurvy => "BLS12_381_GURVY"
  | .bls12_381 => "BLS12_381"
  | .bls12_381Bbs => "BLS12_381_BBS"
  | .bls12_381BbsGurvy => "BLS12_381_BBS_GURVY"

/-- The curve that a configuration selects: by name, by default `FP256BN_AMCL`, or `BLS12_381_BBS` for the aries scheme,
which accepts the BBS curves only. -/
def SelectsCurve (aries : Bool) (s : Bytes) (c : CurveId) : Prop :=
  (s = ascii (curveName c) ∨ s = [] ∧ c = if aries then .bls12_381Bbs else .fp256bnAmcl) ∧
  (aries = true → c = .bls12_381Bbs ∨ c = .bls12_381BbsGurvy)

/-- The type of configuration: 1 for the dlog scheme, 2 for the aries scheme. -/
def configType (aries : Bool) : Int := if aries then 2 else 1

/-- The attributes that issuer keys of MSPs have. -/
def names : List Bytes := [ascii "OU", ascii "Role", ascii "EnrollmentID", ascii "RevocationHandle"]

/-- The MSP role of a signer: administrators have bit 1 in their role. -/
def mspRole (role : Int) : Int := if role / 2 % 2 = 1 then 1 else 0

/-- A revocation key is PEM with a public ECDSA key inside. -/
def RevocationKey {S : Suite} (B : Backend S) (raw : Bytes) (pk : B.dsa.Pk) : Prop :=
  raw ≠ [] ∧ ∃ block, B.ec.pemDecode raw = some block ∧ B.ec.parsePkix block = .ok (some pk)

/-- The signer of a configuration: its secret key is well formed, its credential is valid for unit, role and
enrolment id, and a pseudonym and a proof can be made. -/
def Signer {S : Suite} (B : Backend S) (ipk : B.IPK) (s : SignerConfig) (ρ : B.Rnd × B.Rnd) (sk : S.F) (nym : S.G1)
    (r : S.F) (proof ski : Bytes) : Prop :=
  s.sk ≠ [] ∧ B.userKeyFromBytes s.sk = .ok sk ∧ B.makeNym sk ipk ρ.1 = .ok (nym, r) ∧
  (B.ipkHash ipk = .ok ski ∨ (∃ m, B.ipkHash ipk = .err m) ∧ ski = []) ∧ s.cred ≠ [] ∧
  B.credVerify sk ipk s.cred
    [⟨1, .bytes s.ou⟩, ⟨2, .int (credentialRole (mspRole s.role))⟩, ⟨1, .bytes s.enrollmentId⟩, ⟨0, .other⟩] = .ok () ∧
  ∃ md, B.sign s.cred sk nym r ipk [⟨1, .other⟩, ⟨2, .other⟩, ⟨0, .other⟩, ⟨0, .other⟩] [] 3 2 s.cri .standard none ρ.2 =
    .ok (proof, md)

end Spec

open Spec

theorem curveOf_iff (s : Bytes) (c : CurveId) : curveOf s = some c ↔ s = ascii (curveName c) := by
  constructor
  · intro h
    unfold curveOf at h
    split at h
    · next e => cases h; exact e
    split at h
    · next e => cases h; exact e
    split at h
    · next e => cases h; exact e
    split at h
    · next e => cases h; exact e
    split at h
    · next e => cases h; exact e
    split at h
    · next e => cases h; exact e
    split at h
    · next e => cases h; exact e
    split at h
    · next e => cases h; exact e
    · cases h
  · rintro rfl
    cases c <;> decide

theorem chooseCurve_ok (aries : Bool) (s : Bytes) (c : CurveId) :
    chooseCurve aries s = .ok c ↔ SelectsCurve aries s c := by
  have ofOpt : ∀ (o : Option CurveId) (m : String), Res.ofOption m o = .ok c ↔ o = some c := by
    intro o m; cases o <;> simp [Res.ofOption]
  have inj : ∀ a b : CurveId, ascii (curveName a) = ascii (curveName b) → a = b := by
    intro a b h; cases a <;> cases b <;> first | rfl | (exact absurd h (by decide))
  have ne : ∀ a : CurveId, ascii (curveName a) ≠ [] := by intro a; cases a <;> decide
  unfold chooseCurve SelectsCurve
  cases aries with
  | true =>
    simp only [if_true, forall_const]
    by_cases h1 : s = []
    · subst h1
      simp only [true_or, if_true, ofOpt, curveOf_iff, true_and]
      constructor
      · intro h; have := inj .bls12_381Bbs c h; subst this; exact ⟨.inr rfl, .inl rfl⟩
      · rintro ⟨h | rfl, -⟩
        · exact absurd h.symm (ne c)
        · rfl
    · by_cases h2 : s = ascii "BLS12_381_BBS"
      · subst h2
        simp only [h1, false_or, if_true, ofOpt, curveOf_iff, false_and, or_false]
        constructor
        · intro h; have := inj .bls12_381Bbs c h; subst this; exact ⟨rfl, .inl rfl⟩
        · rintro ⟨h, -⟩; exact h
      · by_cases h3 : s = ascii "BLS12_381_BBS_GURVY"
        · subst h3
          simp only [h1, h2, or_self, if_false, if_true, ofOpt, curveOf_iff, false_and, or_false]
          constructor
          · intro h; have := inj .bls12_381BbsGurvy c h; subst this; exact ⟨rfl, .inr rfl⟩
          · rintro ⟨h, -⟩; exact h
        · simp only [h1, h2, h3, or_self, if_false, false_and, or_false]
          constructor
          · intro h; cases h
          · rintro ⟨h, rfl | rfl⟩
            · exact absurd h h2
            · exact absurd h h3
  | false =>
    simp only [Bool.false_eq_true, if_false, false_imp_iff, and_true]
    by_cases h1 : s = []
    · subst h1
      simp only [if_true, ofOpt, curveOf_iff, true_and]
      constructor
      · intro h; exact .inr (inj .fp256bnAmcl c h).symm
      · rintro (h | rfl)
        · exact absurd h.symm (ne c)
        · rfl
    · simp only [h1, if_false, ofOpt, curveOf_iff, false_and, or_false]

theorem mspRole_eq (role : Int) :
    (if checkRole (BitVec.ofInt 64 role) ADMIN then 1 else 0 : Int) = mspRole role := by
  have key : checkRole (BitVec.ofInt 64 role) ADMIN = true ↔ role / 2 % 2 = 1 := by
    have hb : ∀ i < 64, Spec.bit ADMIN i ↔ i = 1 := by
      have : ∀ i : Fin 64, ADMIN.getLsbD (min i.val 31) = true ↔ i.val = 1 := by decide
      exact fun i hi => this ⟨i, hi⟩
    rw [checkRole_iff]
    have : (∀ i < 64, Spec.bit ADMIN i → (BitVec.ofInt 64 role).getLsbD i = true) ↔
        (BitVec.ofInt 64 role).getLsbD 1 = true := by
      constructor
      · intro h; exact h 1 (by omega) ((hb 1 (by omega)).mpr rfl)
      · intro h i hi hbi; rw [(hb i hi).mp hbi]; exact h
    rw [this, BitVec.getLsbD, BitVec.toNat_ofInt, Nat.testBit_eq_decide_div_mod_eq, decide_eq_true_iff]
    omega
  unfold mspRole
  by_cases hr : role / 2 % 2 = 1
  · rw [if_pos hr, if_pos (key.mpr hr)]
  · rw [if_neg hr, if_neg fun hk => hr (key.mp hk)]

open Provider Provider.Spec in
theorem import_ok (m : IMsp W) (p : CspId) (raw : Bytes) (o : ImportOpts) (he : importEphemeral (some o) = true)
    (k : Key (W.B p)) :
    m.import p raw o = .ok k ↔ raw ≠ [] ∧ keyImportCall (W.B p) m.exportable raw (some o) = some (.ok k) := by
  have := C46_C47_keyImport (dummyStore (W.B p)) m.exportable () (some (.bytes raw)) (some o)
  unfold IMsp.import IMsp.registry
  cases raw with
  | nil =>
    simp only [importCall, Kept] at this
    obtain ⟨-, e, h⟩ := this
    rw [h]; simp
  | cons b bs =>
    simp only [importCall] at this
    generalize hc : keyImportCall (W.B p) m.exportable (b :: bs) (some o) = call at this ⊢
    match call with
    | none => obtain ⟨-, e, h⟩ := this; rw [h]; simp
    | some (.ok x) => simp only [Kept, he, if_true] at this; rw [this]; simp
    | some (.err e) => obtain ⟨-, e, h⟩ := this; rw [h]; simp
    | some .panic => simp only [Kept] at this; rw [this]; simp

open Provider Provider.Spec in
theorem import_panic (m : IMsp W) (p : CspId) (raw : Bytes) (o : ImportOpts) (he : importEphemeral (some o) = true) :
    m.import p raw o = .panic ↔ raw ≠ [] ∧ keyImportCall (W.B p) m.exportable raw (some o) = some .panic := by
  have := C46_C47_keyImport (dummyStore (W.B p)) m.exportable () (some (.bytes raw)) (some o)
  unfold IMsp.import IMsp.registry
  cases raw with
  | nil =>
    simp only [importCall, Kept] at this
    obtain ⟨-, e, h⟩ := this
    rw [h]; simp
  | cons b bs =>
    simp only [importCall] at this
    generalize hc : keyImportCall (W.B p) m.exportable (b :: bs) (some o) = call at this ⊢
    match call with
    | none => obtain ⟨-, e, h⟩ := this; rw [h]; simp
    | some (.ok x) => simp only [Kept, he, if_true] at this; rw [this]; simp
    | some (.err e) => obtain ⟨-, e, h⟩ := this; rw [h]; simp
    | some .panic => simp only [Kept] at this; rw [this]; simp

theorem importIpk_ok (m : IMsp W) (p : CspId) (raw : Bytes) (k : Key (W.B p)) :
    m.importIpk p raw = .ok k ↔
      raw ≠ [] ∧ ∃ pk, (W.B p).issuerPkFromBytes raw names = .ok pk ∧ k = .issuerPk pk := by
  have h1 : m.importIpk p raw = .ok k ↔ m.import p raw ipkOpts = .ok k := by
    unfold IMsp.importIpk
    cases m.import p raw ipkOpts with
    | ok x => simp
    | panic => simp
    | err e =>
      simp only [reduceCtorEq, iff_false]
      intro h
      repeat' split at h
      all_goals cases h
  rw [h1, import_ok _ _ _ _ rfl]
  simp only [ipkOpts, Provider.Spec.keyImportCall, if_true, Option.some.injEq, Res.bind_eq_ok, Res.ok.injEq]
  refine and_congr_right fun _ => exists_congr fun pk => and_congr_right fun _ => ⟨fun h => h.symm, fun h => h.symm⟩

theorem importRev_ok (m : IMsp W) (p : CspId) (raw : Bytes) (k : Key (W.B p)) :
    m.import p raw (.revPk true) = .ok k ↔ ∃ pk, RevocationKey (W.B p) raw pk ∧ k = .revPk pk := by
  rw [import_ok _ _ _ _ rfl]
  simp only [Provider.Spec.keyImportCall, RevocationKey]
  cases hd : (W.B p).ec.pemDecode raw with
  | none => simp
  | some block =>
    simp only [Option.some.injEq, Res.bind_eq_ok, exists_eq_left']
    constructor
    · rintro ⟨hr, o, ho, h⟩
      cases o with
      | none => cases h
      | some pk => cases h; exact ⟨pk, ⟨hr, ho⟩, rfl⟩
    · rintro ⟨pk, ⟨hr, ho⟩, rfl⟩
      exact ⟨hr, some pk, ho, rfl⟩

open Provider Provider.Spec in
theorem newSigner_ok (m : IMsp W) (me : Ref) (p : CspId) (ipk : (W.B p).IPK) (s : SignerConfig)
    (ρ : (W.B p).Rnd × (W.B p).Rnd) (x : SigningIdentity W) :
    m.newSigner me p (.issuerPk ipk) s ρ = .ok x ↔
      ∃ sk nym r proof ski, Spec.Signer (W.B p) ipk s ρ sk nym r proof ski ∧
        x = ⟨⟨⟨p, .nymPk nym⟩, me, m.name, ((W.B p).T.g1ToProto nym).x ++ ((W.B p).T.g1ToProto nym).y,
              ⟨m.name, mspRole s.role⟩, ⟨m.name, s.ou, ski⟩, proof⟩,
             s.cred, ⟨p, .userSk sk m.exportable⟩, ⟨p, newNymSecretKey (W.B p) r nym m.exportable⟩, s.enrollmentId⟩ := by
  have derive : ∀ (sk : (W.S p).F) (e : Bool) (k : Key (W.B p)),
      (keyDeriv (dummyStore (W.B p)) (m.registry p) () (some (.userSk sk e)) (some (.nym true (some (.issuerPk ipk))))
        ρ.1).2 = .ok k ↔ ∃ nym r, (W.B p).makeNym sk ipk ρ.1 = .ok (nym, r) ∧
          k = newNymSecretKey (W.B p) r nym m.exportable := by
    intro sk e k
    have := C46_C47_keyDeriv (dummyStore (W.B p)) m.exportable () (some (.userSk sk e))
      (some (.nym true (some (.issuerPk ipk)))) ρ.1
    unfold IMsp.registry
    simp only [keyDerivCall] at this
    cases hn : (W.B p).makeNym sk ipk ρ.1 with
    | ok x => rw [hn] at this; simp only [Res.ok_bind, Kept, derivEphemeral, if_true] at this; rw [this]
              obtain ⟨a, b⟩ := x
              constructor
              · intro h; cases h; exact ⟨a, b, rfl, rfl⟩
              · rintro ⟨a', b', h, rfl⟩; cases h; rfl
    | err e => rw [hn] at this; simp only [Res.err_bind, Kept] at this; obtain ⟨-, e, h⟩ := this; rw [h]; simp
    | panic => rw [hn] at this; simp only [Res.panic_bind, Kept] at this; rw [this]; simp
  have verify : ∀ (sk : (W.S p).F) (e b : Bool) (c : Bytes) (attrs : List IdemixAttribute),
      Provider.verify (m.registry p) (some (.userSk sk e)) c [] (some (.cred attrs (some (.issuerPk ipk)))) = .ok b ↔
        b = true ∧ c ≠ [] ∧ (W.B p).credVerify sk ipk c attrs = .ok () := by
    intro sk e b c attrs
    obtain ⟨h1, h2⟩ := C46_verify_dispatch_partial (B := W.B p) m.exportable (some (.userSk sk e)) c []
      (some (.cred attrs (some (.issuerPk ipk)))) (by simp [NoHandler])
    unfold IMsp.registry
    by_cases hc : c = []
    · obtain ⟨e, h⟩ := h1 hc; rw [h]; simp [hc]
    · have h2 := h2 hc
      simp only [verifyCall, Option.map_some, Obeys] at h2
      generalize Provider.verify _ _ _ _ _ = v at h2 ⊢
      cases hv : (W.B p).credVerify sk ipk c attrs with
      | ok u => rw [hv] at h2; cases v <;> simp [Agree] at h2 <;> subst h2 <;> simp [hc, eq_comm]
      | err e => rw [hv] at h2; cases v <;> simp [Agree] at h2 <;> simp
      | panic => rw [hv] at h2; cases v <;> simp [Agree] at h2 <;> simp
  have sign : ∀ (sk : (W.S p).F) (e : Bool) (nym : (W.S p).G1) (r : (W.S p).F) (proof : Bytes),
      (∃ o, Provider.sign (m.registry p) (some (.userSk sk e)) []
        (some (proofOpts (.issuerPk ipk) (newNymSecretKey (W.B p) r nym m.exportable) s.cred s.cri)) ρ.2 =
          .ok (proof, o)) ↔
        ∃ md, (W.B p).sign s.cred sk nym r ipk [⟨1, .other⟩, ⟨2, .other⟩, ⟨0, .other⟩, ⟨0, .other⟩] [] 3 2 s.cri
          .standard none ρ.2 = .ok (proof, md) := by
    intro sk e nym r proof
    have h := C46_sign_dispatch_partial (B := W.B p) m.exportable (some (.userSk sk e)) []
      (some (proofOpts (.issuerPk ipk) (newNymSecretKey (W.B p) r nym m.exportable) s.cred s.cri)) ρ.2
      (by simp [proofOpts, NoHandler])
    unfold IMsp.registry
    simp only [proofOpts, signCall, newNymSecretKey, Obeys] at h ⊢
    generalize Provider.sign _ _ _ _ _ = v at h ⊢
    cases hs : (W.B p).sign s.cred sk nym r ipk [⟨1, .other⟩, ⟨2, .other⟩, ⟨0, .other⟩, ⟨0, .other⟩] [] 3 2 s.cri
          .standard none ρ.2 with
    | ok u =>
      obtain ⟨a, b⟩ := u
      rw [hs] at h
      cases v with
      | ok y =>
        simp only [Res.ok_bind, Agree] at h
        subst h
        constructor
        · rintro ⟨o, h⟩; cases h; exact ⟨b, rfl⟩
        · rintro ⟨b', h⟩; cases h; exact ⟨_, rfl⟩
      | err e => simp [Agree] at h
      | panic => simp [Agree] at h
    | err e => rw [hs] at h; cases v <;> simp [Agree] at h <;> simp
    | panic => rw [hs] at h; cases v <;> simp [Agree] at h <;> simp
  have ski : ∀ b, orEmpty (Key.ski (B := W.B p) (.issuerPk ipk)) = .ok b ↔
      ((W.B p).ipkHash ipk = .ok b ∨ (∃ e, (W.B p).ipkHash ipk = .err e) ∧ b = []) := by
    intro b
    change orEmpty ((W.B p).ipkHash ipk) = .ok b ↔ _
    cases (W.B p).ipkHash ipk <;> simp [orEmpty, eq_comm]
  have user : ∀ k, m.import p s.sk (.userSk true) = .ok k ↔
      s.sk ≠ [] ∧ ∃ sk, (W.B p).userKeyFromBytes s.sk = .ok sk ∧ k = .userSk sk m.exportable := by
    intro k
    rw [import_ok _ _ _ _ rfl]
    simp only [keyImportCall, Option.some.injEq, Res.bind_eq_ok, Res.ok.injEq]
    refine and_congr_right fun _ => exists_congr fun pk => and_congr_right fun _ => ⟨fun h => h.symm, fun h => h.symm⟩
  simp only [IMsp.newSigner, Res.bind_eq_ok, user, Res.guardErr_eq_ok, Res.pure_def, Spec.Signer, Res.ok.injEq]
  constructor
  · rintro ⟨k, ⟨h1, sk, h2, rfl⟩, k', h3, k'', h4, ski', h5, b, h6, -, -, ⟨proof, o⟩, h7, i, h8, rfl⟩
    obtain ⟨nym, r, h3', rfl⟩ := (derive _ _ _).mp h3
    cases h4
    obtain ⟨rfl, h9, h10⟩ := (verify _ _ _ _ _).mp h6
    simp only [newIdentity, Key.bytes, Res.ok.injEq] at h8
    subst h8
    refine ⟨sk, nym, r, proof, ski', ⟨h1, h2, h3', (ski _).mp h5, h9, ?_, (sign _ _ _ _ _).mp ⟨o, h7⟩⟩, ?_⟩
    · simpa only [roleAttr_eq, signerRole, mspRole_eq, bytesAttr, hiddenAttr] using h10
    · simp only [signerRole, mspRole_eq]
  · rintro ⟨sk, nym, r, proof, ski', ⟨h1, h2, h3, h5, h9, h10, h7⟩, rfl⟩
    obtain ⟨o, h7⟩ := (sign sk m.exportable nym r proof).mpr h7
    refine ⟨_, ⟨h1, sk, h2, rfl⟩, _, (derive _ _ _).mpr ⟨nym, r, h3, rfl⟩, .nymPk nym, rfl, ski', (ski _).mpr h5, true,
      (verify _ _ _ _ _).mpr ⟨rfl, h9, ?_⟩, (), rfl, (proof, o), h7, _, rfl, ?_⟩
    · simpa only [roleAttr_eq, signerRole, mspRole_eq, bytesAttr, hiddenAttr] using h10
    · simp only [signerRole, mspRole_eq]

theorem andThen_ok {α : Type} {m m' : IMsp W} {x : Res α} {f : α → IMsp W × Res Unit} :
    andThen m x f = (m', .ok ()) ↔ ∃ a, x = .ok a ∧ f a = (m', .ok ()) := by
  cases x <;> simp [andThen]

theorem andThen_panic {α : Type} {m : IMsp W} {x : Res α} {f : α → IMsp W × Res Unit} :
    (andThen m x f).2 = .panic ↔ x = .panic ∨ ∃ a, x = .ok a ∧ (f a).2 = .panic := by
  cases x <;> simp [andThen]

/-- The MSP once its keys are in place. -/
def Spec.withKeys (m : IMsp W) (name : Bytes) (p : CspId) (ipk : (W.B p).IPK) (rpk : (W.B p).dsa.Pk) : IMsp W :=
  { m with name := name, csp := some p, ipk := some ⟨p, .issuerPk ipk⟩, revocationPK := some ⟨p, .revPk rpk⟩ }

/-- The default signer made from a signer configuration. -/
def Spec.signer (me : Ref) (name : Bytes) (p : CspId) (e : Bool) (s : SignerConfig) (sk : (W.S p).F) (nym : (W.S p).G1)
    (r : (W.S p).F) (proof ski : Bytes) : SigningIdentity W :=
  ⟨⟨⟨p, .nymPk nym⟩, me, name, ((W.B p).T.g1ToProto nym).x ++ ((W.B p).T.g1ToProto nym).y, ⟨name, mspRole s.role⟩,
    ⟨name, s.ou, ski⟩, proof⟩, s.cred, ⟨p, .userSk sk e⟩, ⟨p, Provider.newNymSecretKey (W.B p) r nym e⟩, s.enrollmentId⟩

/-- C58. Set-up succeeds exactly if the configuration parses, has the type of the MSP, selects a curve that the scheme
allows, has an issuer key that the scheme accepts for the attributes of MSPs, a revocation key and, if it names a
signer, a well-formed secret and a valid credential for that signer's unit, role and enrolment id. Then the MSP has
the name and the keys of the configuration and that signer. Without a signer in the configuration, the signer of an
earlier set-up stays. -/
theorem C58_setup_exact (m m' : IMsp W) (me : Ref) (t : Int) (raw : Bytes) (ρ : SetupRnd W) :
    m.setup me (some ⟨t, raw⟩) ρ = (m', .ok ()) ↔
      ∃ (conf : IdemixConfig) (c : CurveId) (ipk : (W.B ⟨m.aries, c⟩).IPK) (rpk : (W.B ⟨m.aries, c⟩).dsa.Pk),
        Wire.configCodec.unmarshal raw = .ok conf ∧ t = configType m.aries ∧ SelectsCurve m.aries conf.curveId c ∧
        conf.ipk ≠ [] ∧ (W.B ⟨m.aries, c⟩).issuerPkFromBytes conf.ipk names = .ok ipk ∧
        RevocationKey (W.B ⟨m.aries, c⟩) conf.revocationPk rpk ∧
        ((conf.signer = none ∧ m' = withKeys m conf.name ⟨m.aries, c⟩ ipk rpk) ∨
         ∃ s sk nym r proof ski, conf.signer = some s ∧
          Signer (W.B ⟨m.aries, c⟩) ipk s (ρ ⟨m.aries, c⟩) sk nym r proof ski ∧
          m' = { withKeys m conf.name ⟨m.aries, c⟩ ipk rpk with
            signer := some (signer me conf.name ⟨m.aries, c⟩ m.exportable s sk nym r proof ski) }) := by
  simp only [IMsp.setup, andThen_ok]
  constructor
  · rintro ⟨conf, hconf, h⟩
    split at h
    · simp at h
    next ht =>
    have ht : t = typeOf m.aries := Classical.not_not.mp ht
    simp only [andThen_ok, chooseCurve_ok, importIpk_ok, importRev_ok] at h
    obtain ⟨c, hc, k, ⟨hne, ipk, hipk, rfl⟩, k', ⟨rpk, hrpk, rfl⟩, h⟩ := h
    refine ⟨conf, c, ipk, rpk, hconf, ht, hc, hne, hipk, hrpk, ?_⟩
    cases hs : conf.signer with
    | none => simp only [hs, Prod.mk.injEq, and_true] at h; exact .inl ⟨rfl, h.symm⟩
    | some s =>
      simp only [hs, andThen_ok, newSigner_ok, Prod.mk.injEq, and_true] at h
      obtain ⟨x, ⟨sk, nym, r, proof, ski, hx, rfl⟩, rfl⟩ := h
      exact .inr ⟨s, sk, nym, r, proof, ski, rfl, hx, rfl⟩
  · rintro ⟨conf, c, ipk, rpk, hconf, ht, hc, hne, hipk, hrpk, h⟩
    refine ⟨conf, hconf, ?_⟩
    rw [if_neg (Classical.not_not.mpr (show t = typeOf m.aries from ht))]
    simp only [andThen_ok, chooseCurve_ok, importIpk_ok, importRev_ok]
    refine ⟨c, hc, _, ⟨hne, ipk, hipk, rfl⟩, _, ⟨rpk, hrpk, rfl⟩, ?_⟩
    rcases h with ⟨hs, rfl⟩ | ⟨s, sk, nym, r, proof, ski, hs, hx, rfl⟩
    · simp only [hs]; rfl
    · simp only [hs, andThen_ok, newSigner_ok, Prod.mk.injEq, and_true]
      exact ⟨_, ⟨sk, nym, r, proof, ski, hx, rfl⟩, rfl⟩

/-- C58. No configuration is refused. -/
theorem C58_nil_config (m : IMsp W) (me : Ref) (ρ : SetupRnd W) :
    (m.setup me none ρ).1 = m ∧ ∃ e, (m.setup me none ρ).2 = .err e := ⟨rfl, _, rfl⟩

/-- A configuration up to the curve. -/
def Spec.Selects (m : IMsp W) (t : Int) (raw : Bytes) (conf : IdemixConfig) (c : CurveId) : Prop :=
  Wire.configCodec.unmarshal raw = .ok conf ∧ t = configType m.aries ∧ SelectsCurve m.aries conf.curveId c

/-- The MSP once its name and its provider are set. -/
def Spec.withCurve (m : IMsp W) (name : Bytes) (c : CurveId) : IMsp W :=
  { m with name := name, csp := some ⟨m.aries, c⟩ }

theorem setup_no_ipk {m : IMsp W} {t : Int} {raw : Bytes} {conf : IdemixConfig} {c : CurveId}
    (h : Selects m t raw conf c) (me : Ref) (ρ : SetupRnd W) :
    ((withCurve m conf.name c).importIpk ⟨m.aries, c⟩ conf.ipk = .panic →
      m.setup me (some ⟨t, raw⟩) ρ = (withCurve m conf.name c, .panic)) ∧
    ∀ e, (withCurve m conf.name c).importIpk ⟨m.aries, c⟩ conf.ipk = .err e →
      m.setup me (some ⟨t, raw⟩) ρ = (withCurve m conf.name c, .err e) := by
  obtain ⟨h1, h2, h3⟩ := h
  have h3 := (chooseCurve_ok _ _ _).mpr h3
  refine ⟨fun h => ?_, fun e h => ?_⟩ <;> unfold withCurve at h ⊢ <;>
    simp only [IMsp.setup, h1, andThen, if_neg (Classical.not_not.mpr (show t = typeOf m.aries from h2)), h3, h]

theorem rawBytes_ne {raw : Bytes} (h : raw ≠ []) : Provider.rawBytes (.bytes raw) = .ok raw := by
  simp [Provider.rawBytes, Res.guardErr, h]

theorem importIpk_untyped (P : Platform) (m : IMsp P.world) (p : CspId) (raw : Bytes) (e : String)
    (h : Provider.issuerPkImport (P.world.B p) (.bytes raw) ipkOpts = .err e) (ht : P.world.typed p e = none) :
    m.importIpk p raw = .panic := by
  unfold IMsp.importIpk
  have : ∃ e, m.import p raw ipkOpts = .err e := by
    cases hi : m.import p raw ipkOpts with
    | err e => exact ⟨e, rfl⟩
    | ok k =>
      obtain ⟨hne, pk, hpk, -⟩ := (importIpk_ok m p raw k).mp (by unfold IMsp.importIpk; rw [hi])
      have : (P.world.B p).issuerPkFromBytes raw attributeNames = .ok pk := hpk
      simp [Provider.issuerPkImport, rawBytes_ne hne, ipkOpts, this, Res.pure_def] at h
    | panic =>
      obtain ⟨hne, hc⟩ := (import_panic m p raw ipkOpts rfl).mp hi
      have : (P.world.B p).issuerPkFromBytes raw attributeNames = .panic := by
        simp only [ipkOpts, Provider.Spec.keyImportCall, if_true, Option.some.injEq] at hc
        cases hx : (P.world.B p).issuerPkFromBytes raw attributeNames with
        | ok x => rw [hx] at hc; cases hc
        | err x => rw [hx] at hc; cases hc
        | panic => rfl
      simp [Provider.issuerPkImport, rawBytes_ne hne, ipkOpts, this, Res.pure_def] at h
  obtain ⟨e', he'⟩ := this
  rw [he']
  simp only [h, ht]

/-- C58 is violated: a configuration without issuer key makes set-up panic, in both schemes. -/
theorem C58_empty_key_violated (P : Platform) (m : IMsp P.world) (me : Ref) (t : Int) (raw : Bytes)
    (conf : IdemixConfig) (c : CurveId) (h : Selects m t raw conf c) (he : conf.ipk = []) (ρ : SetupRnd P.world) :
    (m.setup me (some ⟨t, raw⟩) ρ).2 = .panic := by
  have : (withCurve m conf.name c).importIpk ⟨m.aries, c⟩ conf.ipk = .panic := by
    rw [he]
    refine importIpk_untyped P _ _ _ "invalid raw, it must not be nil" rfl ?_
    cases ha : m.aries
    · exact (by decide : importError "invalid raw, it must not be nil" = none)
    · rfl
  rw [(setup_no_ipk h me ρ).1 this]

/-- C58 is violated: every malformed issuer key makes the set-up of an aries MSP panic. -/
theorem C58_aries_key_violated (P : Platform) (m : IMsp P.world) (ha : m.aries = true) (me : Ref) (t : Int) (raw : Bytes)
    (conf : IdemixConfig) (c : CurveId) (h : Selects m t raw conf c) (e : String)
    (he : Aries.newPublicKeyFromBytes (P.S c) conf.ipk names = .err e) (ρ : SetupRnd P.world) :
    (m.setup me (some ⟨t, raw⟩) ρ).2 = .panic := by
  by_cases hne : conf.ipk = []
  · exact C58_empty_key_violated P m me t raw conf c h hne ρ
  have : (withCurve m conf.name c).importIpk ⟨m.aries, c⟩ conf.ipk = .panic := by
    rw [ha]
    refine importIpk_untyped P _ _ _ e ?_ rfl
    have : (P.world.B ⟨true, c⟩).issuerPkFromBytes conf.ipk attributeNames = .err e := by
      change (Aries.newPublicKeyFromBytes (P.S c) conf.ipk names >>= fun k => pure (Dyn.val k)) = _
      rw [he]; rfl
    simp [Provider.issuerPkImport, rawBytes_ne hne, ipkOpts, this, Res.pure_def]
  rw [(setup_no_ipk h me ρ).1 this]

/-- C58 is violated: on gnark curves, an issuer key without its first base makes the set-up of a dlog MSP panic. -/
theorem C58_gurvy_key_violated (P : Platform) (m : IMsp P.world) (ha : m.aries = false) (me : Ref) (t : Int)
    (raw : Bytes) (conf : IdemixConfig) (c : CurveId) (h : Selects m t raw conf c) (l : Nat)
    (L : Dlog.GurvyLayout (P.S c) l) (hT : (P.env c).T = Dlog.gurvy l L) (hne : conf.ipk ≠ [])
    (k : Dlog.IssuerPublicKey) (ser : Bytes) (hk : Dlog.Wire.ipkCodec.unmarshal conf.ipk = .ok k)
    (hser : Dlog.Wire.ipkCodec.marshal { k with hash := [] } = .ok ser) (hnil : k.hSk = none) (ρ : SetupRnd P.world) :
    (m.setup me (some ⟨t, raw⟩) ρ).2 = .panic := by
  have : (withCurve m conf.name c).importIpk ⟨m.aries, c⟩ conf.ipk = .panic := by
    rw [ha]
    refine importIpk_untyped P _ _ _ "failure" ?_ (by decide : importError "failure" = none)
    have h1 : (P.env c).newPublicKeyFromBytes conf.ipk attributeNames = .err "failure" := by
      cases k
      simp only at hnil
      subst hnil
      simp only at hser
      unfold Dlog.Env.newPublicKeyFromBytes
      simp only [hk, Dlog.wrapErr, Res.ok_bind, Dlog.setHash, hser, Res.pure_def, Dlog.IssuerPublicKey.check, hT]
      rfl
    have : (P.world.B ⟨false, c⟩).issuerPkFromBytes conf.ipk attributeNames = .err "failure" := by
      change ((P.env c).newPublicKeyFromBytes conf.ipk attributeNames >>= fun k => pure (Dyn.val k)) = _
      rw [h1]; rfl
    simp [Provider.issuerPkImport, rawBytes_ne hne, ipkOpts, this, Res.pure_def]
  rw [(setup_no_ipk h me ρ).1 this]

/-- C58 is violated: a set-up that fails because of the revocation key leaves the MSP with a name, a provider and an
issuer key. A new MSP then validates identities, without revocation key, as if it had been configured. -/
theorem C58_half_configured_violated (aries : Bool) (version : Int) (me : Ref) (t : Int) (raw : Bytes)
    (conf : IdemixConfig) (c : CurveId) (h : Selects (newMsp W aries version) t raw conf c)
    (ipk : (W.B ⟨aries, c⟩).IPK) (hne : conf.ipk ≠ [])
    (hk : (W.B ⟨aries, c⟩).issuerPkFromBytes conf.ipk names = .ok ipk)
    (hr : conf.revocationPk = []) (ρ : SetupRnd W) :
    (∃ e, ((newMsp W aries version).setup me (some ⟨t, raw⟩) ρ).2 = .err e) ∧
    ∀ (heap : Heap W) (i : Identity W), heap me = ((newMsp W aries version).setup me (some ⟨t, raw⟩) ρ).1 → i.msp = me →
      i.proof ≠ [] →
      (W.B ⟨aries, c⟩).verify ipk i.proof [] [⟨1, .bytes i.ou.ou⟩, ⟨2, .int (credentialRole i.role.role)⟩, ⟨0, .other⟩,
        ⟨0, .other⟩] 3 2 0 none 0 .basic none = .ok () →
      validate heap me (.identity i) = .ok () := by
  obtain ⟨h1, h2, h3⟩ := h
  have h3 := (chooseCurve_ok _ _ _).mpr h3
  have hset : ∃ e, (newMsp W aries version).setup me (some ⟨t, raw⟩) ρ =
      ({ newMsp W aries version with name := conf.name, csp := some ⟨aries, c⟩, ipk := some ⟨⟨aries, c⟩, .issuerPk ipk⟩ },
        .err e) := by
    have hi := (importIpk_ok (withCurve (newMsp W aries version) conf.name c) ⟨aries, c⟩ conf.ipk (.issuerPk ipk)).mpr
      ⟨hne, ipk, hk, rfl⟩
    unfold withCurve at hi
    simp only [newMsp] at h2 h3 hi ⊢
    simp only [IMsp.setup, h1, andThen, if_neg (Classical.not_not.mpr (show t = typeOf aries from h2)), h3, hi, hr]
    exact ⟨_, rfl⟩
  obtain ⟨e, hset⟩ := hset
  refine ⟨⟨e, by rw [hset]⟩, fun heap i hh hi hp hv => ?_⟩
  rw [hset] at hh
  rw [C57_own_identities_partial heap me i hi, hh]
  exact ⟨⟨aries, c⟩, ipk, none, rfl, rfl, rfl, hp, hv⟩

/-- C58 is violated: a set-up that fails because of the type of the configuration renames the MSP, which stays in
service with its old keys and signer. -/
theorem C58_renamed_violated (m : IMsp W) (me : Ref) (t : Int) (raw : Bytes) (conf : IdemixConfig)
    (h : Wire.configCodec.unmarshal raw = .ok conf) (ht : t ≠ configType m.aries) (ρ : SetupRnd W) :
    ∃ e, m.setup me (some ⟨t, raw⟩) ρ = ({ m with name := conf.name }, .err e) := by
  simp only [IMsp.setup, h, andThen, if_pos (show t ≠ typeOf m.aries from ht)]
  exact ⟨_, rfl⟩

/-- C58, what holds of a failed set-up: it makes no signer, so that a new MSP has none afterwards; it does not
change version, scheme and exportability. (Successful or not, it does not take over the epoch of the configuration.) -/
theorem C58_failed_partial (m : IMsp W) (me : Ref) (conf : Option MSPConfig) (ρ : SetupRnd W) :
    ((m.setup me conf ρ).2 ≠ .ok () → (m.setup me conf ρ).1.signer = m.signer) ∧
    (m.setup me conf ρ).1.version = m.version ∧ (m.setup me conf ρ).1.aries = m.aries ∧
    (m.setup me conf ρ).1.exportable = m.exportable ∧ (m.setup me conf ρ).1.epoch = m.epoch := by
  let Q := fun o : IMsp W × Res Unit => (o.2 ≠ .ok () → o.1.signer = m.signer) ∧ o.1.version = m.version ∧
    o.1.aries = m.aries ∧ o.1.exportable = m.exportable ∧ o.1.epoch = m.epoch
  have step : ∀ {α : Type} {m' : IMsp W} (x : Res α) (f : α → IMsp W × Res Unit), (∀ r, Q (m', r)) → (∀ a, Q (f a)) →
      Q (andThen m' x f) := by
    intro α m' x f h1 h2
    cases x with
    | ok a => exact h2 a
    | err e => exact h1 _
    | panic => exact h1 _
  change Q _
  have base : ∀ m' : IMsp W, m'.signer = m.signer ∧ m'.version = m.version ∧ m'.aries = m.aries ∧
      m'.exportable = m.exportable ∧ m'.epoch = m.epoch → ∀ r, Q (m', r) := fun m' h r => ⟨fun _ => h.1, h.2⟩
  unfold IMsp.setup
  cases conf with
  | none => exact base _ ⟨rfl, rfl, rfl, rfl, rfl⟩ _
  | some conf =>
    dsimp only
    refine step _ _ (base _ ⟨rfl, rfl, rfl, rfl, rfl⟩) fun a => ?_
    split
    · exact base _ ⟨rfl, rfl, rfl, rfl, rfl⟩ _
    · refine step _ _ (base _ ⟨rfl, rfl, rfl, rfl, rfl⟩) fun a => step _ _ (base _ ⟨rfl, rfl, rfl, rfl, rfl⟩) fun a =>
        step _ _ (base _ ⟨rfl, rfl, rfl, rfl, rfl⟩) fun a => ?_
      split
      · exact base _ ⟨rfl, rfl, rfl, rfl, rfl⟩ _
      · exact step _ _ (base _ ⟨rfl, rfl, rfl, rfl, rfl⟩) fun a => ⟨fun h => absurd rfl h, rfl, rfl, rfl, rfl⟩

/-! ## No panics in dlog MSPs -/

theorem wrapErr_ne_panic {α : Type} {m : String} {x : Res α} (h : x ≠ .panic) : Dlog.wrapErr m x ≠ .panic := by
  cases x <;> simp [Dlog.wrapErr] at h ⊢

theorem mapM'_ne_panic {α β : Type} {f : α → Res β} (h : ∀ a, f a ≠ .panic) (l : List α) : Res.mapM' f l ≠ .panic := by
  induction l with
  | nil => simp
  | cons a l ih =>
    simp only [Res.mapM'_cons]
    exact Res.bind_ne_panic (h a) fun _ _ => Res.bind_ne_panic ih fun _ _ => by simp [Res.pure_def]

theorem ipk_check_ne_panic {S : Suite} (T : Translator S) (h1 : ∀ e, T.g1FromProto e ≠ .panic)
    (h2 : ∀ e, T.g2FromProto e ≠ .panic) (k : Dlog.IssuerPublicKey) :
    k.check T Dlog.Wire.ipkCodec.marshal ≠ .panic := by
  unfold Dlog.IssuerPublicKey.check
  refine Res.bind_ne_panic (h1 _) fun _ _ => Res.bind_ne_panic (h1 _) fun _ _ =>
    Res.bind_ne_panic (mapM'_ne_panic h1 _) fun _ _ => Res.bind_ne_panic (h1 _) fun _ _ =>
    Res.bind_ne_panic (h1 _) fun _ _ => Res.bind_ne_panic (h2 _) fun _ _ =>
    Res.bind_ne_panic (Res.guardErr_ne_panic _ _) fun _ _ => Res.bind_ne_panic (Res.guardErr_ne_panic _ _) fun _ _ => ?_
  simp only [Dlog.ipkProofData_eq, Res.ok_bind]
  refine Res.bind_ne_panic (Res.guardErr_ne_panic _ _) fun _ _ => ?_
  exact Res.bind_ne_panic (Dlog.Wire.ipkCodec.marshal_np _) fun _ _ => by simp [Res.pure_def]

/-- The errors of the import of a dlog issuer key are of the documented type, if its points are decoded without
panic. -/
theorem ipk_import_typed {S : Suite} (E : Dlog.Env S) (h1 : ∀ e, E.T.g1FromProto e ≠ .panic)
    (h2 : ∀ e, E.T.g2FromProto e ≠ .panic) (raw : Bytes) (ns : List Bytes) (e : String)
    (h : E.newPublicKeyFromBytes raw ns = .err e) : importError e ≠ none := by
  have hm : ∀ x : Dlog.ImportError, importError x.msg ≠ none := by intro x; cases x <;> decide
  unfold Dlog.Env.newPublicKeyFromBytes at h
  cases hu : Dlog.Wire.ipkCodec.unmarshal raw with
  | panic => exact absurd hu (Dlog.Wire.ipkCodec.unmarshal_np _)
  | err e' => simp only [hu, Dlog.wrapErr, Res.err_bind, Res.recovered, Res.err.injEq] at h; rw [← h]; exact hm _
  | ok k =>
    have hs : Dlog.setHash (S := S) Dlog.Wire.ipkCodec.marshal k ≠ .panic :=
      Res.bind_ne_panic (Dlog.Wire.ipkCodec.marshal_np _) fun _ _ => by simp [Res.pure_def]
    cases hh : Dlog.setHash (S := S) Dlog.Wire.ipkCodec.marshal k with
    | panic => exact absurd hh hs
    | err e' =>
      simp only [hu, hh, Dlog.wrapErr, Res.ok_bind, Res.err_bind, Res.recovered, Res.err.injEq] at h
      rw [← h]; exact hm _
    | ok k' =>
      cases hc : k'.check E.T Dlog.Wire.ipkCodec.marshal with
      | panic => exact absurd hc (ipk_check_ne_panic E.T h1 h2 k')
      | err e' =>
        simp only [hu, hh, hc, Dlog.wrapErr, Res.ok_bind, Res.err_bind, Res.recovered, Res.err.injEq] at h
        rw [← h]; exact hm _
      | ok k'' =>
        simp only [hu, hh, hc, Dlog.wrapErr, Res.ok_bind, Dlog.checkNames] at h
        split at h
        · cases h
        · split at h
          · cases h; exact hm _
          · split at h
            · cases h; exact hm _
            · cases h

theorem dlog_importIpk_ne_panic (P : Platform) (m : IMsp P.world) (c : CurveId) (raw : Bytes) (hne : raw ≠ [])
    (h1 : ∀ e, (P.env c).T.g1FromProto e ≠ .panic) (h2 : ∀ e, (P.env c).T.g2FromProto e ≠ .panic) :
    m.importIpk ⟨false, c⟩ raw ≠ .panic := by
  have C22 := Dlog.C22_bridge_never_panics (P.env c)
  have hb : (P.world.B ⟨false, c⟩).issuerPkFromBytes raw attributeNames =
      ((P.env c).newPublicKeyFromBytes raw attributeNames >>= fun k => pure (Dyn.val k)) := rfl
  have np := C22.2.2.1 raw attributeNames
  unfold IMsp.importIpk
  cases hi : m.import ⟨false, c⟩ raw ipkOpts with
  | ok k => simp
  | panic =>
    obtain ⟨-, hc⟩ := (import_panic m _ raw ipkOpts rfl).mp hi
    simp only [ipkOpts, Provider.Spec.keyImportCall, if_true, Option.some.injEq, hb] at hc
    cases hx : (P.env c).newPublicKeyFromBytes raw attributeNames with
    | ok x => rw [hx] at hc; cases hc
    | err x => rw [hx] at hc; cases hc
    | panic => exact absurd hx np
  | err e =>
    dsimp only
    have hn : ∀ k, m.import ⟨false, c⟩ raw ipkOpts ≠ .ok k := by intro k hk; rw [hi] at hk; cases hk
    cases hx : (P.env c).newPublicKeyFromBytes raw attributeNames with
    | ok x =>
      exfalso
      refine hn (.issuerPk (.val x)) ((import_ok m _ raw ipkOpts rfl _).mpr ⟨hne, ?_⟩)
      simp only [ipkOpts, Provider.Spec.keyImportCall, if_true, hb, hx]
      rfl
    | panic => exact absurd hx np
    | err e' =>
      have ht := ipk_import_typed (P.env c) h1 h2 raw attributeNames e' hx
      have : Provider.issuerPkImport (P.world.B ⟨false, c⟩) (.bytes raw) ipkOpts = .err e' := by
        simp only [Provider.issuerPkImport, rawBytes_ne hne, ipkOpts, hb, hx, bind, Res.bind]
      rw [this]
      dsimp only
      have hty : P.world.typed ⟨false, c⟩ e' = importError e' := rfl
      rw [hty]
      cases hie : importError e' with
      | none => exact absurd hie ht
      | some x => cases x <;> simp

theorem importRev_ne_panic (m : IMsp W) (p : CspId) (raw : Bytes) : m.import p raw (.revPk true) ≠ .panic := by
  intro h
  obtain ⟨-, hc⟩ := (import_panic m p raw (.revPk true) rfl).mp h
  simp only [Provider.Spec.keyImportCall] at hc
  cases hd : (W.B p).ec.pemDecode raw with
  | none => rw [hd] at hc; cases hc
  | some block =>
    rw [hd] at hc
    simp only [Option.some.injEq] at hc
    cases hx : (W.B p).ec.parsePkix block with
    | ok x => rw [hx] at hc; cases x <;> cases hc
    | err x => rw [hx] at hc; cases hc
    | panic => exact (W.B p).ec.parsePkix_np block hx

theorem Obeys.ne_panic {α : Type} {x : Res α} {c : Provider.Spec.Call α} (h : Provider.Spec.Obeys x c)
    (hc : c ≠ some .panic) : x ≠ .panic := by
  rintro rfl
  match c with
  | none => obtain ⟨m, hm⟩ := h; cases hm
  | some (.ok a) => exact h
  | some (.err a) => exact h
  | some .panic => exact hc rfl

open Provider Provider.Spec in
theorem dlog_newSigner_ne_panic (P : Platform) (m : IMsp P.world) (me : Ref) (c : CurveId)
    (ipk : Dlog.IssuerPublicKey) (s : SignerConfig) (ρ : (P.world.B ⟨false, c⟩).Rnd × (P.world.B ⟨false, c⟩).Rnd) :
    m.newSigner me ⟨false, c⟩ (.issuerPk (.val ipk)) s ρ ≠ .panic := by
  have C22 := Dlog.C22_bridge_never_panics (P.env c)
  obtain ⟨-, -, -, -, -, -, np6, np7, -, -, -, np11, np12, -⟩ := C22
  have bnp : ∀ {α β : Type} {x : Res α} {f : α → β}, x ≠ .panic → (x >>= fun a => .ok (f a)) ≠ .panic :=
    fun h => Res.bind_ne_panic h fun _ _ => by simp
  unfold IMsp.newSigner
  refine Res.bind_ne_panic ?_ fun k hk => ?_
  · intro h
    obtain ⟨-, hc⟩ := (import_panic m _ s.sk (.userSk true) rfl).mp h
    simp only [keyImportCall, Option.some.injEq] at hc
    exact bnp (f := fun k => Key.userSk k m.exportable) (np11 s.sk) hc
  obtain ⟨-, hk⟩ := (import_ok m _ s.sk (.userSk true) rfl _).mp hk
  simp only [keyImportCall, Option.some.injEq, Res.bind_eq_ok, Res.ok.injEq] at hk
  obtain ⟨sk, -, rfl⟩ := hk
  have hd := C46_C47_keyDeriv (dummyStore (P.world.B ⟨false, c⟩)) m.exportable () (some (.userSk sk m.exportable))
      (some (.nym true (some (.issuerPk (.val ipk))))) ρ.1
  simp only [keyDerivCall] at hd
  have hn : (P.world.B ⟨false, c⟩).makeNym sk (.val ipk) ρ.1 ≠ .panic := np12 _ _ _
  unfold IMsp.registry
  refine Res.bind_ne_panic ?_ fun k hk => ?_
  · cases hx : (P.world.B ⟨false, c⟩).makeNym sk (.val ipk) ρ.1 with
    | ok x => rw [hx] at hd; simp only [Res.ok_bind, Kept, derivEphemeral, if_true] at hd; rw [hd]; simp
    | err x => rw [hx] at hd; obtain ⟨-, e, hd⟩ := hd; rw [hd]; simp
    | panic => exact absurd hx hn
  have hk' : ∃ nym r, k = newNymSecretKey (P.world.B ⟨false, c⟩) r nym m.exportable := by
    cases hx : (P.world.B ⟨false, c⟩).makeNym sk (.val ipk) ρ.1 with
    | ok x =>
      rw [hx] at hd; simp only [Res.ok_bind, Kept, derivEphemeral, if_true] at hd; rw [hd] at hk; cases hk
      exact ⟨_, _, rfl⟩
    | err x => rw [hx] at hd; obtain ⟨-, e, hd⟩ := hd; rw [hd] at hk; cases hk
    | panic => exact absurd hx hn
  obtain ⟨nym, r, rfl⟩ := hk'
  refine Res.bind_ne_panic (by simp [newNymSecretKey, Key.publicKey]) fun k hk => ?_
  cases hk
  refine Res.bind_ne_panic (by
    change orEmpty (.ok ipk.hash) ≠ .panic
    simp [orEmpty]) fun ski _ => ?_
  refine Res.bind_ne_panic ?_ fun v _ => Res.bind_ne_panic (Res.guardErr_ne_panic _ _) fun _ _ => ?_
  · obtain ⟨h1, h2⟩ := C46_verify_dispatch_partial (B := P.world.B ⟨false, c⟩) m.exportable
      (some (.userSk sk m.exportable)) s.cred [] (some (credOpts (.issuerPk (.val ipk)) s.ou (signerRole m.name s)
        s.enrollmentId)) (by simp [NoHandler, credOpts])
    by_cases hc : s.cred = []
    · obtain ⟨e, h⟩ := h1 hc; rw [h]; simp
    · refine Obeys.ne_panic (h2 hc) ?_
      simp only [credOpts, verifyCall, Option.map_some, ne_eq, Option.some.injEq]
      exact bnp (f := fun _ => true) (np6 _ _ _ _)
  refine Res.bind_ne_panic ?_ fun o _ => ?_
  · refine Obeys.ne_panic (C46_sign_dispatch_partial (B := P.world.B ⟨false, c⟩) m.exportable
      (some (.userSk sk m.exportable)) [] (some (proofOpts (.issuerPk (.val ipk))
        (newNymSecretKey (P.world.B ⟨false, c⟩) r nym m.exportable) s.cred s.cri)) ρ.2 (by simp [NoHandler, proofOpts])) ?_
    simp only [proofOpts, signCall, newNymSecretKey, ne_eq, Option.some.injEq]
    exact Res.bind_ne_panic (np7 _ _ _ _ _ _ _ _ _ _ _ _ _) fun _ _ => by simp
  simp [newIdentity, Key.bytes, Res.pure_def]

/-- C58. An MSP of the dlog scheme never panics in set-up, if the configuration has an issuer key and the translator
of its curve does not panic on missing points, which holds for the AMCL curves (`C23_fp256bn`). Missing: the other translators and
an empty key (`C58_gurvy_key_violated`, `C58_empty_key_violated`). -/
theorem C58_dlog_no_panic_partial (P : Platform) (m : IMsp P.world) (ha : m.aries = false) (me : Ref) (t : Int)
    (raw : Bytes) (hne : ∀ conf, Wire.configCodec.unmarshal raw = .ok conf → conf.ipk ≠ [])
    (hT : ∀ conf c, Wire.configCodec.unmarshal raw = .ok conf → Spec.SelectsCurve false conf.curveId c →
      (∀ e, (P.env c).T.g1FromProto e ≠ .panic) ∧ ∀ e, (P.env c).T.g2FromProto e ≠ .panic)
    (ρ : SetupRnd P.world) : (m.setup me (some ⟨t, raw⟩) ρ).2 ≠ .panic := by
  obtain ⟨csp, ver, ipk0, sg, name, rpk0, ep, ar, ex⟩ := m
  cases ha
  intro h
  simp only [IMsp.setup, andThen_panic] at h
  rcases h with h | ⟨conf, hconf, h⟩
  · exact Wire.configCodec.unmarshal_np _ h
  split at h
  · cases h
  simp only [andThen_panic] at h
  rcases h with h | ⟨c, hc, h⟩
  · unfold chooseCurve at h
    have : ∀ (m : String) (o : Option CurveId), Res.ofOption m o ≠ .panic := fun m o => Res.ofOption_ne_panic o m
    repeat' split at h
    all_goals first | exact this _ _ h | cases h
  rcases h with h | ⟨ipk, hipk, h | ⟨rpk, hrpk, h⟩⟩
  · exact dlog_importIpk_ne_panic P _ c _ (hne conf hconf)
      (hT conf c hconf ((chooseCurve_ok _ _ _).mp hc)).1 (hT conf c hconf ((chooseCurve_ok _ _ _).mp hc)).2 h
  · exact importRev_ne_panic _ _ _ h
  · cases hs : conf.signer with
    | none => rw [hs] at h; cases h
    | some s =>
      rw [hs] at h
      simp only [andThen_panic] at h
      obtain ⟨-, pk, hpk, rfl⟩ := (importIpk_ok _ _ _ _).mp hipk
      change ((P.env c).newPublicKeyFromBytes conf.ipk names >>= fun k => pure (Dyn.val k)) = .ok pk at hpk
      obtain ⟨k, hk⟩ : ∃ k : Dlog.IssuerPublicKey, pk = Dyn.val k := by
        cases hx : (P.env c).newPublicKeyFromBytes conf.ipk names with
        | ok k => rw [hx] at hpk; cases hpk; exact ⟨k, rfl⟩
        | err k => rw [hx] at hpk; cases hpk
        | panic => rw [hx] at hpk; cases hpk
      cases hk
      rcases h with h | ⟨x, -, h⟩
      · exact dlog_newSigner_ne_panic P _ me c k s _ h
      · cases h

end Idemix.Msp
