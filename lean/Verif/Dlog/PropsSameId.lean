import Verif.Dlog.PropsLink

/-!
# C107: signatures with one commitment are of holders of one enrollment identifier (dlog scheme)
-/

namespace Idemix.Dlog

open Spec

variable {S : Suite}

/-- The two values at position `i`, to which a commitment opens with randomness `w` and `w'`, are equal, or the openings give a
relation between the bases. -/
def Spec.SameAt (k : Spec.Key S) (i : Nat) (w w' : S.F) (as bs : List S.F) : Prop :=
  ∃ a b h, as[i]? = some a ∧ bs[i]? = some b ∧ k.hAttrs[i]? = some h ∧ (a = b ∨ Relation S [a - b, w - w'] [h, k.hRand])

theorem sameAt {k : Spec.Key S} {as bs : List S.F} {i : Nat} {P : S.G1} {w w' : S.F} (h₁ : Spec.CommitsTo k as i P w)
    (h₂ : Spec.CommitsTo k bs i P w') : Spec.SameAt k i w w' as bs := by
  obtain ⟨a, h, a1, a2, a3⟩ := h₁
  obtain ⟨b, h', b1, b2, b3⟩ := h₂
  rw [a2] at b2
  cases b2
  refine ⟨a, b, h, a1, b1, a2, ?_⟩
  by_cases e : a = b
  · exact .inl e
  · exact .inr (relation_two (R := 0) (by rw [← a3, ← b3]) fun e' => e e'.1)

theorem Spec.Rewound.commitments {T : Translator S} {RevPk : Type} {ipk : IssuerPublicKey} {k : Spec.Key S} (hk : Reads T ipk k)
    (R : Spec.Rewound T RevPk ipk k) :
    let x := R.v₁.extract R.v₂
    ∃ attrs, Spec.Discloses R.D R.values attrs ∧ hid R.D attrs = x.hidden ∧ Spec.IsCredential k x.A x.e x.s x.sk attrs ∧
      (∀ P Q z₁ z₂, R.v₁.eid = some (P, z₁) → R.v₂.eid = some (Q, z₂) → R.D[R.eidIndex.toNat]? = some 0 →
        Spec.CommitsTo k attrs R.eidIndex.toNat P (Spec.witness R.v₁.c R.v₂.c z₁ z₂)) ∧
      (∀ P Q z₁ z₂, R.v₁.rh = some (P, z₁) → R.v₂.rh = some (Q, z₂) → R.D[R.rhIndex.toNat]? = some 0 →
        Spec.CommitsTo k attrs R.rhIndex.toNat P (Spec.witness R.v₁.c R.v₂.c z₁ z₂)) :=
  C14_pseudonyms_bound_to_credential T R.h₁ R.h₂ ipk R.sig₁ R.sig₂ R.D R.msg₁ R.msg₂ R.values R.rhIndex
    R.eidIndex R.revPk₁ R.revPk₂ R.epoch₁ R.epoch₂ R.vt R.md₁ R.md₂ R.acc₁ R.acc₂ k hk R.v₁ R.v₂ R.hv₁ R.hv₂ R.hpat R.vs R.hvs
    _ _ rfl rfl R.sameQuery R.differentAnswers

theorem DecodesNym.point {T : Translator S} {b b' : Bool} {a a' : AttrNym} {P P' : S.G1} {z z' : S.F}
    (h : DecodesNym T b (some a) (some (P, z))) (h' : DecodesNym T b' (some a') (some (P', z'))) (e : a.nym = a'.nym) : P = P' := by
  obtain ⟨-, q⟩ | ⟨-, a₁, n₁, q1, q2, q3⟩ := h
  · cases q
  obtain ⟨-, q⟩ | ⟨-, a₂, n₂, r1, r2, r3⟩ := h'
  · cases q
  cases q1; cases r1; cases q3; cases r3
  rw [e, r2] at q2
  exact (Res.ok.inj q2).symm

/-- **C107 (dlog, partial).** Let two signatures, whatever else they are about, carry the same commitment to an enrollment
identifier, be verified with types that ask for it, or for the
verification of whatever there is, and the same index, and let the attribute be hidden in both. Then the credentials
that are extracted from their signers have the same enrollment identifier, or a relation between the bases is computed. What is
missing: verification types that do not ask for the commitment (`C105_enrollment_violated`). -/
theorem C107_dlog_enrollment_partial (T : Translator S) (RevPk : Type) (ipk : IssuerPublicKey) (k : Spec.Key S) (hk : Reads T ipk k)
    (R R' : Spec.Rewound T RevPk ipk k) (hvt : R.vt ∈ [VerType.bestEffort, .expectEidNym, .expectEidNymRhNym])
    (hvt' : R'.vt ∈ [VerType.bestEffort, .expectEidNym, .expectEidNymRhNym]) (a a' : AttrNym) (ha : R.sig₁.eidNym = some a)
    (ha' : R'.sig₁.eidNym = some a') (same : a.nym = a'.nym) (index : R.eidIndex = R'.eidIndex)
    (hidden : R.D[R.eidIndex.toNat]? = some 0) (hidden' : R'.D[R'.eidIndex.toNat]? = some 0) :
    let x := R.v₁.extract R.v₂
    let y := R'.v₁.extract R'.v₂
    ∃ as bs P z₁ Q z₂ P' z₁' Q' z₂', R.v₁.eid = some (P, z₁) ∧ R.v₂.eid = some (Q, z₂) ∧ R'.v₁.eid = some (P', z₁') ∧
      R'.v₂.eid = some (Q', z₂') ∧ Spec.Discloses R.D R.values as ∧ Spec.Discloses R'.D R'.values bs ∧ hid R.D as = x.hidden ∧
      hid R'.D bs = y.hidden ∧ Spec.IsCredential k x.A x.e x.s x.sk as ∧ Spec.IsCredential k y.A y.e y.s y.sk bs ∧
      Spec.SameAt k R.eidIndex.toNat (Spec.witness R.v₁.c R.v₂.c z₁ z₂) (Spec.witness R'.v₁.c R'.v₂.c z₁' z₂') as bs := by
  intro x y
  obtain ⟨as, a1, a2, a3, a4, -⟩ := R.commitments hk
  obtain ⟨bs, b1, b2, b3, b4, -⟩ := R'.commitments hk
  have sE : ∀ (R : Spec.Rewound T RevPk ipk k) (a : AttrNym), R.vt ∈ [VerType.bestEffort, .expectEidNym, .expectEidNymRhNym] →
      R.sig₁.eidNym = some a → ∃ P z Q y, R.v₁.eid = some (P, z) ∧ R.v₂.eid = some (Q, y) := by
    intro R a hvt ha
    have h1 : R.v₁.eid.isSome = true := by
      rw [R.hv₁.eid.isSome]
      simp only [List.mem_cons, List.not_mem_nil, or_false] at hvt
      rcases hvt with h | h | h <;> simp [verifyEid, h, ha]
    obtain ⟨⟨P, z⟩, h⟩ := Option.isSome_iff_exists.mp h1
    obtain ⟨⟨Q, y⟩, h'⟩ := Option.isSome_iff_exists.mp ((samePattern_iff R.hv₁ R.hv₂ R.hpat).1 ▸ h1)
    exact ⟨P, z, Q, y, h, h'⟩
  obtain ⟨P, z₁, Q, z₂, e1, e2⟩ := sE R a hvt ha
  obtain ⟨P', z₁', Q', z₂', e3, e4⟩ := sE R' a' hvt' ha'
  have hP : P = P' := by
    have h := R.hv₁.eid
    have h' := R'.hv₁.eid
    rw [ha, e1] at h
    rw [ha', e3] at h'
    exact h.point h' same
  subst hP
  exact ⟨as, bs, P, z₁, Q, z₂, P, z₁', Q', z₂', e1, e2, e3, e4, a1, b1, a2, b2, a3, b3,
    sameAt (a4 P Q z₁ z₂ e1 e2 hidden) (index ▸ b4 P Q' z₁' z₂' e3 e4 hidden')⟩

/-- **C107 (dlog, partial), revocation handles.** See `C107_dlog_enrollment_partial`. -/
theorem C107_dlog_handle_partial (T : Translator S) (RevPk : Type) (ipk : IssuerPublicKey) (k : Spec.Key S) (hk : Reads T ipk k)
    (R R' : Spec.Rewound T RevPk ipk k) (hvt : R.vt ∈ [VerType.bestEffort, .expectEidNymRhNym])
    (hvt' : R'.vt ∈ [VerType.bestEffort, .expectEidNymRhNym]) (a a' : AttrNym) (ha : R.sig₁.rhNym = some a) (ha' : R'.sig₁.rhNym = some a') (same : a.nym = a'.nym) (index : R.rhIndex = R'.rhIndex)
    (hidden : R.D[R.rhIndex.toNat]? = some 0) (hidden' : R'.D[R'.rhIndex.toNat]? = some 0) :
    let x := R.v₁.extract R.v₂
    let y := R'.v₁.extract R'.v₂
    ∃ as bs P z₁ Q z₂ P' z₁' Q' z₂', R.v₁.rh = some (P, z₁) ∧ R.v₂.rh = some (Q, z₂) ∧ R'.v₁.rh = some (P', z₁') ∧
      R'.v₂.rh = some (Q', z₂') ∧ Spec.Discloses R.D R.values as ∧ Spec.Discloses R'.D R'.values bs ∧ hid R.D as = x.hidden ∧
      hid R'.D bs = y.hidden ∧ Spec.IsCredential k x.A x.e x.s x.sk as ∧ Spec.IsCredential k y.A y.e y.s y.sk bs ∧
      Spec.SameAt k R.rhIndex.toNat (Spec.witness R.v₁.c R.v₂.c z₁ z₂) (Spec.witness R'.v₁.c R'.v₂.c z₁' z₂') as bs := by
  intro x y
  obtain ⟨as, a1, a2, a3, -, a4⟩ := R.commitments hk
  obtain ⟨bs, b1, b2, b3, -, b4⟩ := R'.commitments hk
  have sR : ∀ (R : Spec.Rewound T RevPk ipk k) (a : AttrNym), R.vt ∈ [VerType.bestEffort, .expectEidNymRhNym] →
      R.sig₁.rhNym = some a → ∃ P z Q y, R.v₁.rh = some (P, z) ∧ R.v₂.rh = some (Q, y) := by
    intro R a hvt ha
    have h1 : R.v₁.rh.isSome = true := by
      rw [R.hv₁.rh.isSome]
      simp only [List.mem_cons, List.not_mem_nil, or_false] at hvt
      rcases hvt with h | h <;> simp [verifyRh, h, ha]
    obtain ⟨⟨P, z⟩, h⟩ := Option.isSome_iff_exists.mp h1
    obtain ⟨⟨Q, y⟩, h'⟩ := Option.isSome_iff_exists.mp ((samePattern_iff R.hv₁ R.hv₂ R.hpat).2 ▸ h1)
    exact ⟨P, z, Q, y, h, h'⟩
  obtain ⟨P, z₁, Q, z₂, e1, e2⟩ := sR R a hvt ha
  obtain ⟨P', z₁', Q', z₂', e3, e4⟩ := sR R' a' hvt' ha'
  have hP : P = P' := by
    have h := R.hv₁.rh
    have h' := R'.hv₁.rh
    rw [ha, e1] at h
    rw [ha', e3] at h'
    exact h.point h' same
  subst hP
  exact ⟨as, bs, P, z₁, Q, z₂, P, z₁', Q', z₂', e1, e2, e3, e4, a1, b1, a2, b2, a3, b3,
    sameAt (a4 P Q z₁ z₂ e1 e2 hidden) (index ▸ b4 P Q' z₁' z₂' e3 e4 hidden')⟩

/-! ## Examples -/

namespace Ex

/-- What a signer signs with both commitments against the oracle that always answers `c`. -/
def idSig (msg : Bytes) (c : Toy.K) : Signature :=
  match newSignature (Toy.tr.withHash fun _ => c) cred (4 : Toy.K) nym (2 : Toy.K) key.ipk discl msg 2 1 cri
      ⟨(2 : Toy.K), (3 : Toy.K), 1, 4, 5, 6, 1, 2, 3, [4, 5], 2, 3, 4, 5⟩ .eidNymRhNym none with
  | .ok (s, _) => s
  | _ => ⟨none, none, none, [], [], [], [], [], [], [], [], none, [], none, [], 0, none, none, none⟩

set_option maxRecDepth 20000 in
/-- The signer's two signatures on `[8]`. -/
def id₁ : Spec.Rewound Toy.tr Unit key.ipk key' where
  h₁ := fun _ => (1 : Toy.K)
  h₂ := fun _ => (2 : Toy.K)
  sig₁ := idSig [8] 1
  sig₂ := idSig [8] 2
  D := discl
  msg₁ := [8]
  msg₂ := [8]
  values := vals
  rhIndex := 2
  eidIndex := 1
  revPk₁ := ()
  revPk₂ := ()
  epoch₁ := 0
  epoch₂ := 0
  vt := .expectEidNymRhNym
  md₁ := none
  md₂ := none
  v₁ := view (idSig [8] 1)
  v₂ := view (idSig [8] 2)
  vs := [(1 : Toy.K)]
  acc₁ := by decide +kernel
  acc₂ := by decide +kernel
  hv₁ := ⟨by constructor <;> rfl, .inr ⟨rfl, _, _, rfl, rfl, rfl⟩, .inr ⟨rfl, _, _, rfl, rfl, rfl⟩⟩
  hv₂ := ⟨by constructor <;> rfl, .inr ⟨rfl, _, _, rfl, rfl, rfl⟩, .inr ⟨rfl, _, _, rfl, rfl, rfl⟩⟩
  hpat := .inl (by decide)
  hvs := by decide
  sameQuery := by decide +kernel
  differentAnswers := by decide +kernel

set_option maxRecDepth 20000 in
/-- The signer's two signatures on `[9, 1]`. -/
def id₂ : Spec.Rewound Toy.tr Unit key.ipk key' where
  h₁ := fun _ => (1 : Toy.K)
  h₂ := fun _ => (2 : Toy.K)
  sig₁ := idSig [9, 1] 1
  sig₂ := idSig [9, 1] 2
  D := discl
  msg₁ := [9, 1]
  msg₂ := [9, 1]
  values := vals
  rhIndex := 2
  eidIndex := 1
  revPk₁ := ()
  revPk₂ := ()
  epoch₁ := 0
  epoch₂ := 0
  vt := .expectEidNymRhNym
  md₁ := none
  md₂ := none
  v₁ := view (idSig [9, 1] 1)
  v₂ := view (idSig [9, 1] 2)
  vs := [(1 : Toy.K)]
  acc₁ := by decide +kernel
  acc₂ := by decide +kernel
  hv₁ := ⟨by constructor <;> rfl, .inr ⟨rfl, _, _, rfl, rfl, rfl⟩, .inr ⟨rfl, _, _, rfl, rfl, rfl⟩⟩
  hv₂ := ⟨by constructor <;> rfl, .inr ⟨rfl, _, _, rfl, rfl, rfl⟩, .inr ⟨rfl, _, _, rfl, rfl, rfl⟩⟩
  hpat := .inl (by decide)
  hvs := by decide
  sameQuery := by decide +kernel
  differentAnswers := by decide +kernel

end Ex

/-- Signatures on two messages with the same commitments. -/
example : Ex.id₁.msg₁ ≠ Ex.id₂.msg₁ ∧ (∃ a, Ex.id₁.sig₁.eidNym = some a ∧ Ex.id₂.sig₁.eidNym.map (·.nym) = some a.nym) ∧
    (∃ a, Ex.id₁.sig₁.rhNym = some a ∧ Ex.id₂.sig₁.rhNym.map (·.nym) = some a.nym) ∧
    Ex.id₁.D[Ex.id₁.eidIndex.toNat]? = some 0 ∧ Ex.id₁.D[Ex.id₁.rhIndex.toNat]? = some 0 :=
  ⟨by decide, ⟨_, rfl, rfl⟩, ⟨_, rfl, rfl⟩, by decide, by decide⟩

end Idemix.Dlog
