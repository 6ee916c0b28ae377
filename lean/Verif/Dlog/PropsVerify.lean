import Verif.Dlog.PropsSign

/-!
# C10, C11, C13, C14, C15, C19, C21: what acceptance of a signature means
-/

namespace Idemix.Dlog

variable {S : Suite} (T : Translator S)

/-- The verifier's type fixes which pseudonyms take part, or both signatures have the same ones. -/
def Spec.SamePattern (vt : VerType) (v₁ v₂ : Spec.Sig S) : Prop :=
  vt ≠ .bestEffort ∨ (v₁.eid.isSome = v₂.eid.isSome ∧ v₁.rh.isSome = v₂.rh.isSome)

theorem DecodesNym.isSome {b : Bool} {an : Option AttrNym} {o : Option (S.G1 × S.F)}
    {T : Translator S} (h : DecodesNym T b an o) : o.isSome = b := by
  rcases h with ⟨rfl, rfl⟩ | ⟨rfl, _, _, -, -, rfl⟩ <;> rfl

theorem samePattern_iff {T : Translator S} {sig₁ sig₂ : Signature} {vt : VerType} {v₁ v₂ : Spec.Sig S}
    (h₁ : Views T sig₁ vt v₁) (h₂ : Views T sig₂ vt v₂) (h : Spec.SamePattern vt v₁ v₂) :
    v₁.eid.isSome = v₂.eid.isSome ∧ v₁.rh.isSome = v₂.rh.isSome := by
  rcases h with h | h
  · rw [h₁.eid.isSome, h₂.eid.isSome, h₁.rh.isSome, h₂.rh.isSome]
    simp [verifyEid, verifyRh, h]
  · exact h

/-! ## C10 -/

/-- C10. Signatures are proofs of knowledge. Take two signatures accepted for one issuer key, disclosure
vector and list of values, against the oracles `h₁` and `h₂`, after the same first hash question and with
different final answers. The extractor `Sig.extract` computes from them a credential of this issuer, whose attributes
at the disclosed positions are the verifier's values and at the hidden positions the extracted ones, and an opening
of the pseudonym to the same user secret. -/
theorem C10_signature_extraction (h₁ h₂ : Bytes → S.F) {RevPk : Type} (ipk : IssuerPublicKey)
    (sig₁ sig₂ : Signature) (D msg₁ msg₂ : Bytes) (values : List (Option S.F)) (rhIndex eidIndex : Int)
    (revPk₁ revPk₂ : RevPk) (epoch₁ epoch₂ : Int) (vt : VerType)
    (md₁ : Option (SignerMetadata (S.withHash h₁))) (md₂ : Option (SignerMetadata (S.withHash h₂)))
    (acc₁ : sig₁.ver (T.withHash h₁) D (some ipk) msg₁ values rhIndex eidIndex revPk₁ epoch₁ vt md₁ = .ok ())
    (acc₂ : sig₂.ver (T.withHash h₂) D (some ipk) msg₂ values rhIndex eidIndex revPk₂ epoch₂ vt md₂ = .ok ())
    (k : Spec.Key S) (hk : Reads T ipk k) (v₁ v₂ : Spec.Sig S)
    (hv₁ : Views T sig₁ vt v₁) (hv₂ : Views T sig₂ vt v₂) (hpat : Spec.SamePattern vt v₁ v₂)
    (vs : List S.F) (hvs : vs.map some = dis D values) (q₁ q₂ : Bytes)
    (hq₁ : q₁ = v₁.transcript (sigLabelOf v₁) k ipk.hash D vs eidIndex.toNat rhIndex.toNat msg₁)
    (hq₂ : q₂ = v₂.transcript (sigLabelOf v₂) k ipk.hash D vs eidIndex.toNat rhIndex.toNat msg₂)
    (sameQuery : q₁ = q₂)
    (differentAnswers : h₁ (Spec.second (S.withHash h₁) q₁ v₁.nonce) ≠
      h₂ (Spec.second (S.withHash h₂) q₂ v₂.nonce)) :
    let x := v₁.extract v₂
    ∃ attrs : List S.F, Spec.Discloses D values attrs ∧ hid D attrs = x.hidden ∧
      Spec.IsCredential k x.A x.e x.s x.sk attrs ∧ (x.A ≠ 0 ∨ Spec.signed k x.sk x.s attrs = 0) ∧
      v₁.nym = Spec.nym k x.sk x.rNym := by
  obtain ⟨p1, p2⟩ := samePattern_iff hv₁ hv₂ hpat
  obtain ⟨attrs, r1, rh, r2, r3, r4, -⟩ := extraction T h₁ h₂ ipk sig₁ sig₂ D msg₁ msg₂ values
    rhIndex eidIndex revPk₁ revPk₂ epoch₁ epoch₂ vt md₁ md₂ acc₁ acc₂ k hk v₁ v₂ hv₁ hv₂ p1 p2 vs hvs q₁ q₂
    hq₁ hq₂ sameQuery differentAnswers
  exact ⟨attrs, r1, rh, r2, r3, r4⟩

/-! ## C14 -/

/-- C14. In the situation of C10, the enrollment id and revocation handle commitments of the signature
open to the attributes at the verifier's indices in the very credential extracted, if those are hidden; the
randomness of the opening is computed from the challenges and responses. -/
theorem C14_pseudonyms_bound_to_credential (h₁ h₂ : Bytes → S.F) {RevPk : Type} (ipk : IssuerPublicKey)
    (sig₁ sig₂ : Signature) (D msg₁ msg₂ : Bytes) (values : List (Option S.F)) (rhIndex eidIndex : Int)
    (revPk₁ revPk₂ : RevPk) (epoch₁ epoch₂ : Int) (vt : VerType)
    (md₁ : Option (SignerMetadata (S.withHash h₁))) (md₂ : Option (SignerMetadata (S.withHash h₂)))
    (acc₁ : sig₁.ver (T.withHash h₁) D (some ipk) msg₁ values rhIndex eidIndex revPk₁ epoch₁ vt md₁ = .ok ())
    (acc₂ : sig₂.ver (T.withHash h₂) D (some ipk) msg₂ values rhIndex eidIndex revPk₂ epoch₂ vt md₂ = .ok ())
    (k : Spec.Key S) (hk : Reads T ipk k) (v₁ v₂ : Spec.Sig S)
    (hv₁ : Views T sig₁ vt v₁) (hv₂ : Views T sig₂ vt v₂) (hpat : Spec.SamePattern vt v₁ v₂)
    (vs : List S.F) (hvs : vs.map some = dis D values) (q₁ q₂ : Bytes)
    (hq₁ : q₁ = v₁.transcript (sigLabelOf v₁) k ipk.hash D vs eidIndex.toNat rhIndex.toNat msg₁)
    (hq₂ : q₂ = v₂.transcript (sigLabelOf v₂) k ipk.hash D vs eidIndex.toNat rhIndex.toNat msg₂)
    (sameQuery : q₁ = q₂)
    (differentAnswers : h₁ (Spec.second (S.withHash h₁) q₁ v₁.nonce) ≠
      h₂ (Spec.second (S.withHash h₂) q₂ v₂.nonce)) :
    let x := v₁.extract v₂
    ∃ attrs : List S.F, Spec.Discloses D values attrs ∧ hid D attrs = x.hidden ∧
      Spec.IsCredential k x.A x.e x.s x.sk attrs ∧
      (∀ P Q z₁ z₂, v₁.eid = some (P, z₁) → v₂.eid = some (Q, z₂) → D[eidIndex.toNat]? = some 0 →
        Spec.CommitsTo k attrs eidIndex.toNat P (Spec.witness v₁.c v₂.c z₁ z₂)) ∧
      (∀ P Q z₁ z₂, v₁.rh = some (P, z₁) → v₂.rh = some (Q, z₂) → D[rhIndex.toNat]? = some 0 →
        Spec.CommitsTo k attrs rhIndex.toNat P (Spec.witness v₁.c v₂.c z₁ z₂)) := by
  obtain ⟨p1, p2⟩ := samePattern_iff hv₁ hv₂ hpat
  obtain ⟨attrs, r1, rh, r2, -, -, r5, r6⟩ := extraction T h₁ h₂ ipk sig₁ sig₂ D msg₁ msg₂
    values rhIndex eidIndex revPk₁ revPk₂ epoch₁ epoch₂ vt md₁ md₂ acc₁ acc₂ k hk v₁ v₂ hv₁ hv₂ p1 p2 vs hvs
    q₁ q₂ hq₁ hq₂ sameQuery differentAnswers
  exact ⟨attrs, r1, rh, r2, fun P Q z₁ z₂ h h' => r5 (P, z₁) (Q, z₂) h h',
    fun P Q z₁ z₂ h h' => r6 (P, z₁) (Q, z₂) h h'⟩

/-- Two runs of one signer against the constant oracles 1 and 2 meet the hypotheses of C10 and C14. -/
def Ex.key' : Spec.Key Toy.suite := ⟨(3 : Toy.K), (6 : Toy.K), [(2 : Toy.K), 4, 5], (3 : Toy.K)⟩

theorem Ex.reads : Reads Toy.tr Ex.key.ipk Ex.key' := ⟨rfl, rfl, rfl, rfl⟩

/-- A decoded toy signature. -/
def Ex.view (s : Signature) : Spec.Sig Toy.suite :=
  let pt : Option ECP → Toy.K := fun e => Toy.dec ((e.map ECP.x).getD [])
  let an : Option AttrNym → Option (Toy.K × Toy.K) := fun o =>
    o.map fun a => (pt a.nym, Toy.dec (a.proofS.getD []))
  ⟨pt s.aPrime, pt s.aBar, pt s.bPrime, pt s.nym, Toy.dec s.proofC, Toy.dec s.proofSSk, Toy.dec s.proofSE,
    Toy.dec s.proofSR2, Toy.dec s.proofSR3, Toy.dec s.proofSSPrime, Toy.dec s.proofSRNym,
    s.proofSAttrs.map Toy.dec, Toy.dec s.nonce, an s.eidNym, an s.rhNym⟩

set_option maxRecDepth 8000 in
example : ∃ s1 s2 m1 m2,
    newSignature (Toy.tr.withHash fun _ => (1 : Toy.K)) Ex.cred (4 : Toy.K) Ex.nym (2 : Toy.K) Ex.key.ipk
      Ex.discl [8] 2 1 Ex.cri ⟨(2 : Toy.K), (3 : Toy.K), 1, 4, 5, 6, 1, 2, 3, [4, 5], 2, 3, 4, 5⟩
      .eidNymRhNym none = .ok (s1, m1) ∧
    newSignature (Toy.tr.withHash fun _ => (2 : Toy.K)) Ex.cred (4 : Toy.K) Ex.nym (2 : Toy.K) Ex.key.ipk
      Ex.discl [8] 2 1 Ex.cri ⟨(2 : Toy.K), (3 : Toy.K), 1, 4, 5, 6, 1, 2, 3, [4, 5], 2, 3, 4, 5⟩
      .eidNymRhNym none = .ok (s2, m2) ∧
    s1.ver (Toy.tr.withHash fun _ => (1 : Toy.K)) Ex.discl (some Ex.key.ipk) [8] Ex.vals 2 1 () 0
      .expectEidNymRhNym none = .ok () ∧
    s2.ver (Toy.tr.withHash fun _ => (2 : Toy.K)) Ex.discl (some Ex.key.ipk) [8] Ex.vals 2 1 () 0
      .expectEidNymRhNym none = .ok () ∧
    Views Toy.tr s1 .expectEidNymRhNym (Ex.view s1) ∧ Views Toy.tr s2 .expectEidNymRhNym (Ex.view s2) ∧
    (Ex.view s1).transcript (sigLabelOf (Ex.view s1)) Ex.key' Ex.key.ipk.hash Ex.discl [1] 1 2 [8] =
      (Ex.view s2).transcript (sigLabelOf (Ex.view s2)) Ex.key' Ex.key.ipk.hash Ex.discl [1] 1 2 [8] ∧
    [(1 : Toy.K)].map some = dis Ex.discl Ex.vals :=
  ⟨_, _, _, _, rfl, rfl, by decide, by decide,
    ⟨by constructor <;> rfl, .inr ⟨rfl, _, _, rfl, rfl, rfl⟩, .inr ⟨rfl, _, _, rfl, rfl, rfl⟩⟩,
    ⟨by constructor <;> rfl, .inr ⟨rfl, _, _, rfl, rfl, rfl⟩, .inr ⟨rfl, _, _, rfl, rfl, rfl⟩⟩,
    by decide, by decide⟩

/-! ## C11 -/

/-- C11. One signature accepted (with one verification type) for two messages, disclosure vectors of equal
length, issuer keys or lists of values: either the two final hash inputs collide, or the two transcripts
collide, or messages, disclosure vectors and issuer key hashes are equal; and if moreover the issuer keys have the same
points, then the values supplied satisfy the same linear combination of the disclosed bases (or the
challenge is 0). -/
theorem C11_signature_binding {RevPk : Type} (sig : Signature) (vt : VerType)
    (ipk₁ ipk₂ : IssuerPublicKey) (D₁ D₂ msg₁ msg₂ : Bytes) (values₁ values₂ : List (Option S.F))
    (rhIndex₁ rhIndex₂ eidIndex₁ eidIndex₂ : Int) (revPk₁ revPk₂ : RevPk) (epoch₁ epoch₂ : Int)
    (md₁ md₂ : Option (SignerMetadata S)) (hD : D₁.length = D₂.length)
    (hh₁ : ipk₁.hash.length = S.scalarLen) (hh₂ : ipk₂.hash.length = S.scalarLen)
    (acc₁ : sig.ver T D₁ (some ipk₁) msg₁ values₁ rhIndex₁ eidIndex₁ revPk₁ epoch₁ vt md₁ = .ok ())
    (acc₂ : sig.ver T D₂ (some ipk₂) msg₂ values₂ rhIndex₂ eidIndex₂ revPk₂ epoch₂ vt md₂ = .ok ()) :
    ∃ (k₁ k₂ : Spec.Key S) (v : Spec.Sig S) (vs₁ vs₂ : List S.F) (q₁ q₂ : Bytes),
      Reads T ipk₁ k₁ ∧ Reads T ipk₂ k₂ ∧ Views T sig vt v ∧
      vs₁.map some = dis D₁ values₁ ∧ vs₂.map some = dis D₂ values₂ ∧
      q₁ = v.transcript (sigLabelOf v) k₁ ipk₁.hash D₁ vs₁ eidIndex₁.toNat rhIndex₁.toNat msg₁ ∧
      q₂ = v.transcript (sigLabelOf v) k₂ ipk₂.hash D₂ vs₂ eidIndex₂.toNat rhIndex₂.toNat msg₂ ∧
      (S.Collision (Spec.second S q₁ v.nonce) (Spec.second S q₂ v.nonce) ∨ S.Collision q₁ q₂ ∨
        (msg₁ = msg₂ ∧ D₁ = D₂ ∧ ipk₁.hash = ipk₂.hash ∧
          (k₁ = k₂ → v.c = 0 ∨ S.lin vs₁ (dis D₁ k₁.hAttrs) = S.lin vs₂ (dis D₁ k₁.hAttrs)))) := by
  obtain ⟨_, k₁, v, vs₁, e₁, sh₁, a₁⟩ := ver_ok_iff.mp acc₁
  obtain ⟨_, k₂, v', vs₂, e₂, sh₂, a₂⟩ := ver_ok_iff.mp acc₂
  cases e₁; cases e₂
  have hv₁ : Views T sig vt v := ⟨sh₁.decodes, sh₁.eid, sh₁.rh⟩
  have hv₂ : Views T sig vt v' := ⟨sh₂.decodes, sh₂.eid, sh₂.rh⟩
  obtain rfl := hv₁.unique hv₂
  obtain ⟨q₁, hq₁⟩ : ∃ q, q = v.transcript (sigLabelOf v) k₁ ipk₁.hash D₁ vs₁ eidIndex₁.toNat
    rhIndex₁.toNat msg₁ := ⟨_, rfl⟩
  obtain ⟨q₂, hq₂⟩ : ∃ q, q = v.transcript (sigLabelOf v) k₂ ipk₂.hash D₂ vs₂ eidIndex₂.toNat
    rhIndex₂.toNat msg₂ := ⟨_, rfl⟩
  refine ⟨k₁, k₂, v, vs₁, vs₂, q₁, q₂, sh₁.reads, sh₂.reads, hv₁, sh₁.values, sh₂.values, hq₁, hq₂, ?_⟩
  have c₁ := a₁.challenge
  have c₂ := a₂.challenge
  rw [← hq₁] at c₁
  rw [← hq₂] at c₂
  by_cases h1 : Spec.second S q₁ v.nonce = Spec.second S q₂ v.nonce
  · right
    by_cases h2 : q₁ = q₂
    · right
      rw [hq₁, hq₂] at h2
      obtain ⟨-, t2, -, -, -, -, -, -, -, hh, rfl, rfl⟩ := transcript_inj hD rfl rfl h2
      rw [Buf.padTo_of_length hh₁, Buf.padTo_of_length hh₂] at hh
      refine ⟨rfl, rfl, hh, ?_⟩
      rintro rfl
      by_cases hc : v.c = 0
      · exact .inl hc
      · right
        apply S.smul_right_inj hc
        simp only [Spec.Sig.t2] at t2
        linear_combination (norm := module) (1 : S.F) • t2
    · left
      refine ⟨h2, ?_⟩
      simp only [Spec.second] at h1
      exact S.zrBytes_inj (List.append_inj h1 (by simp)).1
  · left
    exact ⟨h1, c₁.symm.trans c₂⟩

/-- C11. Values that differ in exactly one disclosed position whose base is not the identity are told
apart: the same signature is accepted for both only with a collision or a zero challenge. -/
theorem C11_values_one_place (k : Spec.Key S) (D : Bytes) (pre post : List S.F) (a₁ a₂ : S.F)
    (P : S.G1) (hP : (dis D k.hAttrs)[pre.length]? = some P) (hP0 : P ≠ 0)
    (h : S.lin (pre ++ a₁ :: post) (dis D k.hAttrs) = S.lin (pre ++ a₂ :: post) (dis D k.hAttrs)) :
    a₁ = a₂ := by
  obtain ⟨hi, hPe⟩ := List.getElem?_eq_some_iff.mp hP
  generalize dis D k.hAttrs = L at *
  have hsplit : L = L.take pre.length ++ P :: L.drop (pre.length + 1) := by
    conv_lhs => rw [← List.take_append_drop pre.length L, List.drop_eq_getElem_cons hi, hPe]
  have hl : pre.length = (L.take pre.length).length := by simp; omega
  rw [hsplit] at h
  simp only [S.lin_append hl, Suite.lin_cons] at h
  apply S.smul_left_inj hP0
  exact add_right_cancel (add_left_cancel h)

/-- A signature accepted for one message in the toy suite, whose hash has collisions: hypotheses met. -/
example : ∃ sig m, newSignature Toy.tr Ex.cred (4 : Toy.K) Ex.nym (2 : Toy.K) Ex.key.ipk
      Ex.discl [8] 2 1 Ex.cri Ex.sigRnd .standard none = .ok (sig, m) ∧
    sig.ver Toy.tr Ex.discl (some Ex.key.ipk) [8] Ex.vals 2 1 () 0 .expectStandard none = .ok () ∧
    sig.ver Toy.tr Ex.discl (some Ex.key.ipk) [15] Ex.vals 2 1 () 0 .expectStandard none = .ok () ∧
    Ex.key.ipk.hash.length = Toy.suite.scalarLen :=
  ⟨_, _, rfl, by decide, by decide, rfl⟩

/-! ## C13 -/

/-- The enrollment id commitment of `sig` is present and its proof is part of what was accepted: the
decoded signature has the pair (commitment, response), whose t-value is in the hashed transcript. -/
def Spec.EidChecked (sig : Signature) (D : Bytes) (ipk : IssuerPublicKey) (values : List (Option S.F))
    (rhIndex eidIndex : Int) (msg : Bytes) : Prop :=
  ∃ (k : Spec.Key S) (v : Spec.Sig S) (vs : List S.F) (a : AttrNym) (P : S.G1),
    Reads T ipk k ∧ Decodes T sig v ∧ vs.map some = dis D values ∧
    sig.eidNym = some a ∧ T.g1FromProto a.nym = .ok P ∧
    v.eid = some (P, S.zrOfBytes (a.proofS.getD [])) ∧
    v.Accepted (sigLabelOf v) k ipk.hash D vs eidIndex.toNat rhIndex.toNat msg

/-- The same for the revocation handle commitment. -/
def Spec.RhChecked (sig : Signature) (D : Bytes) (ipk : IssuerPublicKey) (values : List (Option S.F))
    (rhIndex eidIndex : Int) (msg : Bytes) : Prop :=
  ∃ (k : Spec.Key S) (v : Spec.Sig S) (vs : List S.F) (a : AttrNym) (P : S.G1),
    Reads T ipk k ∧ Decodes T sig v ∧ vs.map some = dis D values ∧
    sig.rhNym = some a ∧ T.g1FromProto a.nym = .ok P ∧
    v.rh = some (P, S.zrOfBytes (a.proofS.getD [])) ∧
    v.Accepted (sigLabelOf v) k ipk.hash D vs eidIndex.toNat rhIndex.toNat msg

/-- C13. What each verification type enforces about the pseudonym commitments. -/
theorem C13_verification_types {RevPk : Type} (sig : Signature) (D : Bytes) (ipk : IssuerPublicKey)
    (msg : Bytes) (values : List (Option S.F)) (rhIndex eidIndex : Int) (revPk : RevPk) (epoch : Int)
    (vt : VerType) (md : Option (SignerMetadata S))
    (acc : sig.ver T D (some ipk) msg values rhIndex eidIndex revPk epoch vt md = .ok ()) :
    (vt = .expectStandard → sig.eidNym = none ∧ sig.rhNym = none) ∧
    (vt = .expectEidNym → Spec.EidChecked T sig D ipk values rhIndex eidIndex msg ∧
      ∃ a, sig.eidNym = some a ∧ a.nym.isSome ∧ a.proofS.isSome) ∧
    (vt = .expectEidNymRhNym → Spec.EidChecked T sig D ipk values rhIndex eidIndex msg ∧
      Spec.RhChecked T sig D ipk values rhIndex eidIndex msg ∧
      (∃ a, sig.eidNym = some a ∧ a.nym.isSome ∧ a.proofS.isSome) ∧
      ∃ a, sig.rhNym = some a ∧ a.nym.isSome ∧ a.proofS.isSome) ∧
    (vt = .bestEffort → (sig.eidNym.isSome → Spec.EidChecked T sig D ipk values rhIndex eidIndex msg) ∧
      (sig.rhNym.isSome → Spec.RhChecked T sig D ipk values rhIndex eidIndex msg ∧
        Spec.EidChecked T sig D ipk values rhIndex eidIndex msg)) := by
  obtain ⟨_, k, v, vs, e, sh, a⟩ := ver_ok_iff.mp acc
  cases e
  have hE : verifyEid sig vt = true → Spec.EidChecked T sig D ipk values rhIndex eidIndex msg := by
    intro h
    rcases sh.eid with ⟨h', -⟩ | ⟨-, an, P, h1, h2, h3⟩
    · rw [h] at h'; cases h'
    · exact ⟨k, v, vs, an, P, sh.reads, sh.decodes, sh.values, h1, h2, h3, a⟩
  have hR : verifyRh sig vt = true → Spec.RhChecked T sig D ipk values rhIndex eidIndex msg := by
    intro h
    rcases sh.rh with ⟨h', -⟩ | ⟨-, an, P, h1, h2, h3⟩
    · rw [h] at h'; cases h'
    · exact ⟨k, v, vs, an, P, sh.reads, sh.decodes, sh.values, h1, h2, h3, a⟩
  have hmiss : ∀ o : Option AttrNym, AttrNym.missing o = false →
      ∃ a, o = some a ∧ a.nym.isSome ∧ a.proofS.isSome := by
    rintro (_ | ⟨n, p⟩) h
    · cases h
    · simp [AttrNym.missing] at h
      exact ⟨_, rfl, by cases n <;> simp_all, by cases p <;> simp_all⟩
  have hchk := sh.verType
  simp only [verTypeChecks, Res.bind_eq_ok, Res.guardErr_eq_ok] at hchk
  obtain ⟨_, c1, _, c2, _, c3, _, c4, c5⟩ := hchk
  refine ⟨?_, ?_, ?_, ?_⟩
  · rintro rfl
    simp only [decide_true, Bool.true_and] at c4 c5
    exact ⟨Option.not_isSome_iff_eq_none.mp (by simp [c5]), Option.not_isSome_iff_eq_none.mp (by simp [c4])⟩
  · rintro rfl
    exact ⟨hE (by simp [verifyEid]), hmiss _ (by simpa using c1)⟩
  · rintro rfl
    exact ⟨hE (by simp [verifyEid]), hR (by simp [verifyRh]), hmiss _ (by simpa using c2),
      hmiss _ (by simpa using c3)⟩
  · rintro rfl
    exact ⟨fun h => hE (by simp [verifyEid, h]), fun h => ⟨hR (by simp [verifyRh, h]),
      hE (by simp [verifyEid, verifyRh, h])⟩⟩

set_option maxRecDepth 4000 in
/-- The standard signature of the example is refused by the types that require commitments. -/
example : ∃ sig m, newSignature Toy.tr Ex.cred (4 : Toy.K) Ex.nym (2 : Toy.K) Ex.key.ipk
      Ex.discl [8] 2 1 Ex.cri Ex.sigRnd .standard none = .ok (sig, m) ∧
    sig.ver Toy.tr Ex.discl (some Ex.key.ipk) [8] Ex.vals 2 1 () 0 .bestEffort none = .ok () ∧
    sig.ver Toy.tr Ex.discl (some Ex.key.ipk) [8] Ex.vals 2 1 () 0 .expectEidNym none =
      .err "no EidNym provided but ExpectEidNym required" :=
  ⟨_, _, rfl, by decide, by decide⟩

/-! ## C15 -/

/-- C15. Auditing a commitment in a signature succeeds iff the commitment is the one formed from the
claimed attribute and randomness with the bases of the issuer key (in particular the index is in range). -/
theorem C15_audit_exact (an : Option AttrNym) (ipk : IssuerPublicKey) (attr : S.F) (idx : Int) (r : S.F) :
    auditSigNym T an ipk attr idx r = .ok () ↔
      ∃ (a : AttrNym) (en : ECP) (hE : Option ECP) (h hRand : S.G1), an = some a ∧ a.nym = some en ∧
        0 ≤ idx ∧ ipk.hAttrs[idx.toNat]? = some hE ∧ T.g1FromProto hE = .ok h ∧
        T.g1FromProto ipk.hRand = .ok hRand ∧
        T.g1FromProto (some en) = .ok (attr • h + r • hRand) := by
  simp only [auditSigNym, Res.bind_eq_ok, Res.guardErr_eq_ok, Res.ofOption_eq_ok, Res.index_eq_ok,
    decide_eq_false_iff_not, Bool.not_eq_false', decide_eq_true_eq]
  constructor
  · rintro ⟨a, rfl, en, h2, _, h3, hE, ⟨h4, h5⟩, h, h6, hR, h7, n, h8, h9⟩
    exact ⟨a, en, hE, h, hR, rfl, h2, h4, h5, h6, h7, by rw [h9]; exact h8⟩
  · rintro ⟨a, en, hE, h, hR, rfl, h2, h4, h5, h6, h7, h8⟩
    refine ⟨a, rfl, en, h2, (), ?_, hE, ⟨h4, h5⟩, h, h6, hR, h7, _, h8, rfl⟩
    have := (List.getElem?_eq_some_iff.mp h5).1
    omega

/-- C15. The same for the audit of a raw commitment. -/
theorem C15_raw_audit_exact (raw : Bytes) (ipk : IssuerPublicKey) (attr : S.F) (idx : Int) (r : S.F) :
    auditRawNym T raw ipk attr idx r = .ok () ↔
      ∃ (hE : Option ECP) (h hRand : S.G1), raw ≠ [] ∧
        0 ≤ idx ∧ ipk.hAttrs[idx.toNat]? = some hE ∧ T.g1FromProto hE = .ok h ∧
        T.g1FromProto ipk.hRand = .ok hRand ∧ S.g1OfBytes raw = some (attr • h + r • hRand) := by
  simp only [auditRawNym, Res.bind_eq_ok, Res.guardErr_eq_ok, Res.ofOption_eq_ok, Res.index_eq_ok,
    decide_eq_false_iff_not, Bool.not_eq_false', decide_eq_true_eq, List.length_eq_zero_iff]
  constructor
  · rintro ⟨_, h2, _, h3, hE, ⟨h4, h5⟩, h, h6, hR, h7, n, h8, h9⟩
    exact ⟨hE, h, hR, h2, h4, h5, h6, h7, by rw [h9]; exact h8⟩
  · rintro ⟨hE, h, hR, h2, h4, h5, h6, h7, h8⟩
    refine ⟨(), h2, (), ?_, hE, ⟨h4, h5⟩, h, h6, hR, h7, _, h8, rfl⟩
    have := (List.getElem?_eq_some_iff.mp h5).1
    omega

/-- C15. An audit that succeeds for two different attribute values exhibits the discrete logarithm of one
base with respect to the other: `(a₁ - a₂)·HAttrs[idx] = (r₂ - r₁)·HRand` with `a₁ ≠ a₂`. -/
theorem C15_audit_binding (an : Option AttrNym) (ipk : IssuerPublicKey) (a₁ a₂ : S.F) (idx : Int)
    (r₁ r₂ : S.F) (h₁ : auditSigNym T an ipk a₁ idx r₁ = .ok ())
    (h₂ : auditSigNym T an ipk a₂ idx r₂ = .ok ()) :
    a₁ = a₂ ∨ ∃ (h hRand : S.G1) (hE : Option ECP), ipk.hAttrs[idx.toNat]? = some hE ∧
      T.g1FromProto hE = .ok h ∧ T.g1FromProto ipk.hRand = .ok hRand ∧ a₁ - a₂ ≠ 0 ∧
      h = ((r₂ - r₁) * (a₁ - a₂)⁻¹) • hRand := by
  obtain ⟨a, en, hE, h, hR, e1, e2, -, e4, e5, e6, e7⟩ := (C15_audit_exact T _ _ _ _ _).mp h₁
  obtain ⟨a', en', hE', h', hR', f1, f2, -, f4, f5, f6, f7⟩ := (C15_audit_exact T _ _ _ _ _).mp h₂
  rw [e1] at f1; cases f1
  rw [e2] at f2; cases f2
  rw [e4] at f4; cases f4
  rw [e5] at f5; cases f5
  rw [e6] at f6; cases f6
  rw [e7] at f7
  by_cases hne : a₁ = a₂
  · exact .inl hne
  · right
    have hd : a₁ - a₂ ≠ 0 := sub_ne_zero.mpr hne
    refine ⟨h, hR, hE, e4, e5, e6, hd, ?_⟩
    apply S.smul_right_inj hd
    have f7 : a₁ • h + r₁ • hR = a₂ • h + r₂ • hR := by simpa using f7
    have : (a₁ - a₂) * ((r₂ - r₁) * (a₁ - a₂)⁻¹) = r₂ - r₁ := by field_simp
    rw [smul_smul, this]
    linear_combination (norm := module) (1 : S.F) • f7

/-- C15. An index beyond the bases of the issuer key is an error. -/
theorem C15_index_out_of_range (an : Option AttrNym) (ipk : IssuerPublicKey) (attr : S.F) (idx : Int)
    (r : S.F) (h : (ipk.hAttrs.length : Int) ≤ idx) :
    ∃ e, auditSigNym T an ipk attr idx r = .err e := by
  rcases an with _ | ⟨_ | n, p⟩ <;> simp [auditSigNym, Res.ofOption, h, Res.guardErr]

example : auditRawNym Toy.tr [6] Ex.key.ipk (0 : Toy.K) 1 (1 : Toy.K) = .ok () ∧
    auditRawNym Toy.tr [6] Ex.key.ipk (1 : Toy.K) 1 (1 : Toy.K) ≠ .ok () ∧
    auditSigNym Toy.tr (some ⟨some ⟨[6], []⟩, none⟩) Ex.key.ipk (0 : Toy.K) 1 (1 : Toy.K) = .ok () ∧
    auditSigNym Toy.tr (some ⟨some ⟨[6], []⟩, none⟩) Ex.key.ipk (0 : Toy.K) 3 (1 : Toy.K) =
      .err "could not access H_a in array" := by decide

/-! ## C19 -/

/-- C19 is violated: verification does not look at the revocation key or the epoch. -/
theorem C19_epoch_and_revocation_key_ignored {RevPk : Type} (sig : Signature) (D : Bytes)
    (ipk : Option IssuerPublicKey) (msg : Bytes) (values : List (Option S.F)) (rhIndex eidIndex : Int)
    (revPk revPk' : RevPk) (epoch epoch' : Int) (vt : VerType) (md : Option (SignerMetadata S)) :
    sig.ver T D ipk msg values rhIndex eidIndex revPk epoch vt md =
      sig.ver T D ipk msg values rhIndex eidIndex revPk' epoch' vt md := rfl

set_option maxRecDepth 4000 in
/-- C19, full statement, refuted: a signature of epoch 5 is accepted for epoch 6. -/
theorem C19_violated : ¬ ∀ (S : Suite) (T : Translator S) (sig : Signature) (D : Bytes)
    (ipk : IssuerPublicKey) (msg : Bytes) (values : List (Option S.F)) (rhIndex eidIndex : Int)
    (epoch : Int) (vt : VerType),
    sig.ver T D (some ipk) msg values rhIndex eidIndex () epoch vt none = .ok () → sig.epoch = epoch := by
  intro h
  obtain ⟨sig, m, hs, he⟩ : ∃ sig m, newSignature Toy.tr Ex.cred (4 : Toy.K) Ex.nym (2 : Toy.K) Ex.key.ipk
      Ex.discl [8] 2 1 Ex.cri Ex.sigRnd .standard none = .ok (sig, m) ∧ sig.epoch = 5 ∧
      sig.ver Toy.tr Ex.discl (some Ex.key.ipk) [8] Ex.vals 2 1 () 6 .expectStandard none = .ok () :=
    ⟨_, _, rfl, rfl, by decide⟩
  have := h Toy.suite Toy.tr sig Ex.discl Ex.key.ipk [8] Ex.vals 2 1 6 .expectStandard he.2
  rw [he.1] at this
  exact absurd this (by decide)

/-- C19, the part that holds: acceptance implies the `NO_REVOCATION` algorithm and a readable epoch key.
Missing: nothing ties the epoch, the epoch key or its signature to the verifier's parameters. -/
theorem C19_revocation_data_partial {RevPk : Type} (sig : Signature) (D : Bytes) (ipk : IssuerPublicKey)
    (msg : Bytes) (values : List (Option S.F)) (rhIndex eidIndex : Int) (revPk : RevPk) (epoch : Int)
    (vt : VerType) (md : Option (SignerMetadata S))
    (acc : sig.ver T D (some ipk) msg values rhIndex eidIndex revPk epoch vt md = .ok ()) :
    (∃ n, sig.nonRevocationProof = some n ∧ n.revocationAlg = 0) ∧
      ∃ P, T.g2FromProto sig.revocationEpochPk = .ok P := by
  obtain ⟨_, k, v, vs, e, sh, a⟩ := ver_ok_iff.mp acc
  exact ⟨sh.nrp, sh.epochPk⟩

/-! ## C21 -/

/-- C21. The transcript of the issuer key proof is the concatenation of its six points. -/
theorem C21_issuer_key_transcript (t1 : S.G2) (t2 b1 : S.G1) (w : S.G2) (b2 : S.G1) :
    ipkProofData t1 t2 b1 w b2 = .ok (S.g2Bytes t1 ++ S.g1Bytes t2 ++ S.g2Bytes S.genG2 ++
      S.g1Bytes b1 ++ S.g2Bytes w ++ S.g1Bytes b2) := ipkProofData_eq t1 t2 b1 w b2

/-- C21. The transcript of a credential request is the concatenation of label, three points, nonce and
key hash if nonce and key hash fill the two scalars reserved for them. -/
theorem C21_request_transcript (t hSk nym : S.G1) (nonce hash : Bytes)
    (hn : nonce.length = S.scalarLen) (hh : hash.length = S.scalarLen) :
    credReqProofData t hSk nym nonce hash = .ok (credRequestLabel ++ S.g1Bytes t ++ S.g1Bytes hSk ++
      S.g1Bytes nym ++ nonce ++ hash) := credReqProofData_eq t hSk nym nonce hash (by omega)

/-- C21, needed for the previous statement: with a longer nonce the key hash is cut off, so requests for
issuer keys with different hashes get one transcript. -/
theorem C21_request_transcript_truncates :
    credReqProofData (S := Toy.suite) (1 : Toy.K) (2 : Toy.K) (3 : Toy.K) [1, 2] [5] =
      credReqProofData (S := Toy.suite) (1 : Toy.K) (2 : Toy.K) (3 : Toy.K) [1, 2] [6] := by decide

/-- C21. The transcript of a pseudonym signature, for a key hash of scalar length and every message. -/
theorem C21_nym_signature_transcript (t nym : S.G1) (hash msg : Bytes)
    (hh : hash.length = S.scalarLen) :
    nymSigProofData t nym hash msg = .ok (signLabel ++ S.g1Bytes t ++ S.g1Bytes nym ++ hash ++ msg) := by
  rw [nymSigProofData_eq, Buf.padTo_of_length hh]

/-- C21. The transcript of a signature as the signer of type `st` builds it. -/
theorem C21_signer_transcript (st : SigType) (label : Bytes) (n : Nat) (hl : sigLabel st = .ok label)
    (hn : sigPts st = .ok n) (t1 t2 t3 aP aB bP nym : S.G1) (eid rh : Option (S.G1 × S.G1))
    (he : eid.isSome = st.hasEid) (hr : rh.isSome = st.hasRh) (hash D msg : Bytes)
    (hh : hash.length = S.scalarLen) :
    sigProofData label n 0 t1 t2 t3 aP aB bP nym eid rh [] hash D msg =
      .ok (label ++ S.g1Bytes t1 ++ S.g1Bytes t2 ++ S.g1Bytes t3 ++ S.g1Bytes aP ++ S.g1Bytes aB ++
        S.g1Bytes bP ++ S.g1Bytes nym ++ (eid.elim [] fun p => S.g1Bytes p.1 ++ S.g1Bytes p.2) ++
        (rh.elim [] fun p => S.g1Bytes p.1 ++ S.g1Bytes p.2) ++ hash ++ D ++ msg) := by
  have e : ∀ o : Option (S.G1 × S.G1), nymBytes S o = o.elim [] fun p => S.g1Bytes p.1 ++ S.g1Bytes p.2 := by
    rintro (_ | ⟨a, b⟩) <;> rfl
  rw [sigProofData_eq, Buf.padTo_of_length hh, e, e]
  rw [he, hr]
  cases st <;> simp [sigPts, sigLabel] at hn hl <;> subst hn <;> rfl

/-- C21. The transcript of a signature as the verifier builds it. -/
theorem C21_verifier_transcript (sig : Signature) (vt : VerType) (t1 t2 t3 aP aB bP nym : S.G1)
    (eid rh : Option (S.G1 × S.G1)) (he : eid.isSome = verifyEid sig vt)
    (hr : rh.isSome = verifyRh sig vt) (hash D msg : Bytes) (hh : hash.length = S.scalarLen) :
    sigProofData (verLabel (verifyEid sig vt) (verifyRh sig vt)) (verPts (verifyEid sig vt)
        (verifyRh sig vt)) 0 t1 t2 t3 aP aB bP nym eid rh [] hash D msg =
      .ok (verLabel (verifyEid sig vt) (verifyRh sig vt) ++ S.g1Bytes t1 ++ S.g1Bytes t2 ++
        S.g1Bytes t3 ++ S.g1Bytes aP ++ S.g1Bytes aB ++ S.g1Bytes bP ++ S.g1Bytes nym ++
        (eid.elim [] fun p => S.g1Bytes p.1 ++ S.g1Bytes p.2) ++
        (rh.elim [] fun p => S.g1Bytes p.1 ++ S.g1Bytes p.2) ++ hash ++ D ++ msg) := by
  have e : ∀ o : Option (S.G1 × S.G1), nymBytes S o = o.elim [] fun p => S.g1Bytes p.1 ++ S.g1Bytes p.2 := by
    rintro (_ | ⟨a, b⟩) <;> rfl
  rw [sigProofData_eq, Buf.padTo_of_length hh, e, e]
  rw [he, hr]
  cases hR : verifyRh sig vt
  · cases verifyEid sig vt <;> rfl
  · rw [verifyEid_of_rh hR]; rfl

/-- C21. The second hash input is challenge and nonce, for every transcript of a signature or pseudonym
signature (they are all longer than two scalars). -/
theorem C21_second_hash (d : Bytes) (c nonce : S.F) (h : 2 * S.scalarLen ≤ d.length) :
    secondHash d c nonce = .ok (S.zrBytes c ++ S.zrBytes nonce) := secondHash_eq d c nonce h

example : sigProofData (S := Toy.suite) signLabel 7 0 (1 : Toy.K) (2 : Toy.K) (3 : Toy.K) (4 : Toy.K)
    (5 : Toy.K) (6 : Toy.K) (0 : Toy.K) none none [] [5] [0, 1] [9, 9] =
    .ok (signLabel ++ [1, 2, 3, 4, 5, 6, 0, 5, 0, 1, 9, 9]) := by decide

end Idemix.Dlog
