import Verif.Aries.PropsMeta

/-!
# C13, C15, C18 for the aries scheme: verification types, audits, pseudonyms
-/

namespace Idemix.Aries

open Bbs
open Dlog (SigType VerType AuditData SignerMetadata AuditType)

variable {S : Suite} (L : Lib S)

/-! ## C13 -/

/-- The commitment `raw` to the attribute whose generator is at `j` was checked with the challenge `c`: it decodes to a
point, and so does its proof; the second response of that proof is the response number `idx` of the main proof; and the
responses, followed by the challenge, combine the blinding generator, the generator of the attribute and the point to
the first message of the proof. -/
def Spec.Checked (pk : PKG S) (main : SigProof S) (raw proof : Bytes) (j : Nat) (idx : Int) (c : S.F) : Prop :=
  ∃ P q h x, S.g1OfBytes raw = some P ∧ parseProofG1 S proof = .ok q ∧ pk.h[j]? = some h ∧ q.responses[1]? = some x ∧
    0 ≤ idx ∧ main.vc2.responses[idx.toNat]? = some x ∧ 2 ≤ q.responses.length ∧
    S.lin (q.responses ++ [c]) [pk.h0, h, P] = q.commitment

/-- The challenge that verification recomputes for the signature types with a smart card: `te` is the first message of the
proof for the enrollment identifier, if there is any; the secret key counts as revealed. -/
def Spec.cardSignChallenge (w : S.G2) (n : Nat) (sig : Signature) (p : SigProof S) (rs : List Nat) (te : Option S.G1)
    (msg : Bytes) : S.F :=
  let label := if te.isSome then signWithSmartcardLabel else signWithSmartcardNoNymsLabel
  let main := S.g1Bytes p.aBar ++ S.g1Bytes p.aPrime ++ S.g1Bytes (Bbs.Spec.generator w (n + 1) 0) ++
    S.g1Bytes p.vc1.commitment ++ S.g1Bytes p.d ++ S.g1Bytes (Bbs.Spec.generator w (n + 1) 0) ++
    ((Bbs.Spec.unshown (0 :: rs) (Bbs.Spec.generators w (n + 1))).map S.g1Bytes).flatten ++ S.g1Bytes p.vc2.commitment
  let eid := match te with
    | some t => sig.nymEid ++ S.g1Bytes t
    | none => []
  let c := frFromOKM L (label ++ main ++ sig.nym ++ eid ++ S.zrBytes (frFromOKM L msg))
  frFromOKM L (S.zrBytes c ++ sig.nonce)

variable {L}

theorem cardSignChallenge_eq {w : S.G2} {n : Nat} {sig : Signature} {v : VerType} {m : Nat} {P : Parsed S} {msg : Bytes} {c : S.F}
    (hv : v = .expectSmartcard ∨ v = .expectSmartcardNoNyms) (hp : parseParts S sig v m = .ok P)
    (h : verChallenge L (pkg w (n + 1)) sig v msg P = .ok c) :
    c = Spec.cardSignChallenge L w n sig P.sp P.rev (P.eid.map (·.1.commitment)) msg := by
  obtain ⟨_, _, _, _, _, hn, he, hr⟩ := parseParts_ok hp
  have se := onlyIf_isSome he
  have hcard : cardVer v = true := by rcases hv with rfl | rfl <;> rfl
  have hrh : P.rh = none := by
    have : wantRh sig v = false := by rcases hv with rfl | rfl <;> simp [wantRh]
    rw [this] at hr; exact (Res.ok.inj hr).symm
  have hnp : P.nymProof = none := by
    rw [hcard] at hn; exact (Res.ok.inj hn).symm
  have hl : verLabel sig v = (if (P.eid.map (·.1.commitment)).isSome then signWithSmartcardLabel
      else signWithSmartcardNoNymsLabel) := by
    rw [Option.isSome_map, se]
    rcases hv with rfl | rfl <;> simp [verLabel, wantEid, wantRh]
  have hce : ∀ (raw : Bytes) (o : Option (ProofG1 S × S.G1)), commBytes raw o = (match o.map (·.1.commitment) with
      | some t => raw ++ S.g1Bytes t
      | none => []) := by
    intro raw o
    cases o <;> rfl
  have hun : ∀ {α : Type} (xs : List α), Bbs.Spec.unshown (if 0 ∈ P.rev then P.rev else 0 :: P.rev) xs =
      Bbs.Spec.unshown (0 :: P.rev) xs := by
    intro α xs
    rw [unshown_eq, unshown_eq]
    apply keepHidden_ext
    intro j _
    split
    · rename_i h0
      simp only [List.mem_cons]
      constructor
      · exact .inr
      · rintro (rfl | h)
        · exact h0
        · exact h
    · rfl
  simp only [verChallenge, SigProof.bytesForChallenge, Res.bind_eq_ok, Res.pure_def, Res.ok.injEq,
    revealedForChallenge, hcard] at h
  obtain ⟨_, ⟨_, _, rfl⟩, rfl⟩ := h
  simp only [Spec.cardSignChallenge, withNonce, nonceBytes, hl, hce, hnp, hrh, nymProofBytes, Option.map_none, Option.getD_none,
    hiddenGens_eq, ← unshown_eq, hun, List.append_nil]
  rfl

theorem checked_of {pk : PKG S} {sp : SigProof S} {b : Bool} {raw proof : Bytes} {o : Option (ProofG1 S × S.G1)}
    {j : Nat} {i resp : Int} {c : S.F} (hi : i = j) (hb : b = true) (hp : onlyIf b (parseComm S proof raw) = .ok o)
    (h : checkAttrComm pk sp o i resp c = .ok ()) : Spec.Checked pk sp raw proof j resp c := by
  subst hb hi
  have h' : ((parseComm S proof raw) >>= fun y => Res.ok (some y)) = .ok o := hp
  rw [Res.bind_eq_ok] at h'
  obtain ⟨⟨q, P⟩, h1, h2⟩ := h'
  cases h2
  simp only [parseComm, Res.bind_eq_ok, Res.ofOption_eq_ok, Res.pure_def, Res.ok.injEq, Prod.mk.injEq] at h1
  obtain ⟨q', hq, P', hP, rfl, rfl⟩ := h1
  simp only [checkAttrComm, checkComm, Res.bind_eq_ok, Res.guardErr_eq_ok, decide_eq_false_iff_not, not_not, Res.index_nat,
    Res.deref_eq_ok] at h
  obtain ⟨a, u, b, w, _, rfl, H, hH, v⟩ := h
  obtain ⟨_, u⟩ := Res.index_eq_ok.mp u
  obtain ⟨w0, w⟩ := Res.index_eq_ok.mp w
  rw [ProofG1.verify_ok_iff] at v
  exact ⟨P', q', H, a, hP, hq, hH, u, w0, w, by simpa using v.1, v.2⟩

variable (L)

/-- The signatures and verification types for which the commitment to the revocation handle counts. -/
def Spec.UsesRh (sig : Signature) (v : VerType) : Prop := v = .expectEidNymRhNym ∨ (v = .bestEffort ∧ sig.nymRh ≠ [])

/-- The signatures and verification types for which the commitment to the enrollment identifier counts. -/
def Spec.UsesEid (sig : Signature) (v : VerType) : Prop :=
  v = .expectEidNym ∨ v = .expectEidNymRhNym ∨ v = .expectSmartcard ∨
    (v = .bestEffort ∧ (sig.nymEid ≠ [] ∨ sig.nymRh ≠ []))

/-- `t` is the first message of a proof that is hashed if it is `used`. -/
def Spec.First (S : Suite) (used : Prop) (proof : Bytes) (t : Option S.G1) : Prop :=
  (used ∧ ∃ q, parseProofG1 S proof = .ok q ∧ t = some q.commitment) ∨ (¬ used ∧ t = none)

variable {L}

theorem wantRh_iff (sig : Signature) (v : VerType) : wantRh sig v = true ↔ Spec.UsesRh sig v := by
  simp [wantRh, Spec.UsesRh, or_comm]

theorem wantEid_iff (sig : Signature) (v : VerType) : wantEid sig v = true ↔ Spec.UsesEid sig v := by
  simp only [wantEid, wantRh, Spec.UsesEid, Bool.or_eq_true, Bool.and_eq_true, decide_eq_true_eq, Bool.not_eq_true',
    List.isEmpty_eq_false_iff]
  tauto

theorem first_of {used : Prop} {b : Bool} {raw proof : Bytes} {o : Option (ProofG1 S × S.G1)} (hb : b = true ↔ used)
    (hp : onlyIf b (parseComm S proof raw) = .ok o) : Spec.First S used proof (o.map (·.1.commitment)) := by
  cases b with
  | false =>
    refine .inr ⟨by rw [← hb]; simp, ?_⟩
    rw [← Res.ok.inj hp]; rfl
  | true =>
    refine .inl ⟨hb.mp rfl, ?_⟩
    have h' : ((parseComm S proof raw) >>= fun y => Res.ok (some y)) = .ok o := hp
    rw [Res.bind_eq_ok] at h'
    obtain ⟨⟨q, P⟩, h1, h2⟩ := h'
    cases h2
    simp only [parseComm, Res.bind_eq_ok, Res.ofOption_eq_ok, Res.pure_def, Res.ok.injEq, Prod.mk.injEq] at h1
    obtain ⟨q', hq, P', hP, rfl, rfl⟩ := h1
    exact ⟨q', hq, rfl⟩

variable (L)

/-- C13, for the aries scheme: what acceptance with each verification type says about the commitments in the
signature. They are absent, or present; and each that counts for the verification type was checked with the challenge
recomputed from the signature, as was the pseudonym if no smart card is involved. -/
theorem C13_aries_verification_types (ipk : IPK S) (w : S.G2) (n : Nat) (hkey : Spec.IsKey ipk w n) (raw msg : Bytes)
    (attributes : List IdemixAttribute) (rh eid k : Nat) (v : VerType) (md : Option (SignerMetadata S))
    (acc : verify L (.val ipk) raw msg attributes rh eid k v md = .ok ()) :
    ∃ sig count rev main c te tr, Wire.sigCodec.unmarshal raw = .ok sig ∧
      parsePoKPayload sig.main = .ok (count, rev) ∧
      parseSignatureProof S (sig.main.drop (2 + count / 8 + 1)) = .ok main ∧
      Spec.First S (Spec.UsesEid sig v) sig.nymEidProof te ∧ Spec.First S (Spec.UsesRh sig v) sig.nymRhProof tr ∧
      (Spec.NoCard v → Spec.Checked ipk.pkg main sig.nym sig.nymProof k (2 + k) c ∧
        ∃ q, parseProofG1 S sig.nymProof = .ok q ∧ c = Spec.signChallenge L w n sig main rev q.commitment te tr msg) ∧
      (v = .expectSmartcard ∨ v = .expectSmartcardNoNyms → c = Spec.cardSignChallenge L w n sig main rev te msg) ∧
      (v = .expectStandard ∨ v = .expectSmartcardNoNyms →
        sig.nymEid = [] ∧ sig.nymEidProof = [] ∧ sig.nymRh = [] ∧ sig.nymRhProof = []) ∧
      (v = .expectEidNym ∨ v = .expectEidNymRhNym → sig.nymEid ≠ [] ∧ sig.nymEidProof ≠ []) ∧
      (v = .expectEidNymRhNym → sig.nymRh ≠ [] ∧ sig.nymRhProof ≠ []) ∧
      (Spec.UsesEid sig v → Spec.Checked ipk.pkg main sig.nymEid sig.nymEidProof (Spec.slot k eid) sig.nymEidIdx c) ∧
      (Spec.UsesRh sig v → Spec.Checked ipk.pkg main sig.nymRh sig.nymRhProof (Spec.slot k rh) sig.nymRhIdx c) := by
  rw [isKey_iff] at hkey
  subst hkey
  obtain ⟨sig, ms, P, c, a1, a2, a3, a4, a5, a6, a7, a8, a9, a10, a11, a12⟩ := verify_ok L acc
  obtain ⟨count, e1, e2, e3, e4, e5, e6, e7⟩ := parseParts_ok a5
  simp only [checkPresence, Res.bind_eq_ok, Res.guardErr_eq_ok] at a3
  obtain ⟨_, h1, _, h2, _, h3, _, h4, h5⟩ := a3
  refine ⟨sig, count, P.rev, P.sp, c, P.eid.map (·.1.commitment), P.rh.map (·.1.commitment), a1, e1, e2,
    first_of (wantEid_iff sig v) e6, first_of (wantRh_iff sig v) e7, ?_, ?_, ?_, ?_, ?_, ?_, ?_⟩
  · intro hv
    rw [noCard hv] at e5
    have h' : ((parseProofG1 S sig.nymProof) >>= fun y => Res.ok (some y)) = .ok P.nymProof := e5
    rw [Res.bind_eq_ok] at h'
    obtain ⟨pn, hq, hn⟩ := h'
    have hn := (Res.ok.inj hn).symm
    refine ⟨?_, pn, hq, verChallenge_eq L hv a5 hn a6⟩
    rw [hn] at a9
    refine checked_of (b := true) (o := some (pn, P.nym)) rfl rfl ?_ a9
    simp [onlyIf, parseComm, hq, e4, Res.bind]
  · intro hv
    exact cardSignChallenge_eq hv a5 a6
  · intro hv
    have hd : (decide (v = .expectStandard) || decide (v = .expectSmartcardNoNyms)) = true := by
      simpa using hv
    rw [hd] at h4 h5
    simp only [Bool.true_and, Bool.or_eq_false_iff, Bool.not_eq_false', List.isEmpty_iff] at h4 h5
    exact ⟨h5.1, h5.2, h4.1, h4.2⟩
  · intro hv
    rcases hv with rfl | rfl
    · simpa [List.isEmpty_iff] using h1
    · simpa [List.isEmpty_iff] using h2
  · intro hv
    subst hv
    simpa [List.isEmpty_iff] using h3
  · intro hv
    exact checked_of (shiftIndex_slot k eid) ((wantEid_iff sig v).mpr hv) e6 a10
  · intro hv
    exact checked_of (shiftIndex_slot k rh) ((wantRh_iff sig v).mpr hv) e7 a11

open Ex in
set_option maxRecDepth 40000 in
/-- The signature of the example is accepted for the types that its commitment fits, and for no other. -/
example : Spec.IsKey ipk2 (publicKey (S := S32) (2 : Toy.K)) 2 ∧
    verify L32 (.val ipk2) (sample [9]) [9] shown2 (0 : Nat) (1 : Nat) (0 : Nat) .expectEidNym none = .ok () ∧
    verify L32 (.val ipk2) (sample [9]) [9] shown2 0 1 0 .bestEffort none = .ok () ∧
    verify L32 (.val ipk2) (sample [9]) [9] shown2 0 1 0 .expectStandard none =
      .err "EidNym available but ExpectStandard required" ∧
    verify L32 (.val ipk2) (sample [9]) [9] shown2 0 1 0 .expectEidNymRhNym none =
      .err "no RhNym provided but ExpectEidNymRhNym required" := by
  refine ⟨(isKey_iff _ _ _).mpr rfl, by decide, by decide, by decide, by decide⟩

/-! ## C15 -/

/-- The commitment that an audit of the enrollment identifier is about: the one in the signature, or the bytes passed. -/
def Spec.AuditedEid (S : Suite) (raw : Bytes) (t : AuditType) (P : S.G1) : Prop :=
  (t = .expectSignature ∧ ∃ sig, Wire.sigCodec.unmarshal raw = .ok sig ∧ S.g1OfBytes sig.nymEid = some P) ∨
  ((t = .expectEidNym ∨ t = .expectEidNymRhNym) ∧ S.g1OfBytes raw = some P)

/-- See `AuditedEid`. -/
def Spec.AuditedRh (S : Suite) (raw : Bytes) (t : AuditType) (P : S.G1) : Prop :=
  (t = .expectSignature ∧ ∃ sig, Wire.sigCodec.unmarshal raw = .ok sig ∧ S.g1OfBytes sig.nymRh = some P) ∨
  (t = .expectEidNymRhNym ∧ S.g1OfBytes raw = some P)

theorem auditTarget_ok {field : Signature → Bytes} {direct : AuditType → Bool} {raw : Bytes} {t : AuditType} {P : S.G1}
    (hd : direct .expectSignature = false) :
    auditTarget S field direct raw t = .ok P ↔
      (t = .expectSignature ∧ ∃ sig, Wire.sigCodec.unmarshal raw = .ok sig ∧ S.g1OfBytes (field sig) = some P) ∨
      (direct t = true ∧ S.g1OfBytes raw = some P) := by
  simp only [auditTarget]
  split
  · rename_i h
    subst h
    simp [Res.bind_eq_ok, Res.ofOption_eq_ok, hd]
  · rename_i h
    cases hdt : direct t <;> simp [h, Res.ofOption_eq_ok]

theorem auditOpen_ok {pk : PKG S} {i k : Nat} {value : Bytes} {r : S.F} {P : S.G1} :
    auditOpen L pk i k value r P = .ok () ↔
      ∃ h, pk.h[Spec.slot k i]? = some h ∧ P = frFromOKM L value • h + r • pk.h0 := by
  simp only [auditOpen, shiftIndex_slot, Res.bind_eq_ok, Res.index_nat, Res.deref_eq_ok, Res.guardErr_eq_ok,
    decide_eq_false_iff_not, ne_eq, not_not]
  constructor
  · rintro ⟨h, h1, h2⟩; exact ⟨h, h1, h2.symm⟩
  · rintro ⟨h, h1, h2⟩; exact ⟨h, h1, h2.symm⟩

/-- C15, for the aries scheme: an audit of the enrollment identifier succeeds exactly if the commitment is the one formed
from the identifier and the randomness, with the generator of the attribute. -/
theorem C15_aries_eid_exact (ipk : IPK S) (eid k : Nat) (raw id : Bytes) (r : S.F) (t : AuditType) :
    auditNymEid L (.val ipk) eid k raw id r t = .ok () ↔
      ∃ P h, Spec.AuditedEid S raw t P ∧ ipk.pkg.h[Spec.slot k eid]? = some h ∧
        P = frFromOKM L id • h + r • ipk.pkg.h0 := by
  simp only [auditNymEid, Dyn.get_val, Res.ok_bind, Res.bind_eq_ok, auditOpen_ok,
    auditTarget_ok (direct := fun t => decide (t = AuditType.expectEidNym) || decide (t = AuditType.expectEidNymRhNym)) rfl]
  simp only [Bool.or_eq_true, decide_eq_true_eq, Spec.AuditedEid]
  constructor
  · rintro ⟨P, h1, h, h2, h3⟩; exact ⟨P, h, h1, h2, h3⟩
  · rintro ⟨P, h, h1, h2, h3⟩; exact ⟨P, h1, h, h2, h3⟩

/-- C15, for the aries scheme and the revocation handle. -/
theorem C15_aries_rh_exact (ipk : IPK S) (rh k : Nat) (raw handle : Bytes) (r : S.F) (t : AuditType) :
    auditNymRh L (.val ipk) rh k raw handle r t = .ok () ↔
      ∃ P h, Spec.AuditedRh S raw t P ∧ ipk.pkg.h[Spec.slot k rh]? = some h ∧
        P = frFromOKM L handle • h + r • ipk.pkg.h0 := by
  simp only [auditNymRh, Dyn.get_val, Res.ok_bind, Res.bind_eq_ok, auditOpen_ok,
    auditTarget_ok (direct := fun t => decide (t = AuditType.expectEidNymRhNym)) rfl]
  simp only [decide_eq_true_eq, Spec.AuditedRh]
  constructor
  · rintro ⟨P, h1, h, h2, h3⟩; exact ⟨P, h, h1, h2, h3⟩
  · rintro ⟨P, h, h1, h2, h3⟩; exact ⟨P, h1, h, h2, h3⟩

/-- C15, for the aries scheme: the openings with which a signature verifies pass the audits. Let a signature be accepted with
metadata, under a verification type that asks for a commitment to the enrollment identifier. If the metadata contain an
opening with the value of `id`, then an audit of the signature for `id` with the randomness of the opening succeeds. The
same holds for the revocation handle. -/
theorem C15_aries_openings_audit (ipk : IPK S) (raw msg : Bytes) (attributes : List IdemixAttribute) (rh eid k : Nat)
    (v : VerType) (m : SignerMetadata S) (acc : verify L (.val ipk) raw msg attributes rh eid k v (some m) = .ok ()) :
    (v = .expectEidNym ∨ v = .expectEidNymRhNym ∨ v = .expectSmartcard → ∀ d id, m.eidNymAuditData = some d →
      d.attr = frFromOKM L id → auditNymEid L (.val ipk) eid k raw id d.rand .expectSignature = .ok ()) ∧
    (v = .expectEidNymRhNym → ∀ d handle, m.rhNymAuditData = some d → d.attr = frFromOKM L handle →
      auditNymRh L (.val ipk) rh k raw handle d.rand .expectSignature = .ok ()) := by
  obtain ⟨sig, ms, p, c, h1, h2, h3, h4, h5, h6, h7, h8, h9, h10, h11, h12⟩ := verify_iff.mp acc
  obtain ⟨-, -, -, -, -, -, pe, pr⟩ := parseParts_ok h5
  constructor
  · intro hv d id hd ha
    rw [C15_aries_eid_exact]
    rcases onlyIf_comm pe with ⟨h', -⟩ | ⟨-, q, P', e1, e2⟩
    · rcases hv with rfl | rfl | rfl <;> simp [wantEid] at h'
    · rw [e1] at h7
      obtain ⟨⟨h, b1, b2⟩, -⟩ := ((audit_ok _ _ _ _ _ _).mp h7).1 d hd
      exact ⟨P', h, .inl ⟨rfl, sig, h1, e2⟩, b1, ha ▸ b2⟩
  · intro hv d id hd ha
    rw [C15_aries_rh_exact]
    rcases onlyIf_comm pr with ⟨h', -⟩ | ⟨-, q, P', e1, e2⟩
    · subst hv; simp [wantRh] at h'
    · rw [e1] at h8
      obtain ⟨⟨h, b1, b2⟩, -⟩ := ((audit_ok _ _ _ _ _ _).mp h8).1 d hd
      exact ⟨P', h, .inl ⟨rfl, sig, h1, e2⟩, b1, ha ▸ b2⟩

theorem Spec.AuditedEid.unique {raw : Bytes} {t : AuditType} {P Q : S.G1} (h₁ : Spec.AuditedEid S raw t P)
    (h₂ : Spec.AuditedEid S raw t Q) : P = Q := by
  rcases h₁ with ⟨rfl, sig, a, b⟩ | ⟨ht, b⟩ <;> rcases h₂ with ⟨ht', sig', a', b'⟩ | ⟨ht', b'⟩
  · rw [a] at a'; cases a'
    rw [b] at b'; cases b'; rfl
  · rcases ht' with h | h <;> cases h
  · subst ht'; rcases ht with h | h <;> cases h
  · rw [b] at b'; cases b'; rfl

theorem Spec.AuditedRh.unique {raw : Bytes} {t : AuditType} {P Q : S.G1} (h₁ : Spec.AuditedRh S raw t P)
    (h₂ : Spec.AuditedRh S raw t Q) : P = Q := by
  rcases h₁ with ⟨rfl, sig, a, b⟩ | ⟨ht, b⟩ <;> rcases h₂ with ⟨ht', sig', a', b'⟩ | ⟨ht', b'⟩
  · rw [a] at a'; cases a'
    rw [b] at b'; cases b'; rfl
  · cases ht'
  · subst ht'; cases ht
  · rw [b] at b'; cases b'; rfl

theorem two_openings {x y r₁ r₂ : S.F} {h h0 : S.G1} (e : x • h + r₁ • h0 = y • h + r₂ • h0) (hxy : x ≠ y) :
    h = ((r₂ - r₁) * (x - y)⁻¹) • h0 := by
  have hd : x - y ≠ 0 := sub_ne_zero.mpr hxy
  have e' : (x - y) • h = (r₂ - r₁) • h0 := by linear_combination (norm := module) (1 : S.F) • e
  have : h = (x - y)⁻¹ • ((x - y) • h) := by rw [smul_smul, inv_mul_cancel₀ hd, one_smul]
  rw [this, e', smul_smul, mul_comm]

/-- C15, for the aries scheme: if one commitment passes the audit for two identifiers then these hash to the same scalar,
or the generator of the attribute is a known multiple of the blinding generator. -/
theorem C15_aries_eid_binding (ipk : IPK S) (eid k : Nat) (raw id₁ id₂ : Bytes) (r₁ r₂ : S.F) (t : AuditType)
    (h₁ : auditNymEid L (.val ipk) eid k raw id₁ r₁ t = .ok ())
    (h₂ : auditNymEid L (.val ipk) eid k raw id₂ r₂ t = .ok ()) :
    frFromOKM L id₁ = frFromOKM L id₂ ∨ ∃ h, ipk.pkg.h[Spec.slot k eid]? = some h ∧
      h = ((r₂ - r₁) * (frFromOKM L id₁ - frFromOKM L id₂)⁻¹) • ipk.pkg.h0 := by
  obtain ⟨P, h, a1, a2, a3⟩ := (C15_aries_eid_exact L _ _ _ _ _ _ _).mp h₁
  obtain ⟨Q, h', b1, b2, b3⟩ := (C15_aries_eid_exact L _ _ _ _ _ _ _).mp h₂
  cases a1.unique b1
  rw [a2] at b2; cases b2
  by_cases he : frFromOKM L id₁ = frFromOKM L id₂
  · exact .inl he
  · exact .inr ⟨h, a2, two_openings (a3.symm.trans b3) he⟩

/-- C15, for the aries scheme and the revocation handle: see `C15_aries_eid_binding`. -/
theorem C15_aries_rh_binding (ipk : IPK S) (rh k : Nat) (raw handle₁ handle₂ : Bytes) (r₁ r₂ : S.F) (t : AuditType)
    (h₁ : auditNymRh L (.val ipk) rh k raw handle₁ r₁ t = .ok ())
    (h₂ : auditNymRh L (.val ipk) rh k raw handle₂ r₂ t = .ok ()) :
    frFromOKM L handle₁ = frFromOKM L handle₂ ∨ ∃ h, ipk.pkg.h[Spec.slot k rh]? = some h ∧
      h = ((r₂ - r₁) * (frFromOKM L handle₁ - frFromOKM L handle₂)⁻¹) • ipk.pkg.h0 := by
  obtain ⟨P, h, a1, a2, a3⟩ := (C15_aries_rh_exact L _ _ _ _ _ _ _).mp h₁
  obtain ⟨Q, h', b1, b2, b3⟩ := (C15_aries_rh_exact L _ _ _ _ _ _ _).mp h₂
  cases a1.unique b1
  rw [a2] at b2; cases b2
  by_cases he : frFromOKM L handle₁ = frFromOKM L handle₂
  · exact .inl he
  · exact .inr ⟨h, a2, two_openings (a3.symm.trans b3) he⟩

/-- C15 is violated by the aries scheme where the property asks for an error: an attribute index out of range panics, as
soon as the commitment to audit can be decoded. -/
theorem C15_aries_index_violated (ipk : IPK S) (eid k : Int) (raw id : Bytes) (r : S.F) (P : S.G1)
    (hraw : S.g1OfBytes raw = some P) (hi : eid < -1 ∨ (ipk.pkg.h.length : Int) ≤ eid) :
    auditNymEid L (.val ipk) eid k raw id r .expectEidNym = .panic := by
  have : Res.index ipk.pkg.h (shiftIndex eid k) = .panic := by
    have hs : shiftIndex eid k < 0 ∨ (ipk.pkg.h.length : Int) ≤ shiftIndex eid k := by
      simp only [shiftIndex]
      split <;> omega
    rcases hs with hs | hs
    · rw [Res.index, if_pos hs]
    · rw [Res.index, if_neg (by omega), List.getElem?_eq_none (by omega)]
      rfl
  simp [auditNymEid, auditTarget, hraw, auditOpen, this]

open Ex in
set_option maxRecDepth 40000 in
/-- The audit of the sample, for the identifier 5 and the randomness of the commitment; and for an index too large. -/
example : frFromOKM L32 [5] = (5 : Toy.K) ∧
    auditNymEid L32 (.val ipk2) (1 : Nat) (0 : Nat) (sample [9]) [5] (2 : Toy.K) .expectSignature = .ok () ∧
    auditNymEid L32 (.val ipk2) (1 : Nat) (0 : Nat) (sampleSig [9]).nymEid [5] (2 : Toy.K) .expectEidNym = .ok () ∧
    auditNymEid L32 (.val ipk2) (1 : Nat) (0 : Nat) (sample [9]) [5] (3 : Toy.K) .expectSignature =
      .err "nym does not match" ∧
    auditNymEid L32 (.val ipk2) (1 : Nat) (0 : Nat) (sample [9]) [6] (2 : Toy.K) .expectSignature =
      .err "nym does not match" ∧
    auditNymEid L32 (.val ipk2) 3 0 (sampleSig [9]).nymEid [5] (2 : Toy.K) .expectEidNym = .panic := by
  decide

open Ex in
set_option maxRecDepth 40000 in
/-- The openings with which the sample verifies pass the audit: C15_aries_openings_audit applies. An audit of a commitment
to a revocation handle. -/
example : verify L32 (.val ipk2) (sample [9]) [9] shown2 (0 : Nat) (1 : Nat) (0 : Nat) .expectEidNym
      (some ⟨some ⟨none, (2 : Toy.K), frFromOKM L32 [5]⟩, none, [], []⟩) = .ok () ∧
    auditNymRh L32 (.val ipk2) (1 : Nat) (0 : Nat) (sampleSig [9]).nymEid [5] (2 : Toy.K) .expectEidNymRhNym = .ok () ∧
    auditNymRh L32 (.val ipk2) (1 : Nat) (0 : Nat) (sampleSig [9]).nymEid [12] (2 : Toy.K) .expectEidNymRhNym = .ok () ∧
    auditNymRh L32 (.val ipk2) (1 : Nat) (0 : Nat) (sampleSig [9]).nymEid [6] (2 : Toy.K) .expectEidNymRhNym =
      .err "nym does not match" := by
  decide

/-! ## C18 -/

/-- C18, for the aries scheme: pseudonyms hide the secret key. -/
theorem C18_aries_nym_hides_user (ipk : IPK S) (k : Nat) (hk : k < ipk.pkg.h.length) (hne : ipk.pkg.h0 ≠ 0)
    (sk₁ sk₂ r₁ : S.F) :
    ∃ nym, makeNym sk₁ (.val ipk) k r₁ = .ok (nym, r₁) ∧ ∃! r₂ : S.F, makeNym sk₂ (.val ipk) k r₂ = .ok (nym, r₂) := by
  have e : ∀ sk r : S.F, makeNym sk (.val ipk) k r = .ok (r • ipk.pkg.h0 + sk • ipk.pkg.h[k], r) := by
    intro sk r
    simp only [makeNym, Dyn.get_val, Res.ok_bind, Res.index_nat, List.getElem?_eq_getElem hk, Res.deref_some]
    rw [build_eq (by simp) (by simp)]
    simp
  simp only [e, Res.ok.injEq, Prod.mk.injEq, and_true]
  refine ⟨_, rfl, ?_⟩
  obtain ⟨x, hx⟩ := S.g1_span hne (r₁ • ipk.pkg.h0 + sk₁ • ipk.pkg.h[k] - sk₂ • ipk.pkg.h[k])
  refine ⟨x, ?_, ?_⟩
  · beta_reduce; rw [← hx]; abel
  · intro y hy
    apply S.smul_left_inj hne
    rw [← hx, ← hy]; abel

open Ex in
set_option maxRecDepth 40000 in
example : 0 < ipk2.pkg.h.length ∧ ipk2.pkg.h0 ≠ 0 := by decide

end Idemix.Aries
