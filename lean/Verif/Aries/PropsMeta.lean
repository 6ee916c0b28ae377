import Verif.Aries.PropsExtract

/-!
# C16 for the aries scheme: what the verifier checks of supplied metadata
-/

namespace Idemix.Aries

open Bbs
open Dlog (SigType VerType AuditData SignerMetadata)

variable {S : Suite} (L : Lib S)

/-- Metadata `ad`, `raw` of a commitment agrees with the point `P`: the audit data, if there is any, opens `P` under
the generator of the attribute (counted with the secret key at `k`) and the blinding generator; the commitment in
the audit data, if any, is `P`; the serialized commitment, if not empty, decodes to `P`. -/
def Spec.MetaAgrees (pk : PKG S) (k i : Nat) (P : S.G1) (ad : Option (AuditData S)) (raw : Bytes) : Prop :=
  (∀ d, ad = some d → (∃ h, pk.h[Spec.slot k i]? = some h ∧ P = d.attr • h + d.rand • pk.h0) ∧
    ∀ n, d.nym = some n → n = P) ∧
  (raw ≠ [] → S.g1OfBytes raw = some P)

variable {L}

theorem auditBytes_ok (P : S.G1) (raw : Bytes) :
    auditBytes S P raw = .ok () ↔ (raw ≠ [] → S.g1OfBytes raw = some P) := by
  cases raw with
  | nil => simp [auditBytes]
  | cons b r => simp [auditBytes, Res.bind_eq_ok, Res.guardErr_eq_ok]

theorem audit_ok (pk : PKG S) (k i : Nat) (P : S.G1) (ad : Option (AuditData S)) (raw : Bytes) :
    (do auditData pk (shiftIndex i k) P ad; auditBytes S P raw : Res Unit) = .ok () ↔
      Spec.MetaAgrees pk k i P ad raw := by
  have hd : auditData pk (shiftIndex i k) P ad = .ok () ↔ ∀ d, ad = some d →
      (∃ h, pk.h[Spec.slot k i]? = some h ∧ P = d.attr • h + d.rand • pk.h0) ∧ ∀ n, d.nym = some n → n = P := by
    rw [shiftIndex_slot]
    cases ad with
    | none => simp [auditData]
    | some d =>
      simp only [auditData, Res.bind_eq_ok, Res.index_nat, Res.deref_eq_ok, Res.guardErr_eq_ok,
        decide_eq_false_iff_not, ne_eq, not_not]
      constructor
      · rintro ⟨h, h1, _, h2, h3⟩ d' ⟨⟩
        refine ⟨⟨h, h1, h2.symm⟩, ?_⟩
        intro n hn
        rw [hn] at h3
        exact (by simpa [Res.guardErr_eq_ok] using h3 : P = n).symm
      · intro h
        obtain ⟨⟨b, h1, h2⟩, h3⟩ := h d rfl
        refine ⟨b, h1, (), h2.symm, ?_⟩
        cases hn : d.nym with
        | none => rfl
        | some n => simp [h3 n hn]
  rw [Spec.MetaAgrees, ← auditBytes_ok, ← hd]
  cases auditData pk (shiftIndex i k) P ad <;> simp [Bind.bind, Res.bind]

theorem verify_iff {ipk : IPK S} {signature msg : Bytes} {attributes : List IdemixAttribute}
    {rhIndex eidIndex skIndex : Int} {v : VerType} {md : Option (SignerMetadata S)} :
    verify L (.val ipk) signature msg attributes rhIndex eidIndex skIndex v md = .ok () ↔
    ∃ sig ms p c, Wire.sigCodec.unmarshal signature = .ok sig ∧ checkNonRev sig = .ok () ∧
      checkPresence sig v = .ok () ∧ attributesToSignatureMessage L attributes skIndex = .ok ms ∧
      parseParts S sig v ms.length = .ok p ∧ verChallenge L ipk.pkg sig v msg p = .ok c ∧
      audit ipk.pkg (shiftIndex eidIndex skIndex) p.eid md (·.eidNymAuditData) (·.eidNym) = .ok () ∧
      audit ipk.pkg (shiftIndex rhIndex skIndex) p.rh md (·.rhNymAuditData) (·.rhNym) = .ok () ∧
      checkNymProof ipk.pkg p.sp p.nymProof p.nym skIndex c = .ok () ∧
      checkAttrComm ipk.pkg p.sp p.eid (shiftIndex eidIndex skIndex) sig.nymEidIdx c = .ok () ∧
      checkAttrComm ipk.pkg p.sp p.rh (shiftIndex rhIndex skIndex) sig.nymRhIdx c = .ok () ∧
      p.sp.verify (vc2For v p.nym) c ipk.pkg (revealedForVerify v p.rev) ms = .ok () := by
  refine ⟨verify_ok L, ?_⟩
  rintro ⟨sig, ms, p, c, h1, h2, h3, h4, h5, h6, h7, h8, h9, h10, h11, h12⟩
  simp only [verify, Dyn.get_val, Res.ok_bind, h1, h2, h3, h4, h5, h6, h7, h8, h9, h10, h11, h12]

/-- A commitment that takes part in verification, as parsed. -/
theorem onlyIf_comm {b : Bool} {pr pt : Bytes} {o : Option (ProofG1 S × S.G1)}
    (h : onlyIf b (parseComm S pr pt) = .ok o) :
    (b = false ∧ o = none) ∨ (b = true ∧ ∃ q P, o = some (q, P) ∧ S.g1OfBytes pt = some P) := by
  cases b with
  | false => cases h; exact .inl ⟨rfl, rfl⟩
  | true =>
    right
    simp only [onlyIf, parseComm, Res.pure_def] at h
    have h' : (do let x ← parseProofG1 S pr; let q ← Res.ofOption "parse nym commit" (S.g1OfBytes pt)
                  Res.ok (x, q)).bind (fun y => Res.ok (some y)) = .ok o := h
    cases hp : parseProofG1 S pr <;> rw [hp] at h' <;> simp [Bind.bind, Res.bind] at h'
    cases hq : S.g1OfBytes pt <;> rw [hq] at h' <;> simp [Res.ofOption] at h'
    exact ⟨rfl, _, _, h'.symm, rfl⟩

variable (L) in
/-- C16, for aries signatures. -/
theorem C16_aries_verifier_checks_metadata (hnil : S.g1OfBytes [] = none) (ipk : IPK S) (raw msg : Bytes)
    (attributes : List IdemixAttribute) (rh eid k : Nat) (v : VerType) (sig : Signature)
    (hsig : Wire.sigCodec.unmarshal raw = .ok sig)
    (hv : v ∈ [VerType.bestEffort, .expectStandard, .expectEidNym, .expectEidNymRhNym, .expectSmartcard,
      .expectSmartcardNoNyms]) (m : SignerMetadata S) :
    verify L (.val ipk) raw msg attributes rh eid k v (some m) = .ok () ↔
      verify L (.val ipk) raw msg attributes rh eid k v none = .ok () ∧
      (∀ P, S.g1OfBytes sig.nymEid = some P → Spec.MetaAgrees ipk.pkg k eid P m.eidNymAuditData m.eidNym) ∧
      (v ≠ .expectEidNym → v ≠ .expectSmartcard → ∀ P, S.g1OfBytes sig.nymRh = some P →
        Spec.MetaAgrees ipk.pkg k rh P m.rhNymAuditData m.rhNym) := by
  have flagE : ∀ P, S.g1OfBytes sig.nymEid = some P → checkPresence sig v = .ok () → wantEid sig v = true := by
    intro P hP hc
    have hne : sig.nymEid.isEmpty = false := by
      cases h : sig.nymEid with
      | nil => rw [h, hnil] at hP; cases hP
      | cons => rfl
    simp only [List.mem_cons, List.not_mem_nil, or_false] at hv
    rcases hv with rfl | rfl | rfl | rfl | rfl | rfl
    · simp [wantEid, hne]
    · exfalso; simp [checkPresence, Res.bind_eq_ok, hne] at hc
    · simp [wantEid]
    · simp [wantEid]
    · simp [wantEid]
    · exfalso; simp [checkPresence, Res.bind_eq_ok, hne] at hc
  have flagR : v ≠ .expectEidNym → v ≠ .expectSmartcard → ∀ P, S.g1OfBytes sig.nymRh = some P →
      checkPresence sig v = .ok () → wantRh sig v = true := by
    intro n1 n2 P hP hc
    have hne : sig.nymRh.isEmpty = false := by
      cases h : sig.nymRh with
      | nil => rw [h, hnil] at hP; cases hP
      | cons => rfl
    simp only [List.mem_cons, List.not_mem_nil, or_false] at hv
    rcases hv with rfl | rfl | rfl | rfl | rfl | rfl
    · simp [wantRh, hne]
    · exfalso; simp [checkPresence, hne] at hc
    · exact absurd rfl n1
    · simp [wantRh]
    · exact absurd rfl n2
    · exfalso; simp [checkPresence, hne] at hc
  have noE : wantRh sig v = true → v ≠ .expectEidNym ∧ v ≠ .expectSmartcard := by
    intro h
    constructor <;> (rintro rfl; simp [wantRh] at h)
  constructor
  · intro h
    obtain ⟨sig', ms, p, c, h1, h2, h3, h4, h5, h6, h7, h8, h9, h10, h11, h12⟩ := verify_iff.mp h
    cases hsig.symm.trans h1
    obtain ⟨-, -, -, -, -, -, pe, pr⟩ := parseParts_ok h5
    refine ⟨verify_iff.mpr ⟨_, ms, p, c, h1, h2, h3, h4, h5, h6, ?_, ?_, h9, h10, h11, h12⟩, ?_, ?_⟩
    · cases p.eid <;> rfl
    · cases p.rh <;> rfl
    · intro P hP
      rcases onlyIf_comm pe with ⟨h', -⟩ | ⟨-, q, P', e1, e2⟩
      · rw [flagE P hP h3] at h'; cases h'
      · cases hP.symm.trans e2
        rw [e1] at h7
        exact (audit_ok _ _ _ _ _ _).mp h7
    · intro n1 n2 P hP
      rcases onlyIf_comm pr with ⟨h', -⟩ | ⟨-, q, P', e1, e2⟩
      · rw [flagR n1 n2 P hP h3] at h'; cases h'
      · cases hP.symm.trans e2
        rw [e1] at h8
        exact (audit_ok _ _ _ _ _ _).mp h8
  · rintro ⟨h, hE, hR⟩
    obtain ⟨sig', ms, p, c, h1, h2, h3, h4, h5, h6, h7, h8, h9, h10, h11, h12⟩ := verify_iff.mp h
    cases hsig.symm.trans h1
    obtain ⟨-, -, -, -, -, -, pe, pr⟩ := parseParts_ok h5
    refine verify_iff.mpr ⟨_, ms, p, c, h1, h2, h3, h4, h5, h6, ?_, ?_, h9, h10, h11, h12⟩
    · rcases onlyIf_comm pe with ⟨-, h'⟩ | ⟨-, q, P', e1, e2⟩
      · rw [h']; rfl
      · rw [e1]
        exact (audit_ok _ _ _ _ _ _).mpr (hE P' e2)
    · rcases onlyIf_comm pr with ⟨-, h'⟩ | ⟨hw, q, P', e1, e2⟩
      · rw [h']; rfl
      · rw [e1]
        exact (audit_ok _ _ _ _ _ _).mpr (hR (noE hw).1 (noE hw).2 P' e2)

open Ex Bbs.Ex in
set_option maxRecDepth 40000 in
example : S32.g1OfBytes [] = none ∧
    ∃ raw m, sign L32 cred2 (4 : Toy.K) (4 : Toy.K) (5 : Toy.K) (.val ipk2) shown2 [9] 0 1 cri2 .eidNym none rand2 =
      .ok (raw, some m) ∧
    verify L32 (.val ipk2) raw [9] shown2 0 1 0 .expectEidNym (some m) = .ok () ∧
    verify L32 (.val ipk2) raw [9] shown2 0 1 0 .expectEidNym none = .ok () ∧
    verify L32 (.val ipk2) raw [9] shown2 0 1 0 .expectEidNym
      (some ⟨m.eidNymAuditData.map fun d => ⟨some (d.rand + 1), d.rand, d.attr⟩, none, [], []⟩) =
        .err "does not match metadata" :=
  ⟨rfl, _, _, rfl, by decide, by decide, by decide⟩

theorem attrNym_fits {pk : PKG S} {v : S.F} {i : Nat} {ad : Option (AuditData S)} {fresh : S.F} {res : S.G1 × S.F}
    (h : attrNym pk v i ad fresh = .ok res) : ∃ b, pk.h[i]? = some b ∧ Spec.Fits pk.h0 b v ad := by
  cases ad with
  | none =>
    simp only [attrNym, Res.bind_eq_ok, Res.index_nat, Res.deref_eq_ok] at h
    obtain ⟨b, hb, -⟩ := h
    exact ⟨b, hb, by rintro _ ⟨⟩⟩
  | some a =>
    simp only [attrNym, Res.bind_eq_ok, Res.index_nat, Res.deref_eq_ok, Res.guardErr_eq_ok,
      decide_eq_false_iff_not, ne_eq, not_not] at h
    obtain ⟨_, h1, b, hb, P, hP, N, hN, _, h2, -⟩ := h
    rw [build_eq (by simp) (by simp)] at hP
    refine ⟨b, hb, ?_⟩
    rintro d ⟨⟩
    refine ⟨h1.symm, ?_⟩
    rw [hN, h2, ← Res.ok.inj hP, h1]
    simp [Suite.lin_cons]

theorem onlyIf_true {α : Type} {x : Res α} {o : Option α} (h : onlyIf true x = .ok o) : ∃ y, x = .ok y := by
  cases x with
  | ok y => exact ⟨y, rfl⟩
  | err => cases h
  | panic => cases h

variable (L) in
/-- C16, for aries signatures: metadata supplied to the signer is used only if it matches. If a signer given
metadata succeeds, then the audit data in it, for each commitment of the type, has the attribute of the credential and
the commitment to it with the supplied randomness. -/
theorem C16_aries_supplied_metadata_must_match (ipk : IPK S) (credBytes criRaw msg : Bytes) (c : Credential)
    (sk rNym : S.F) (nym : S.G1) (attributes : List IdemixAttribute) (k eid rh : Nat) (t : SigType)
    (md : SignerMetadata S) (ρ : SignRand S) (res : Bytes × Option (SignerMetadata S))
    (hc : Wire.credCodec.unmarshal credBytes = .ok c) (hk : c.skPos = k) (hkl : k ≤ c.attrs.length)
    (hs : sign L credBytes sk nym rNym (.val ipk) attributes msg rh eid criRaw t (some md) ρ = .ok res) :
    (Spec.CommitsEid t → ∀ ad, md.eidNymAuditData = some ad → ∃ a h, c.attrs[eid]? = some a ∧
      ipk.pkg.h[Spec.slot k eid]? = some h ∧ ad.attr = S.zrOfBytes a ∧
      ad.nym = some (ad.rand • ipk.pkg.h0 + S.zrOfBytes a • h)) ∧
    (t = .eidNymRhNym → ∀ ad, md.rhNymAuditData = some ad → ∃ a h, c.attrs[rh]? = some a ∧
      ipk.pkg.h[Spec.slot k rh]? = some h ∧ ad.attr = S.zrOfBytes a ∧
      ad.nym = some (ad.rand • ipk.pkg.h0 + S.zrOfBytes a • h)) := by
  have hmsgs : ∀ {pk : PKG S} {p : PoK S × List (SigMsg S)},
      getPoK c attributes sk pk t nym rNym ρ.pok = .ok p →
        p.2 = tag 0 (Spec.withSecret k sk (c.attrs.map S.zrOfBytes)) := by
    intro pk p hp
    cases hct : cardType t <;>
      (simp only [getPoK, toSignatureMessage_eq c sk k hk hkl, hct, Res.ok_bind, Res.bind_eq_ok, Res.pure_def,
        Res.ok.injEq] at hp
       obtain ⟨_, -, _, -, rfl⟩ := hp
       rfl)
  simp only [sign, Dyn.get_val, Res.ok_bind, Res.bind_eq_ok, hc] at hs
  obtain ⟨_, -, cri, -, _, -, ⟨pok, msgs⟩, hp, cn, -, mE, hmE, eo, heo, mR, hmR, ro, hro, -⟩ := hs
  have hm := hmsgs hp
  simp only at hm hmE hmR
  subst hm
  have at_ : ∀ {i : Nat} {m : SigMsg S}, Res.index (tag 0 (Spec.withSecret k sk (c.attrs.map S.zrOfBytes)))
      (shiftIndex i c.skPos) = .ok m → ∃ a, c.attrs[i]? = some a ∧ m.fr = S.zrOfBytes a := by
    intro i m h
    rw [hk, shiftIndex_slot, Res.index_nat, Res.deref_eq_ok] at h
    have h' := congrArg (Option.map (fun m : SigMsg S => m.fr)) h
    rw [← List.getElem?_map, tag_fr, withSecret_slot _ _ _ _ (by simpa using hkl), List.getElem?_map] at h'
    cases ha : c.attrs[i]? with
    | none => rw [ha] at h'; cases h'
    | some a => rw [ha] at h'; exact ⟨a, rfl, by simpa [eq_comm] using h'⟩
  have fin : ∀ {i : Nat} {m : SigMsg S} {ad : Option (AuditData S)} {f g : S.F} {y : AttrComm S},
      Res.index (tag 0 (Spec.withSecret k sk (c.attrs.map S.zrOfBytes))) (shiftIndex i c.skPos) = .ok m →
      attrCommitment ipk.pkg pok m.fr (shiftIndex i c.skPos) ad f g = .ok y →
      ∀ d, ad = some d → ∃ a h, c.attrs[i]? = some a ∧ ipk.pkg.h[Spec.slot k i]? = some h ∧
        d.attr = S.zrOfBytes a ∧ d.nym = some (d.rand • ipk.pkg.h0 + S.zrOfBytes a • h) := by
    intro i m ad f g y hm hy d hd
    obtain ⟨a, ha, hv⟩ := at_ hm
    rw [hk, shiftIndex_slot, attrCommitment, Res.bind_eq_ok] at hy
    obtain ⟨q, hq, -⟩ := hy
    obtain ⟨b, hb, hf⟩ := attrNym_fits hq
    obtain ⟨f1, f2⟩ := hf d hd
    rw [hv] at f1 f2
    exact ⟨a, b, ha, hb, f1, f2⟩
  constructor
  · intro ht ad had
    have he : eidEnabled t = true := by
      rcases ht with rfl | rfl | rfl <;> rfl
    rw [he] at heo
    obtain ⟨y, hy⟩ := onlyIf_true heo
    exact fin hmE hy ad (by simpa using had)
  · rintro rfl ad had
    obtain ⟨y, hy⟩ := onlyIf_true hro
    exact fin hmR hy ad (by simpa using had)

open Ex Bbs.Ex in
set_option maxRecDepth 40000 in
example : ∃ raw m, sign L32 cred2 (4 : Toy.K) (4 : Toy.K) (5 : Toy.K) (.val ipk2) shown2 [9] 0 1 cri2 .eidNym none rand2 =
      .ok (raw, some m) ∧
    (∃ d res, m.eidNymAuditData = some d ∧ sign L32 cred2 (4 : Toy.K) (4 : Toy.K) (5 : Toy.K) (.val ipk2) shown2 [9] 0 1
      cri2 .eidNym (some m) rand2 = .ok res) ∧
    sign L32 cred2 (4 : Toy.K) (4 : Toy.K) (5 : Toy.K) (.val ipk2) shown2 [9] 0 1 cri2 .eidNym
      (some ⟨m.eidNymAuditData.map fun d => ⟨d.nym, d.rand, d.attr + 1⟩, none, [], []⟩) rand2 =
        .err "attribute supplied in metadata differs from signed" :=
  ⟨_, _, rfl, ⟨_, _, rfl, rfl⟩, rfl⟩

end Idemix.Aries
