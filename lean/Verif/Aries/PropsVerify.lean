import Verif.Aries.PropsSign

/-!
# C40, C41: what accepted aries signatures prove
-/

namespace Idemix.Aries

open Bbs Bbs.Ex
open Dlog (SigType VerType AuditData SignerMetadata)

variable {S : Suite} (L : Lib S)

/-! ## A universal forgery -/

/-- The attribute's value has the Go type that its attribute type asks for. -/
def Spec.WellTyped (a : IdemixAttribute) : Prop :=
  (a.type = 1 → ∃ b, a.value = .bytes b) ∧ (a.type = 2 → ∃ i, a.value = .int i)

theorem attrMsgs_ok (i : Nat) (as : List IdemixAttribute) (h : ∀ a ∈ as, Spec.WellTyped a) :
    ∃ ms, attrMsgs L i as = .ok ms := by
  induction as generalizing i with
  | nil => exact ⟨[], rfl⟩
  | cons a as ih =>
    obtain ⟨ms, e⟩ := ih (i + 1) (fun b hb => h b (by simp [hb]))
    have ha := h a (by simp)
    have hf : ∃ o, attrFr L a = .ok o := by
      unfold attrFr
      by_cases h1 : a.type = 1
      · obtain ⟨b, hb⟩ := ha.1 h1
        exact ⟨_, by rw [if_pos h1, hb]⟩
      · by_cases h2 : a.type = 2
        · obtain ⟨b, hb⟩ := ha.2 h2
          exact ⟨_, by rw [if_neg h1, if_pos h2, hb]⟩
        · exact ⟨_, by rw [if_neg h1, if_neg h2]⟩
    obtain ⟨o, ho⟩ := hf
    cases o with
    | none => exact ⟨ms, by simp only [attrMsgs, ho, Res.ok_bind, e, Res.pure_def]⟩
    | some v => exact ⟨⟨v, i⟩ :: ms, by simp only [attrMsgs, ho, Res.ok_bind, e, Res.pure_def]⟩

theorem attributesToSignatureMessage_ok (as : List IdemixAttribute) (k : Nat) (hk : k ≤ as.length)
    (h : ∀ a ∈ as, Spec.WellTyped a) : ∃ ms, attributesToSignatureMessage L as k = .ok ms := by
  have g : (decide ((k : Int) < 0) || decide ((as.length : Int) < (k : Int))) = false := by
    simp; omega
  rw [attributesToSignatureMessage, g]
  simp only [Res.guardPanic_false, Res.ok_bind, Int.toNat_natCast]
  apply attrMsgs_ok
  intro a ha
  simp only [List.append_assoc, List.singleton_append, List.mem_append, List.mem_cons] at ha
  rcases ha with ha | rfl | ha
  · exact h a (List.mem_of_mem_take ha)
  · exact ⟨by simp [hiddenAttr], by simp [hiddenAttr]⟩
  · exact h a (List.mem_of_mem_drop ha)

/-- The encoding of an all-zero proof with three responses. -/
def Spec.zeroProof (S : Suite) : Bytes := S.g1Comp 0 ++ beBytes 4 3 ++ S.zrBytes 0 ++ S.zrBytes 0 ++ S.zrBytes 0

/-- A string made from the number of attributes, and the signature type, alone. -/
def Spec.forgedSignature (S : Suite) (n : Nat) (t : SigType) : Bytes :=
  Proto.encode (Wire.sig ⟨Bbs.Spec.forgery S (n + 1) (n + 1) (List.replicate ((n + 1) / 8 + 1) 0), [], S.g1Bytes 0,
    Spec.zeroProof S,
    if t = .eidNym ∨ t = .eidNymRhNym ∨ t = .smartcard then S.g1Bytes 0 else [],
    if t = .eidNym ∨ t = .eidNymRhNym ∨ t = .smartcard then Spec.zeroProof S else [], 0,
    if t = .eidNymRhNym then S.g1Bytes 0 else [], if t = .eidNymRhNym then Spec.zeroProof S else [], 0,
    [], [], 0, some ⟨0, []⟩⟩)

/-- The all-zero proof. -/
def zeroPf (S : Suite) : ProofG1 S := ⟨0, List.replicate 3 0⟩

theorem zeroProof_eq : Spec.zeroProof S = (zeroPf S).enc := by
  simp [Spec.zeroProof, zeroPf, ProofG1.enc, List.replicate]

theorem zeroPf_verify (bases : List S.G1) (h : bases.length = 2) (st : S.G1) (c : S.F) :
    (zeroPf S).verify bases st c = .ok () := by
  rw [ProofG1.verify_ok_iff]
  exact ⟨by simp [zeroPf, h], lin_zeros 3 c _ (by simp [h])⟩

theorem matches_eid {t : SigType} {v : VerType} (h : Spec.Matches t v) :
    eidEnabled t = decide (t = .eidNym ∨ t = .eidNymRhNym ∨ t = .smartcard) := by
  rcases h with ⟨rfl, _⟩ | ⟨rfl, _⟩ | ⟨rfl, _⟩ | ⟨rfl, _⟩ | ⟨rfl, _⟩ <;> rfl

theorem audit_none (pk : PKG S) (idx : Int) (p : Option (ProofG1 S × S.G1)) (d : SignerMetadata S → Option (AuditData S))
    (r : SignerMetadata S → Bytes) : audit pk idx p none d r = .ok () := by
  cases p <;> rfl

/-- **C40 (violated).** One string, made from the number of attributes alone, is accepted as a signature by the holder
of a credential: under every issuer key for that number of attributes, on every message, and for every list of
disclosed attributes, for every signature type. Nothing secret is used. (The number of responses of the proofs is not
checked; with one too many the challenge is multiplied with the wrong thing.) -/
theorem C40_violated (h32 : S.scalarLen = 32) (hg : S.g1CompLen < 2 ^ 31) (hg1 : 0 < S.g1Len) (n : Nat)
    (hn : n + 1 ≤ 65535) (t : SigType) (v : VerType) (hm : Spec.Matches t v) (ipk : IPK S) (w : S.G2)
    (hkey : Spec.IsKey ipk w n) (msg : Bytes) (attributes : List IdemixAttribute) (hlen : attributes.length = n)
    (hty : ∀ a ∈ attributes, Spec.WellTyped a) (eid rh k : Nat) (heid : eid < n) (hrh : rh < n) (hk : k ≤ n) :
    verify L (.val ipk) (Spec.forgedSignature S n t) msg attributes rh eid k v none = .ok () := by
  rw [isKey_iff] at hkey
  subst hkey
  set pk := pkg w (n + 1) with hpk
  have hpl : pk.h.length = n + 1 := by simp [hpk]
  obtain ⟨ms, hms⟩ := attributesToSignatureMessage_ok L attributes k (by omega) hty
  set sp : SigProof S := ⟨0, 0, 0, ⟨0, List.replicate 3 0⟩, ⟨0, List.replicate (2 + (n + 1) + 1) 0⟩⟩ with hsp
  have l1 : sp.vc1.enc.length = S.g1CompLen + 4 + 3 * 32 := by
    rw [ProofG1.enc_length h32]; simp [hsp, frLen]
  set bv : Bytes := List.replicate ((n + 1) / 8 + 1) 0 with hbv
  have hrev : bv.reverse = bv := by simp [hbv]
  have henc : Bbs.Spec.forgery S (n + 1) (n + 1) bv = beBytes 2 (n + 1) ++ bv.reverse ++ sp.enc := by
    rw [hrev]
    simp only [Bbs.Spec.forgery, SigProof.enc, l1]
    simp [hsp, ProofG1.enc, List.map_replicate]
  have pl : bv.length = (n + 1) / 8 + 1 := by simp [hbv]
  have hpay := parsePoKPayload_bytes (n + 1) bv sp.enc (by omega) pl
  have hnil : ((List.range (8 * ((n + 1) / 8 + 1))).filter fun i => bvBit bv i) = [] := by
    rw [List.filter_eq_nil_iff]
    intro i _
    simp [hbv, bvBit_zeros]
  rw [hnil] at hpay
  have hoff : (lenInBytes ((n + 1 : Nat) : Int)).toNat = (beBytes 2 (n + 1) ++ bv.reverse).length := by
    rw [lenInBytes_nat]; simp [pl]; omega
  have hsl2 := goSlice_mid (beBytes 2 (n + 1) ++ bv.reverse) sp.enc []
  rw [List.append_nil] at hsl2
  have hparse := parseSignatureProof_enc h32 sp [] (by simp [hsp]) (by rw [l1]; omega) (by simp [hsp]; omega)
  rw [List.append_nil] at hparse
  have hz := parseProofG1_enc h32 (zeroPf S) [] (by simp [zeroPf])
  rw [List.append_nil, ← zeroProof_eq] at hz
  have hze : (Spec.zeroProof S).isEmpty = false := by rw [zeroProof_eq]; exact enc_isEmpty h32 _
  have hme := matches_eid hm
  set sig : Signature := ⟨Bbs.Spec.forgery S (n + 1) (n + 1) bv, [], S.g1Bytes 0, Spec.zeroProof S,
    if t = .eidNym ∨ t = .eidNymRhNym ∨ t = .smartcard then S.g1Bytes 0 else [],
    if t = .eidNym ∨ t = .eidNymRhNym ∨ t = .smartcard then Spec.zeroProof S else [], 0,
    if t = .eidNymRhNym then S.g1Bytes 0 else [], if t = .eidNymRhNym then Spec.zeroProof S else [], 0,
    [], [], 0, some ⟨0, []⟩⟩ with hsig
  have hw : sig.Wire := by
    refine ⟨by simp [hsig, Proto.Int32], by simp [hsig, Proto.Int32], by simp [hsig, Proto.Int64], ?_⟩
    intro p hp
    simp only [hsig, Option.some.injEq] at hp
    subst hp
    simp [Proto.Int32]
  have hu := Wire.sigCodec_rt sig hw
  have z1 : sig.nymEid.isEmpty = !eidEnabled t := by
    rw [hme, hsig]; simp only; split <;> simp_all [point_isEmpty hg1]
  have z2 : sig.nymEidProof.isEmpty = !eidEnabled t := by
    rw [hme, hsig]; simp only; split <;> simp_all
  have z3 : sig.nymRh.isEmpty = !rhEnabled t := by
    rw [rhEnabled, hsig]; simp only; split <;> simp_all [point_isEmpty hg1]
  have z4 : sig.nymRhProof.isEmpty = !rhEnabled t := by
    rw [rhEnabled, hsig]; simp only; split <;> simp_all
  obtain ⟨f1, f2, f3, f4, f5, f6⟩ := flags hm sig z1 z2 z3 z4
  have hnr' : checkNonRev sig = .ok () := rfl
  have q1 : onlyIf (!cardType t) (parseProofG1 S sig.nymProof) = .ok (if !cardType t then some (zeroPf S) else none) :=
    onlyIf_eq _ _ _ fun _ => hz
  have q2 : onlyIf (eidEnabled t) (parseComm S sig.nymEidProof sig.nymEid) =
      .ok (if eidEnabled t then some (zeroPf S, (0 : S.G1)) else none) := by
    apply onlyIf_eq
    intro h
    rw [hme, decide_eq_true_eq] at h
    simp only [hsig, h, if_true, parseComm, hz, Res.ok_bind, Suite.g1OfBytes_g1Bytes, Res.ofOption_some, Res.pure_def]
  have q3 : onlyIf (rhEnabled t) (parseComm S sig.nymRhProof sig.nymRh) =
      .ok (if rhEnabled t then some (zeroPf S, (0 : S.G1)) else none) := by
    apply onlyIf_eq
    intro h
    rw [rhEnabled, decide_eq_true_eq] at h
    simp only [hsig, h, if_true, parseComm, hz, Res.ok_bind, Suite.g1OfBytes_g1Bytes, Res.ofOption_some, Res.pure_def]
  have hparts : parseParts S sig v ms.length = .ok ⟨[], sp, 0, if !cardType t then some (zeroPf S) else none,
      if eidEnabled t then some (zeroPf S, (0 : S.G1)) else none,
      if rhEnabled t then some (zeroPf S, (0 : S.G1)) else none⟩ := by
    have hmain : sig.main = beBytes 2 (n + 1) ++ bv.reverse ++ sp.enc := henc
    simp only [parseParts, hmain, hpay, Res.ok_bind, hoff]
    rw [List.length_append (as := beBytes 2 (n + 1) ++ bv.reverse), hsl2]
    have hn' : sig.nym = S.g1Bytes 0 := rfl
    simp only [Res.ok_bind, hparse, List.length_nil, Nat.not_lt_zero, decide_false, Res.guardErr_false, hn',
      Suite.g1OfBytes_g1Bytes, Res.ofOption_some, f1, f2, f3, q1, q2, q3, Res.pure_def]
  obtain ⟨ch, hch⟩ : ∃ ch, verChallenge L pk sig v msg ⟨[], sp, 0, if !cardType t then some (zeroPf S) else none,
      if eidEnabled t then some (zeroPf S, (0 : S.G1)) else none,
      if rhEnabled t then some (zeroPf S, (0 : S.G1)) else none⟩ = .ok ch := by
    have hl : (revealedForChallenge v []).length ≤ 1 := by
      simp only [revealedForChallenge]; cases cardVer v <;> simp
    have g3 : decide ((7 + (pk.count - ((revealedForChallenge v []).length : Int))) * (S.g1CompLen : Int) < 0) = false := by
      rw [decide_eq_false_iff_not, not_lt, hpk, pkg_count]
      apply mul_nonneg <;> omega
    simp only [verChallenge, SigProof.bytesForChallenge]
    rw [g3]
    exact ⟨_, rfl⟩
  have key : ∀ (j : Nat) (idx resp : Int), j < n + 1 → idx = j → 0 ≤ resp → resp < n + 4 →
      checkComm pk sp (zeroPf S) 0 idx resp ch = .ok () := by
    intro j idx resp hj hi h0 h1
    subst hi
    obtain ⟨m, rfl⟩ := Int.eq_ofNat_of_zero_le h0
    have r1 : Res.index (zeroPf S).responses 1 = .ok 0 := rfl
    have r2 : Res.index sp.vc2.responses ((m : Nat) : Int) = .ok 0 := by
      rw [Res.index_nat]
      simp only [hsp, List.getElem?_replicate]
      rw [if_pos (by omega)]
      rfl
    rw [checkComm, r1, r2, Res.index_nat, List.getElem?_eq_getElem (by omega)]
    simp only [Res.ok_bind, ne_eq, not_true_eq_false, decide_false, Res.guardErr_false, Res.deref_some]
    exact zeroPf_verify _ rfl _ _
  have slot_lt : ∀ i, i < n → Spec.slot k i < n + 1 := by
    intro i hi; simp only [Spec.slot]; split <;> omega
  have b1 : checkNymProof pk sp (if !cardType t then some (zeroPf S) else none) 0 k ch = .ok () := by
    cases cardType t with
    | true => rfl
    | false => exact key k _ _ (by omega) rfl (by omega) (by omega)
  have b2 : checkAttrComm pk sp (if eidEnabled t then some (zeroPf S, (0 : S.G1)) else none) (shiftIndex eid k)
      sig.nymEidIdx ch = .ok () := by
    cases eidEnabled t with
    | false => rfl
    | true => exact key (Spec.slot k eid) _ _ (slot_lt eid heid) (shiftIndex_slot k eid) (by simp [hsig]) (by simp [hsig]; omega)
  have b3 : checkAttrComm pk sp (if rhEnabled t then some (zeroPf S, (0 : S.G1)) else none) (shiftIndex rh k)
      sig.nymRhIdx ch = .ok () := by
    cases rhEnabled t with
    | false => rfl
    | true => exact key (Spec.slot k rh) _ _ (slot_lt rh hrh) (shiftIndex_slot k rh) (by simp [hsig]) (by simp [hsig]; omega)
  have hver : sp.verify (vc2For v 0) ch pk (revealedForVerify v []) ms = .ok () := by
    have hrn : revealedForVerify v [] = [] := by simp only [revealedForVerify]; cases cardVer v <;> rfl
    rw [hrn, sigProof_verify_ok_iff]
    refine ⟨by simp [hsp], zeroPf_verify _ rfl _ _, ?_⟩
    have big : ∀ (Ps : List S.G1) st, Ps.length ≤ 2 + (n + 1) → sp.vc2.verify Ps st ch = .ok () := by
      intro Ps st hl
      rw [ProofG1.verify_ok_iff]
      exact ⟨by simp [hsp]; omega, lin_zeros _ _ _ (by simp; omega)⟩
    cases hcv : cardVer v with
    | false =>
      simp only [vc2For, hcv]
      rw [defaultVC2Verify_eq L.zrOfInt_one _ _ _ _ _ _ (by simp only [hpk, pkg_count, List.length_nil]; omega)
        (by have := keepShown_length_le [] 0 pk.h; simp at this; rw [this]; simp), badSignature_ok]
      have := keep_length [] 0 pk.h
      exact big _ _ (by simp only [List.length_cons]; omega)
    | true =>
      simp only [vc2For, hcv]
      rw [smartcardVC2Verify_eq L.zrOfInt_one _ _ _ _ _ _ _ (by simp only [hpk, pkg_count, List.length_nil]; omega)
        (by have := keepShown_length_le [] 1 pk.h.tail; simp at this; rw [this]; simp), badSignature_ok]
      have := keep_length [] 1 pk.h.tail
      exact big _ _ (by simp only [List.length_cons]; simp only [List.length_tail] at this; omega)
  have hdef : Spec.forgedSignature S n t = Proto.encode (Wire.sig sig) := rfl
  rw [hdef]
  simp only [verify, Dyn.get_val, Res.ok_bind, hu, hnr', f4, hms, ipkFor, ← hpk, hparts, hch, audit_none, b1, b2, b3, hver]

open Ex in
set_option maxRecDepth 40000 in
example : Spec.Matches .eidNymRhNym .expectEidNymRhNym ∧ (∀ a ∈ shown2, Spec.WellTyped a) ∧
    verify L32 (.val ipk2) (Spec.forgedSignature S32 2 .eidNymRhNym) [1, 2, 3] shown2 0 1 0 .expectEidNymRhNym none = .ok () :=
  ⟨by simp [Spec.Matches], by simp [shown2, Spec.WellTyped], by decide⟩

/-! ## Disclosure -/

theorem verify_ok {ipk : IPK S} {signature msg : Bytes} {attributes : List IdemixAttribute}
    {rhIndex eidIndex skIndex : Int} {v : VerType} {md : Option (SignerMetadata S)}
    (h : verify L (.val ipk) signature msg attributes rhIndex eidIndex skIndex v md = .ok ()) :
    ∃ sig ms p c, Wire.sigCodec.unmarshal signature = .ok sig ∧ checkNonRev sig = .ok () ∧
      checkPresence sig v = .ok () ∧ attributesToSignatureMessage L attributes skIndex = .ok ms ∧
      parseParts S sig v ms.length = .ok p ∧ verChallenge L ipk.pkg sig v msg p = .ok c ∧
      audit ipk.pkg (shiftIndex eidIndex skIndex) p.eid md (·.eidNymAuditData) (·.eidNym) = .ok () ∧
      audit ipk.pkg (shiftIndex rhIndex skIndex) p.rh md (·.rhNymAuditData) (·.rhNym) = .ok () ∧
      checkNymProof ipk.pkg p.sp p.nymProof p.nym skIndex c = .ok () ∧
      checkAttrComm ipk.pkg p.sp p.eid (shiftIndex eidIndex skIndex) sig.nymEidIdx c = .ok () ∧
      checkAttrComm ipk.pkg p.sp p.rh (shiftIndex rhIndex skIndex) sig.nymRhIdx c = .ok () ∧
      p.sp.verify (vc2For v p.nym) c ipk.pkg (revealedForVerify v p.rev) ms = .ok () := by
  simp only [verify, Dyn.get_val, Res.ok_bind, Res.bind_eq_ok] at h
  obtain ⟨sig, h1, _, h2, _, h3, ms, h4, p, h5, c, h6, _, h7, _, h8, _, h9, _, h10, _, h11, h12⟩ := h
  exact ⟨sig, ms, p, c, h1, h2, h3, h4, h5, h6, h7, h8, h9, h10, h11, h12⟩

theorem parseParts_ok {sig : Signature} {v : VerType} {m : Nat} {p : Parsed S} (h : parseParts S sig v m = .ok p) :
    ∃ count, parsePoKPayload sig.main = .ok (count, p.rev) ∧
      parseSignatureProof S (sig.main.drop (2 + count / 8 + 1)) = .ok p.sp ∧ p.rev.length ≤ m ∧
      S.g1OfBytes sig.nym = some p.nym ∧ onlyIf (!cardVer v) (parseProofG1 S sig.nymProof) = .ok p.nymProof ∧
      onlyIf (wantEid sig v) (parseComm S sig.nymEidProof sig.nymEid) = .ok p.eid ∧
      onlyIf (wantRh sig v) (parseComm S sig.nymRhProof sig.nymRh) = .ok p.rh := by
  simp only [parseParts, Res.bind_eq_ok, Res.pure_def, Res.ok.injEq, Res.guardErr_eq_ok, decide_eq_false_iff_not,
    Res.ofOption_eq_ok] at h
  obtain ⟨⟨count, rev⟩, h1, rest, h2, sp, h3, _, h4, nym, h5, pn, h6, e, h7, r, h8, rfl⟩ := h
  obtain ⟨hn, hraw, _, _⟩ := parsePoKPayload_ok h1
  simp only [lenInBytes_nat, Int.toNat_natCast] at h2
  rw [goSlice_ok_of hraw (Nat.le_refl _), List.take_length] at h2
  cases h2
  exact ⟨count, h1, h3, by simpa using h4, h5, h6, h7, h8⟩

theorem attrMsgs_hidden (i : Nat) (as : List IdemixAttribute) (h : ∀ a ∈ as, a.type = 0) : attrMsgs L i as = .ok [] := by
  induction as generalizing i with
  | nil => rfl
  | cons a as ih =>
    have hf : attrFr L a = .ok none := (attrFr_none_iff L).mpr (by have := h a (by simp); omega)
    simp only [attrMsgs, hf, Res.ok_bind, ih (i + 1) (fun b hb => h b (by simp [hb])), Res.pure_def]

theorem splitGens_none (i : Nat) (hs : List S.G1) (ms : List (SigMsg S)) :
    splitGens [] i hs ms = splitGens [] i hs [] := by
  rw [splitGens_eq _ _ _ _ (by have := keepShown_length_le [] i hs; simp at this; simp [this]),
    splitGens_eq _ _ _ _ (by have := keepShown_length_le [] i hs; simp at this; simp [this])]
  have : keepShown [] i hs = [] := by have := keepShown_length_le [] i hs; simpa using this
  simp [this]

/-- **C40 (violated, disclosure).** Which attributes are disclosed is up to the signer alone: a signature that
discloses nothing is accepted with any list of claimed attribute values. (The holder of any credential can thus claim
anything; unlike in `C40_violated` the proofs are well-formed.) -/
theorem C40_disclosure_violated (ipk : IPK S) (raw msg : Bytes) (hidden claimed : List IdemixAttribute) (eid rh : Int)
    (k : Nat) (v : VerType) (md : Option (SignerMetadata S)) (hh : ∀ a ∈ hidden, a.type = 0)
    (hc : ∀ a ∈ claimed, Spec.WellTyped a) (hk : k ≤ claimed.length)
    (h : verify L (.val ipk) raw msg hidden rh eid k v md = .ok ()) :
    verify L (.val ipk) raw msg claimed rh eid k v md = .ok () := by
  obtain ⟨sig, ms, p, c, h1, h2, h3, h4, h5, h6, h7, h8, h9, h10, h11, h12⟩ := verify_ok L h
  obtain ⟨ms', hms'⟩ := attributesToSignatureMessage_ok L claimed k hk hc
  have hms : ms = [] := by
    simp only [attributesToSignatureMessage, Res.bind_eq_ok] at h4
    obtain ⟨_, _, h4⟩ := h4
    rw [attrMsgs_hidden] at h4
    · cases h4; rfl
    · intro a ha
      simp only [List.append_assoc, List.singleton_append, List.mem_append, List.mem_cons] at ha
      rcases ha with ha | rfl | ha
      · exact hh a (List.mem_of_mem_take ha)
      · rfl
      · exact hh a (List.mem_of_mem_drop ha)
  subst hms
  have hrev : p.rev = [] := by
    obtain ⟨_, _, _, hl, _⟩ := parseParts_ok h5
    simpa using hl
  have h5' : parseParts S sig v ms'.length = .ok p := by
    simp only [parseParts, Res.bind_eq_ok, Res.pure_def, Res.ok.injEq, Res.guardErr_eq_ok,
      decide_eq_false_iff_not] at h5 ⊢
    obtain ⟨⟨count, rev⟩, a1, rest, a2, sp, a3, _, a4, nym, a5, pn, a6, e, a7, r, a8, a9⟩ := h5
    refine ⟨⟨count, rev⟩, a1, rest, a2, sp, a3, (), ?_, nym, a5, pn, a6, e, a7, r, a8, a9⟩
    have : rev = [] := by simpa using a4
    simp [this]
  have hrn : revealedForVerify v p.rev = [] := by rw [hrev]; simp only [revealedForVerify]; cases cardVer v <;> rfl
  have h12' : p.sp.verify (vc2For v p.nym) c ipk.pkg (revealedForVerify v p.rev) ms' = .ok () := by
    rw [hrn] at h12 ⊢
    rw [sigProof_verify_ok_iff] at h12 ⊢
    refine ⟨h12.1, h12.2.1, ?_⟩
    rw [← h12.2.2]
    simp only [vc2For]
    cases cardVer v with
    | false => simp only [defaultVC2Verify, splitGens_none _ _ ms']
    | true => simp only [smartcardVC2Verify, splitGens_none _ _ ms']
  simp only [verify, Dyn.get_val, Res.ok_bind, h1, h2, h3, hms', h5', h6, h7, h8, h9, h10, h11, h12']

open Ex in
set_option maxRecDepth 40000 in
example : ∃ raw m, sign L32 cred2 (4 : Toy.K) (4 : Toy.K) (5 : Toy.K) (.val ipk2) hidden2 [9] 1 0 cri2 .eidNym none rand2 =
      .ok (raw, m) ∧
    verify L32 (.val ipk2) raw [9] hidden2 1 0 0 .expectEidNym m = .ok () ∧
    verify L32 (.val ipk2) raw [9] [⟨1, .bytes [3, 3, 3]⟩, ⟨2, .int 6⟩] 1 0 0 .expectEidNym m = .ok () :=
  ⟨_, _, rfl, by decide, by decide⟩

end Idemix.Aries
