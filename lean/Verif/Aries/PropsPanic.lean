import Verif.Aries.PropsMeta

/-!
# Malformed input to the aries scheme: C61

Nothing in the aries scheme recovers from panics, and neither do the provider and the MSP.
-/

namespace Idemix

/-- A sequence panics only if one of its parts does. -/
theorem Res.bind_ne_panic {α β : Type} {x : Res α} {f : α → Res β} (hx : x ≠ .panic)
    (hf : ∀ a, x = .ok a → f a ≠ .panic) : (x >>= f) ≠ .panic := by
  cases h : x with
  | ok a => rw [Res.ok_bind]; exact hf a h
  | err m => simp
  | panic => exact absurd h hx

theorem Res.guardErr_ne_panic (c : Bool) (m : String) : Res.guardErr c m ≠ .panic := by
  cases c <;> simp [Res.guardErr]

theorem Res.ofOption_ne_panic {α : Type} (o : Option α) (m : String) : Res.ofOption m o ≠ .panic := by
  cases o <;> simp [Res.ofOption]

theorem Res.index_ne_panic {α : Type} {l : List α} {i : Int} (h0 : 0 ≤ i) (h1 : i < l.length) :
    Res.index l i ≠ .panic := by
  have : i.toNat < l.length := by omega
  simp [Res.index, show ¬ i < 0 by omega, List.getElem?_eq_getElem this]

namespace Aries

open Bbs
open Dlog (SigType VerType AuditData SignerMetadata)

variable {S : Suite} (L : Lib S)

namespace Spec

/-- A signature whose proof consists of three points and nothing else. -/
def crash (a b c : S.G1) : Signature :=
  ⟨[0, 1, 1] ++ (S.g1Comp a ++ S.g1Comp b ++ S.g1Comp c), [], [], [], [], [], 0, [], [], 0, [], [], 0, some ⟨0, []⟩⟩

/-- The bytes of `crash`. -/
def crashBytes (a b c : S.G1) : Bytes := Proto.encode (Wire.sig (crash a b c))

end Spec

theorem messages_ok (attributes : List IdemixAttribute) (sk : Int) (h : ∀ a ∈ attributes, Spec.WellTyped a)
    (h0 : 0 ≤ sk) (h1 : sk ≤ attributes.length) :
    ∃ ms, attributesToSignatureMessage L attributes sk = .ok ms ∧ ms.length ≤ attributes.length + 1 := by
  have len : ∀ (i : Nat) (as : List IdemixAttribute) (ms : List (SigMsg S)), attrMsgs L i as = .ok ms →
      ms.length ≤ as.length := by
    intro i as
    induction as generalizing i with
    | nil => intro ms h; simp only [attrMsgs, Res.ok.injEq] at h; subst h; simp
    | cons a as ih =>
      intro ms h
      simp only [attrMsgs, Res.bind_eq_ok] at h
      obtain ⟨v, -, rest, h2, h3⟩ := h
      have := ih _ _ h2
      cases v <;> simp only [Res.pure_def, Res.ok.injEq] at h3 <;> subst h3 <;> simp <;> omega
  have g : (decide (sk < 0) || decide ((attributes.length : Int) < sk)) = false := by simp; omega
  simp only [attributesToSignatureMessage, g, Res.guardPanic, Bool.false_eq_true, if_false, Res.ok_bind]
  obtain ⟨ms, hms⟩ := attrMsgs_ok L 0 (attributes.take sk.toNat ++ [hiddenAttr] ++ attributes.drop sk.toNat) (by
    intro a ha
    simp only [List.mem_append, List.mem_singleton] at ha
    rcases ha with (ha | ha) | ha
    · exact h a (List.mem_of_mem_take ha)
    · subst ha; simp [hiddenAttr, Spec.WellTyped]
    · exact h a (List.mem_of_mem_drop ha))
  refine ⟨ms, hms, ?_⟩
  have := len _ _ _ hms
  simp at this
  omega

/-- **C61 (violated).** Verification panics on a signature whose proof is three points long, for every key and
message, and any well-typed attributes: whoever can submit a signature can crash the verifier. -/
theorem C61_verify_violated (a b c : S.G1) (ipk : IPK S) (msg : Bytes) (attributes : List IdemixAttribute)
    (ht : ∀ a ∈ attributes, Spec.WellTyped a) (rh eid sk : Int) (h0 : 0 ≤ sk) (h1 : sk ≤ attributes.length)
    (md : Option (SignerMetadata S)) (v : VerType)
    (hv : v = .basic ∨ v = .bestEffort ∨ v = .expectStandard ∨ v = .expectSmartcard ∨ v = .expectSmartcardNoNyms) :
    verify L (.val ipk) (Spec.crashBytes a b c) msg attributes rh eid sk v md = .panic := by
  have hu : Wire.sigCodec.unmarshal (Spec.crashBytes a b c) = .ok (Spec.crash a b c) :=
    Wire.sigCodec_rt _ (by simp [Spec.crash, Signature.Wire, Proto.Int32, Proto.Int64])
  have hn : checkNonRev (Spec.crash a b c) = .ok () := rfl
  have hp : checkPresence (Spec.crash a b c) v = .ok () := by
    rcases hv with rfl | rfl | rfl | rfl | rfl <;> rfl
  have p : parsePoKPayload ([0, 1, 1] ++ (S.g1Comp a ++ S.g1Comp b ++ S.g1Comp c)) = .ok (1, [0]) := by
    have := parsePoKPayload_bytes 1 [1] (S.g1Comp a ++ S.g1Comp b ++ S.g1Comp c) (by decide) (by decide)
    exact this
  have hpp : ∀ n, parseParts S (Spec.crash a b c) v n = .panic := by
    intro n
    have e : (Spec.crash a b c).main = [0, 1, 1] ++ (S.g1Comp a ++ S.g1Comp b ++ S.g1Comp c) := rfl
    rw [parseParts, e, p]
    simp only [Res.ok_bind]
    rw [show (lenInBytes ((1 : Nat) : Int)).toNat = 3 from by decide]
    rw [goSlice_ok_of (by simp) (Nat.le_refl _), List.take_length]
    simp only [Res.ok_bind]
    rw [show ([0, 1, 1] ++ (S.g1Comp a ++ S.g1Comp b ++ S.g1Comp c) : Bytes).drop 3 =
      S.g1Comp a ++ S.g1Comp b ++ S.g1Comp c from rfl, C30_signatureProof_violated]
    rfl
  simp only [verify, Dyn.get_val, Res.ok_bind, hu, hn, hp]
  obtain ⟨ms, hm, -⟩ := messages_ok L attributes sk ht h0 h1
  simp only [hm, Res.ok_bind, hpp, Res.panic_bind]

theorem build_ne_panic {bases : List S.G1} {scalars : List S.F} (h : bases.length ≤ scalars.length) (hb : bases ≠ []) :
    build bases scalars ≠ .panic := by
  rw [build_eq h hb]; simp

theorem proof_verify_ne_panic (p : ProofG1 S) (bases : List S.G1) (st : S.G1) (c : S.F)
    (h : bases.length ≤ p.responses.length) : p.verify bases st c ≠ .panic := by
  unfold ProofG1.verify
  exact Res.bind_ne_panic (build_ne_panic (by simpa using h) (by simp)) fun _ _ => Res.guardErr_ne_panic _ _

theorem badSignature_ne_panic {x : Res Unit} (h : x ≠ .panic) : badSignature x ≠ .panic := by
  cases x <;> simp_all [badSignature]

/-- C61. Import and verification of the smaller objects do not panic, whatever the bytes: user keys, pseudonyms,
pseudonym signatures and revocation information. -/
theorem C61_small_objects (raw digest : Bytes) (ipk : IPK S) (w : S.G2) (n : Nat) (hk : Spec.IsKey ipk w n)
    (nym : S.G1) (sk : Int) (h0 : 0 ≤ sk) (h1 : sk ≤ n) (dsa : Ecdsa) (pk : Option dsa.Pk) (epoch alg : Int) :
    userKeyFromBytes S raw ≠ .panic ∧ nymFromBytes S raw ≠ .panic ∧ publicNymFromBytes S raw ≠ .panic ∧
      nymVerify L (.val ipk) nym raw digest sk ≠ .panic ∧ revVerify dsa pk raw epoch alg ≠ .panic := by
  obtain rfl := (isKey_iff ipk w n).mp hk
  refine ⟨?_, ?_, ?_, ?_, ?_⟩
  · exact Res.bind_ne_panic (Res.guardErr_ne_panic _ _) fun _ _ => by simp
  · unfold nymFromBytes
    refine Res.bind_ne_panic (Res.guardErr_ne_panic _ _) fun _ hg => ?_
    have hl : raw.length = S.scalarLen + S.g1Len := by simpa [Res.guardErr_eq_ok] using hg
    refine Res.bind_ne_panic (by rw [goSlice_ok_of (by omega) (by omega)]; simp) fun _ _ => ?_
    refine Res.bind_ne_panic (by rw [goSlice_ok_of (by omega) (by omega)]; simp) fun _ _ => ?_
    exact Res.bind_ne_panic (Res.ofOption_ne_panic _ _) fun _ _ => by simp
  · exact Res.bind_ne_panic (Res.guardErr_ne_panic _ _) fun _ _ => Res.ofOption_ne_panic _ _
  · unfold nymVerify
    simp only [Dyn.get_val, Res.ok_bind]
    refine Res.bind_ne_panic (Wire.nymSigCodec.unmarshal_np _) fun s _ => ?_
    refine Res.bind_ne_panic (C30_proof_no_panic _) fun p _ => ?_
    refine Res.bind_ne_panic (Res.guardErr_ne_panic _ _) fun _ hg => ?_
    have hl : 1 < p.responses.length := by simpa [Res.guardErr_eq_ok] using hg
    refine Res.bind_ne_panic (Res.index_ne_panic h0 ?_) fun h _ => proof_verify_ne_panic _ _ _ _ (by simp; omega)
    have : (ipkFor w n).pkg.h.length = n + 1 := by simp [ipkFor, pkg]
    omega
  · unfold revVerify
    refine Res.bind_ne_panic (Res.ofOption_ne_panic _ _) fun _ _ => ?_
    refine Res.bind_ne_panic (Wire.criCodec.unmarshal_np _) fun _ _ => ?_
    exact Res.bind_ne_panic (Wire.criCodec.marshal_np _) fun _ _ => Res.guardErr_ne_panic _ _

/-- C61. The shape of a parsed signature that verification takes for granted: each proof has a response for each of its
bases, and the positions of the committed attributes, which the signature itself names, are positions of responses. -/
structure Spec.Shape (sig : Signature) (p : Parsed S) (v : VerType) (n : Nat) (rh eid sk : Int) : Prop where
  vc1 : 2 ≤ p.sp.vc1.responses.length
  vc2 : cardVer v = false →
    2 + ((List.range' 0 (n + 1)).filter fun i => !p.rev.contains i).length ≤ p.sp.vc2.responses.length
  card : cardVer v = true →
    2 + ((List.range' 1 n).filter fun i => !p.rev.contains i).length ≤ p.sp.vc2.responses.length
  nym : ∀ q, p.nymProof = some q → 2 ≤ q.responses.length ∧ 2 + sk < p.sp.vc2.responses.length
  eid : ∀ q, p.eid = some q → 2 ≤ q.1.responses.length ∧ 0 ≤ sig.nymEidIdx ∧
    sig.nymEidIdx < p.sp.vc2.responses.length ∧ 0 ≤ shiftIndex eid sk ∧ shiftIndex eid sk ≤ n
  rh : ∀ q, p.rh = some q → 2 ≤ q.1.responses.length ∧ 0 ≤ sig.nymRhIdx ∧
    sig.nymRhIdx < p.sp.vc2.responses.length ∧ 0 ≤ shiftIndex rh sk ∧ shiftIndex rh sk ≤ n

theorem keepHidden_length {α : Type} (rs : List Nat) (i : Nat) (xs : List α) :
    (keepHidden rs i xs).length = ((List.range' i xs.length).filter fun j => !rs.contains j).length := by
  induction xs generalizing i with
  | nil => rfl
  | cons x xs ih =>
    by_cases h : i ∈ rs <;> simp [keepHidden, List.range'_succ, h, ih]

theorem audit_ne_panic (pk : PKG S) (idx : Int) (p : Option (ProofG1 S × S.G1)) (md : Option (SignerMetadata S))
    (data : SignerMetadata S → Option (AuditData S)) (raw : SignerMetadata S → Bytes)
    (h : ∀ q, p = some q → 0 ≤ idx ∧ idx < pk.h.length) : audit pk idx p md data raw ≠ .panic := by
  unfold audit
  split
  · next q comm m =>
    obtain ⟨h0, h1⟩ := h _ rfl
    refine Res.bind_ne_panic ?_ fun _ _ => ?_
    · unfold auditData
      split
      · refine Res.bind_ne_panic (Res.index_ne_panic h0 h1) fun _ _ => ?_
        refine Res.bind_ne_panic (Res.guardErr_ne_panic _ _) fun _ _ => ?_
        split
        · exact Res.guardErr_ne_panic _ _
        · simp
      · simp
    · unfold auditBytes
      split
      · simp
      · exact Res.bind_ne_panic (Res.ofOption_ne_panic _ _) fun _ _ => Res.guardErr_ne_panic _ _
  · simp

theorem checkComm_ne_panic (pk : PKG S) (sp : SigProof S) (p : ProofG1 S) (comm : S.G1) (idx resp : Int) (c : S.F)
    (h1 : 2 ≤ p.responses.length) (h2 : 0 ≤ resp) (h3 : resp < sp.vc2.responses.length) (h4 : 0 ≤ idx)
    (h5 : idx < pk.h.length) : checkComm pk sp p comm idx resp c ≠ .panic := by
  unfold checkComm
  refine Res.bind_ne_panic (Res.index_ne_panic (by omega) (by omega)) fun _ _ => ?_
  refine Res.bind_ne_panic (Res.index_ne_panic h2 h3) fun _ _ => ?_
  refine Res.bind_ne_panic (Res.guardErr_ne_panic _ _) fun _ _ => ?_
  exact Res.bind_ne_panic (Res.index_ne_panic h4 h5) fun _ _ => proof_verify_ne_panic _ _ _ _ (by simpa using h1)

theorem checkAttrComm_ne_panic (pk : PKG S) (sp : SigProof S) (p : Option (ProofG1 S × S.G1)) (idx resp : Int) (c : S.F)
    (h : ∀ q, p = some q → 2 ≤ q.1.responses.length ∧ 0 ≤ resp ∧ resp < sp.vc2.responses.length ∧ 0 ≤ idx ∧
      idx < pk.h.length) : checkAttrComm pk sp p idx resp c ≠ .panic := by
  unfold checkAttrComm
  split
  · obtain ⟨a, b, c, d, e⟩ := h _ rfl
    exact checkComm_ne_panic _ _ _ _ _ _ _ a b c d e
  · simp

/-- **C61, partial.** Verification by a key for `n` attributes, with well-typed attributes and a position of the
secret key in range, does not panic on signatures that have the shape it takes for granted and whose proof contains
its length bytes and as many bytes as they announce. Missing: all other signatures (`C61_verify_violated`). -/
theorem C61_verify_partial (ipk : IPK S) (w : S.G2) (n : Nat) (hk : Spec.IsKey ipk w n) (signature msg : Bytes)
    (attributes : List IdemixAttribute) (ht : ∀ a ∈ attributes, Spec.WellTyped a) (hn : attributes.length ≤ n)
    (rh eid sk : Int) (h0 : 0 ≤ sk) (h1 : sk ≤ attributes.length) (v : VerType) (md : Option (SignerMetadata S))
    (hproof : ∀ sig count rev, Wire.sigCodec.unmarshal signature = .ok sig → parsePoKPayload sig.main = .ok (count, rev) →
      ∃ rest, rest = sig.main.drop (lenInBytes count).toNat ∧ 3 * S.g1CompLen + 4 ≤ rest.length ∧
        3 * S.g1CompLen + 4 + beNat ((rest.drop (3 * S.g1CompLen)).take 4) ≤ rest.length)
    (hshape : ∀ sig p k, Wire.sigCodec.unmarshal signature = .ok sig → parseParts S sig v k = .ok p →
      Spec.Shape sig p v n rh eid sk) :
    verify L (.val ipk) signature msg attributes rh eid sk v md ≠ .panic := by
  obtain rfl := (isKey_iff ipk w n).mp hk
  have hlen : (ipkFor w n).pkg.h.length = n + 1 := by simp [ipkFor, pkg]
  have hcount : (ipkFor w n).pkg.count = n + 1 := by simp [ipkFor, pkg]
  unfold verify
  simp only [Dyn.get_val, Res.ok_bind]
  refine Res.bind_ne_panic (Wire.sigCodec.unmarshal_np _) fun sig hsig => ?_
  refine Res.bind_ne_panic ?_ fun _ _ => ?_
  · unfold checkNonRev; split
    · simp
    · exact Res.guardErr_ne_panic _ _
  refine Res.bind_ne_panic ?_ fun _ _ => ?_
  · unfold checkPresence
    iterate 4 refine Res.bind_ne_panic (Res.guardErr_ne_panic _ _) fun _ _ => ?_
    exact Res.guardErr_ne_panic _ _
  obtain ⟨ms, hms, hml⟩ := messages_ok L attributes sk ht h0 h1
  simp only [hms, Res.ok_bind]
  have hcomm : ∀ a b : Bytes, parseComm S a b ≠ .panic := fun a b =>
    Res.bind_ne_panic (C30_proof_no_panic _) fun _ _ => Res.bind_ne_panic (Res.ofOption_ne_panic _ _) fun _ _ => by simp
  have honly : ∀ {α : Type} (b : Bool) (x : Res α), x ≠ .panic → onlyIf b x ≠ .panic := by
    intro α b x hx
    cases b
    · simp [onlyIf]
    · cases x <;> simp_all [onlyIf, Res.bind]
  refine Res.bind_ne_panic ?_ fun p hp => ?_
  · unfold parseParts
    refine Res.bind_ne_panic (C30_payload_no_panic _) fun q hq => ?_
    obtain ⟨count, rev⟩ := q
    dsimp only
    obtain ⟨rest, hr, hr1, hr2⟩ := hproof sig count rev hsig hq
    have hsl : goSlice sig.main (lenInBytes count).toNat sig.main.length = .ok rest := by
      rw [goSlice_ok_of _ (Nat.le_refl _), List.take_length, hr]
      by_contra hlt
      have : rest.length = 0 := by rw [hr, List.length_drop]; omega
      omega
    simp only [hsl, Res.ok_bind]
    refine Res.bind_ne_panic (C30_signatureProof_partial rest hr1 hr2) fun _ _ => ?_
    refine Res.bind_ne_panic (Res.guardErr_ne_panic _ _) fun _ _ => ?_
    refine Res.bind_ne_panic (Res.ofOption_ne_panic _ _) fun _ _ => ?_
    refine Res.bind_ne_panic (honly _ _ (C30_proof_no_panic _)) fun _ _ => ?_
    refine Res.bind_ne_panic (honly _ _ (hcomm _ _)) fun _ _ => ?_
    exact Res.bind_ne_panic (honly _ _ (hcomm _ _)) fun _ _ => by simp
  have hs := hshape sig p _ hsig hp
  have hrev : p.rev.length ≤ ms.length := by
    simp only [parseParts, Res.bind_eq_ok, Res.guardErr_eq_ok, decide_eq_false_iff_not, Res.pure_def, Res.ok.injEq] at hp
    obtain ⟨q, -, rest, -, sp, -, -, hle, nym, -, pn, -, eid, -, rh, -, rfl⟩ := hp
    dsimp only
    omega
  refine Res.bind_ne_panic ?_ fun c _ => ?_
  · unfold verChallenge SigProof.bytesForChallenge
    refine Res.bind_ne_panic ?_ fun _ _ => by simp
    have hr' : (revealedForChallenge v p.rev).length ≤ p.rev.length + 1 := by
      unfold revealedForChallenge
      split
      · split <;> simp
      · omega
    refine Res.bind_ne_panic ?_ fun _ _ => by simp
    have : ¬ ((7 + ((ipkFor w n).pkg.count - ((revealedForChallenge v p.rev).length : Int))) * (S.g1CompLen : Int) < 0) := by
      rw [hcount, not_lt]
      exact mul_nonneg (by omega) (by omega)
    simp [Res.guardPanic, this]
  have hidx : ∀ q, p.eid = some q → 0 ≤ shiftIndex eid sk ∧ shiftIndex eid sk < ((ipkFor w n).pkg.h.length : Int) := by
    intro q hq
    obtain ⟨-, -, -, a, b⟩ := hs.eid q hq
    exact ⟨a, by omega⟩
  have hidx' : ∀ q, p.rh = some q → 0 ≤ shiftIndex rh sk ∧ shiftIndex rh sk < ((ipkFor w n).pkg.h.length : Int) := by
    intro q hq
    obtain ⟨-, -, -, a, b⟩ := hs.rh q hq
    exact ⟨a, by omega⟩
  refine Res.bind_ne_panic (audit_ne_panic _ _ _ _ _ _ hidx) fun _ _ => ?_
  refine Res.bind_ne_panic (audit_ne_panic _ _ _ _ _ _ hidx') fun _ _ => ?_
  refine Res.bind_ne_panic ?_ fun _ _ => ?_
  · unfold checkNymProof
    split
    · next q hq => exact checkComm_ne_panic _ _ _ _ _ _ _ (hs.nym _ hq).1 (by omega) (hs.nym _ hq).2 h0 (by omega)
    · simp
  refine Res.bind_ne_panic (checkAttrComm_ne_panic _ _ _ _ _ _ fun q hq => ?_) fun _ _ => ?_
  · obtain ⟨a, b, c, d, e⟩ := hs.eid q hq; exact ⟨a, b, c, d, by omega⟩
  refine Res.bind_ne_panic (checkAttrComm_ne_panic _ _ _ _ _ _ fun q hq => ?_) fun _ _ => ?_
  · obtain ⟨a, b, c, d, e⟩ := hs.rh q hq; exact ⟨a, b, c, d, by omega⟩
  unfold SigProof.verify
  refine Res.bind_ne_panic (Res.guardErr_ne_panic _ _) fun _ _ => ?_
  refine Res.bind_ne_panic (badSignature_ne_panic (proof_verify_ne_panic _ _ _ _ (by simpa using hs.vc1))) fun _ _ => ?_
  have hrv : (revealedForVerify v p.rev).length ≤ p.rev.length := by
    unfold revealedForVerify
    split
    · exact List.length_filter_le _ _
    · exact Nat.le_refl _
  have hg : ¬ (2 + (ipkFor w n).pkg.count - ((revealedForVerify v p.rev).length : Int) < 0) := by rw [hcount]; omega
  cases hcv : cardVer v with
  | true =>
    have he : vc2For v p.nym = smartcardVC2Verify p.nym := by simp only [vc2For, hcv]
    have hr : revealedForVerify v p.rev = p.rev.filter fun i => i ≠ 0 := by simp only [revealedForVerify, hcv]
    have h3 := keepShown_length_le (revealedForVerify v p.rev) 1 (ipkFor w n).pkg.h.tail
    have h4 : 2 + (keepHidden (revealedForVerify v p.rev) 1 (ipkFor w n).pkg.h.tail).length ≤
        p.sp.vc2.responses.length := by
      rw [keepHidden_length, List.length_tail, hlen]
      refine Nat.le_trans (Nat.le_of_eq ?_) (hs.card hcv)
      congr 2
      refine List.filter_congr fun i hi => ?_
      have : i ≠ 0 := by have := List.mem_range'_1.mp hi; omega
      rw [hr]
      by_cases hm : i ∈ p.rev <;> simp [hm, this]
    rw [he]
    unfold smartcardVC2Verify
    simp only [Res.guardPanic, hg, decide_false, Bool.false_eq_true, if_false, Res.ok_bind,
      splitGens_eq _ _ _ _ (Nat.le_trans h3 (Nat.le_trans hrv hrev))]
    exact badSignature_ne_panic (proof_verify_ne_panic _ _ _ _ (by simp; omega))
  | false =>
    have he : vc2For v p.nym = defaultVC2Verify := by simp only [vc2For, hcv]
    have hr : revealedForVerify v p.rev = p.rev := by simp only [revealedForVerify, hcv]
    have h3 := keepShown_length_le (revealedForVerify v p.rev) 0 (ipkFor w n).pkg.h
    have h4 : 2 + (keepHidden (revealedForVerify v p.rev) 0 (ipkFor w n).pkg.h).length ≤
        p.sp.vc2.responses.length := by
      rw [keepHidden_length, hlen, hr]
      exact hs.vc2 hcv
    rw [he]
    unfold defaultVC2Verify
    simp only [Res.guardPanic, hg, decide_false, Bool.false_eq_true, if_false, Res.ok_bind,
      splitGens_eq _ _ _ _ (Nat.le_trans h3 (Nat.le_trans hrv hrev))]
    exact badSignature_ne_panic (proof_verify_ne_panic _ _ _ _ (by simp; omega))

/-- **C61 (violated).** The check of a credential request panics on a request whose proof has no responses, and the
check of a credential on one that carries fewer attributes than the key has, for every key. -/
theorem C61_issuance_violated (h32 : S.scalarLen = 32) (ipk : IPK S) (w : S.G2) (n k : Nat) (hk : Spec.IsKey ipk w n)
    (hn0 : 0 < n) (hn : n < 0xFFFFFFFF) (hkn : k ≤ n) (a b c : S.G1) (nonce : Bytes) (sk e s : S.F)
    (attributes : List IdemixAttribute) :
    blindVerify L (S.g1Comp a ++ S.g1Comp b ++ (S.g1Comp c ++ [0, 0, 0, 0])) (.val ipk) nonce k = .panic ∧
    credVerify L sk (.val ipk) (Proto.encode (Wire.cred ⟨S.g1Comp a ++ S.zrBytes e ++ S.zrBytes s, [], 0⟩)) attributes =
      .panic := by
  obtain rfl := (isKey_iff ipk w n).mp hk
  constructor
  · have hp : parseBlindedMessages S (S.g1Comp a ++ S.g1Comp b ++ (S.g1Comp c ++ [0, 0, 0, 0])) = .ok ⟨a, b, ⟨c, []⟩⟩ := by
      have := parseBlinded_enc (S := S) h32 ⟨a, b, ⟨c, []⟩⟩ (by simp)
      simpa [Blinded.enc, ProofG1.enc, beBytes] using this
    have g : (decide (((ipkFor w n).n + 1 < 0)) || decide ((k : Int) < 0) || decide ((ipkFor w n).n + 1 ≤ (k : Int))) =
        false := by
      have : (ipkFor w n).n = (n : Int) := rfl
      simp only [this, Bool.or_eq_false_iff, decide_eq_false_iff_not]
      exact ⟨⟨by omega, by omega⟩, by omega⟩
    have hl : ((List.replicate ((ipkFor w n).n + 1).toNat false).set (k : Int).toNat true).length = n + 1 := by
      simp [ipkFor]
    simp only [blindVerify, Dyn.get_val, Res.ok_bind, g, Res.guardPanic, Bool.false_eq_true, if_false, hp,
      verifyBlinding, Blinded.verifyProof]
    rw [hl, show (ipkFor w n).w = w from rfl, show ((n + 1 : Nat) : Int) = (n : Int) + 1 by simp, toPKG_names w n hn]
    simp only [Res.ok_bind]
    cases hs : selectGens (pkg w (n + 1)) (trueAt 0 ((List.replicate ((ipkFor w n).n + 1).toNat false).set (k : Int).toNat true)) with
    | panic => rfl
    | err m =>
      exfalso
      have key : ∀ (l : List Nat) (m : String), selectGens (pkg w (n + 1)) l ≠ .err m := by
        intro l
        induction l with
        | nil => intro m h; cases h
        | cons x l ih =>
          intro m h
          simp only [selectGens, Res.mapM'] at h ih
          cases hi : Res.index (pkg w (n + 1)).h x with
          | ok y =>
            rw [hi] at h
            simp only [Res.ok_bind] at h
            cases hr : Res.mapM' (fun i : Nat => Res.index (pkg w (n + 1)).h i) l with
            | ok z => rw [hr] at h; simp at h
            | err m' => exact ih m' hr
            | panic => rw [hr] at h; simp at h
          | err m' =>
            unfold Res.index Res.deref at hi
            split at hi
            · cases hi
            · split at hi <;> cases hi
          | panic => rw [hi] at h; simp at h
      exact key _ _ hs
    | ok hs' =>
      have : build ((pkg w (n + 1)).h0 :: hs' ++ [a]) ([] ++ [blindChallenge L a b nonce]) = .panic := by
        unfold build
        rw [sumOfG1Products, sumLoop_short]
        · rfl
        · simp
      simp only [Res.ok_bind, ProofG1.verify, this, Res.panic_bind]
  · have hu : Wire.credCodec.unmarshal (Proto.encode (Wire.cred ⟨S.g1Comp a ++ S.zrBytes e ++ S.zrBytes s, [], 0⟩)) =
        .ok ⟨S.g1Comp a ++ S.zrBytes e ++ S.zrBytes s, [], 0⟩ :=
      Wire.credCodec_rt _ (by simp [Credential.Wire, Proto.Int32])
    have hl : (ipkFor w n).pkg.h.length = (n - 1) + 1 + 1 := by simp [ipkFor, pkg]; omega
    simp only [credVerify, Dyn.get_val, Res.ok_bind, hu, parseSignature_bytes h32, hl, verifyLoop]
    simp

open Ex in
set_option maxRecDepth 40000 in
/-- A signature, a request and a credential that crash the toy verifier. -/
example : verify L32 (.val ipk2) (Spec.crashBytes (S := S32) (1 : Toy.K) (2 : Toy.K) (3 : Toy.K)) [9] hidden2 0 1 0
      .bestEffort none = .panic ∧
    blindVerify L32 (Toy.enc32 1 ++ Toy.enc32 2 ++ (Toy.enc32 3 ++ [0, 0, 0, 0])) (.val ipk2) [7] 0 = .panic := by
  exact ⟨by decide, by decide⟩

open Ex in
set_option maxRecDepth 40000 in
/-- The sample signature, which is accepted, has the shape that `C61_verify_partial` asks for. -/
example : Spec.Shape (sampleSig [9]) (sampleParts [9]) .expectEidNym 2 0 1 0 := by
  have he : (sampleParts [9]).eid.isSome = true := by rfl
  refine ⟨by decide, fun _ => by decide, fun h => absurd h (by decide), ?_, ?_, ?_⟩
  · intro q hq
    have h : (sampleParts [9]).nymProof = some (samplePn [9]) := by rfl
    rw [h] at hq; cases hq
    exact ⟨by decide, by decide⟩
  · intro q hq
    have h : (sampleParts [9]).eid.map (·.1) = some (samplePe [9]) := by rfl
    rw [hq] at h
    simp only [Option.map_some, Option.some.injEq] at h
    rw [h]
    exact ⟨by decide, by decide, by decide, by decide, by decide⟩
  · intro q hq
    have h : (sampleParts [9]).rh.isNone = true := by rfl
    rw [hq] at h; cases h

end Aries
end Idemix
