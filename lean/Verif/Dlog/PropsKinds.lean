import Verif.Dlog.PropsVerify
import Verif.Dlog.PropsNym
import Verif.Dlog.PropsIssue

/-!
# C69: a proof of one kind does not serve as a proof of another kind
-/

namespace Idemix.Dlog

variable {S : Suite} (T : Translator S)

namespace Spec

/-- The kinds of proofs of the scheme. -/
inductive Kind
  | issuerKey | request | nymSignature | standard | eidNym | rhNym
  deriving DecidableEq

/-- The kind of a signature: which attribute pseudonyms take part in it. -/
def Sig.kind (v : Sig S) : Kind :=
  if v.rh.isSome then .rhNym else if v.eid.isSome then .eidNym else .standard

/-- `Asked T kind c qs`: an object of kind `kind` was accepted by the function that verifies this kind, its challenge is `c`,
and `qs` are the inputs of the hash function from which the challenge was computed. -/
inductive Asked : Kind → S.F → List Bytes → Prop
  | issuerKey {m : IpkMarshal} {ipk out : IssuerPublicKey} {w : S.G2} {b1 b2 : S.G1}
      (accepted : ipk.check T m = .ok out) (hw : T.g2FromProto ipk.w = .ok w)
      (h1 : T.g1FromProto ipk.barG1 = .ok b1) (h2 : T.g1FromProto ipk.barG2 = .ok b2) :
      Asked .issuerKey (S.zrOfBytes ipk.proofC)
        [ipkTranscript w b1 b2 (S.zrOfBytes ipk.proofC) (S.zrOfBytes ipk.proofS)]
  | request {req : CredRequest} {ipk : IssuerPublicKey} {nym hSk : S.G1} {nonce : Bytes}
      (accepted : req.check T ipk = .ok ()) (hn : T.g1FromProto req.nym = .ok nym)
      (hk : T.g1FromProto ipk.hSk = .ok hSk) (ho : req.issuerNonce = some nonce) :
      Asked .request (S.zrOfBytes req.proofC)
        [requestTranscript credRequestLabel hSk nym (S.zrOfBytes req.proofC) (S.zrOfBytes req.proofS) nonce ipk.hash]
  | nymSignature {sig : NymSignature} {nym : S.G1} {ipk : IssuerPublicKey} {msg : Bytes} {k : Key S} {q : Bytes}
      (accepted : sig.ver T nym ipk msg = .ok ()) (hk : Reads T ipk k)
      (hq : q = nymTranscript signLabel k nym (S.zrOfBytes sig.proofC) (S.zrOfBytes sig.proofSSk)
        (S.zrOfBytes sig.proofSRNym) ipk.hash msg) :
      Asked .nymSignature (S.zrOfBytes sig.proofC) [q, second S q (S.zrOfBytes sig.nonce)]
  | signature {RevPk : Type} {sig : Signature} {D msg : Bytes} {ipk : IssuerPublicKey} {values : List (Option S.F)}
      {rhIndex eidIndex : Int} {revPk : RevPk} {epoch : Int} {vt : VerType} {md : Option (SignerMetadata S)} {k : Key S}
      {v : Sig S} {vs : List S.F} {q : Bytes}
      (accepted : sig.ver T D (some ipk) msg values rhIndex eidIndex revPk epoch vt md = .ok ()) (hk : Reads T ipk k)
      (hv : Views T sig vt v) (hvs : vs.map some = dis D values)
      (hq : q = v.transcript (sigLabelOf v) k ipk.hash D vs eidIndex.toNat rhIndex.toNat msg) :
      Asked v.kind v.c [q, second S q v.nonce]

/-- What is needed of the encodings: a point of `G1` does not begin with the letter `W` or `R`, and three points of `G2` are
not as long as `credRequest` and two scalars. (On the supported curves points of `G1` begin with 4 or with the upper bits of
a coordinate, which are at most `0x40`, and a point of `G2` has at least 128 bytes for scalars of 32 bytes.) -/
structure Apart (S : Suite) : Prop where
  first : ∀ P : S.G1, ∀ b ∈ (S.g1Bytes P).head?, b ≠ 0x57 ∧ b ≠ 0x52
  length : 3 * S.g2Len ≠ 11 + 2 * S.scalarLen

end Spec

open Spec

variable {T}

/-- What an accepted object of each kind comes down to: the answer of the last question is the challenge. -/
theorem asked_last {kind : Kind} {c : S.F} {qs : List Bytes} (h : Asked T kind c qs) :
    (∃ w b1 b2 s, kind = .issuerKey ∧ qs = [ipkTranscript w b1 b2 c s] ∧ c = S.hashToZr (ipkTranscript w b1 b2 c s)) ∨
    (∃ hSk nym s nonce hash, kind = .request ∧ qs = [requestTranscript credRequestLabel hSk nym c s nonce hash] ∧
      c = S.hashToZr (requestTranscript credRequestLabel hSk nym c s nonce hash)) ∨
    (∃ k nym sSk sR hash msg q n, kind = .nymSignature ∧ q = nymTranscript signLabel k nym c sSk sR hash msg ∧
      qs = [q, second S q n] ∧ c = S.hashToZr (second S q n)) ∨
    (∃ (v : Sig S) (k : Key S) (hash D : Bytes) (vs : List S.F) (e r : Nat) (msg q : Bytes), kind = v.kind ∧
      q = v.transcript (sigLabelOf v) k hash D vs e r msg ∧ qs = [q, second S q v.nonce] ∧ c = v.c ∧
      c = S.hashToZr (second S q v.nonce)) := by
  cases h with
  | @issuerKey m ipk out w b1 b2 accepted hw h1 h2 =>
    left
    obtain ⟨k, b1', b2', hk, h4, h5, -, -, h10, -⟩ := check_ok_iff.mp accepted
    have e1 : b1' = b1 := by have := h4.symm.trans h1; simpa using this
    have e2 : b2' = b2 := by have := h5.symm.trans h2; simpa using this
    have e3 : k.w = w := by have := hk.w.symm.trans hw; simpa using this
    rw [e1, e2, e3] at h10
    exact ⟨w, b1, b2, _, rfl, rfl, h10⟩
  | @request req ipk nym hSk nonce accepted hn hk ho =>
    right; left
    obtain ⟨nym', hSk', n', h1, h2, h3, -, h5⟩ := reqCheck_ok_iff.mp accepted
    have e1 : nym' = nym := by have := h1.symm.trans hn; simpa using this
    have e2 : hSk' = hSk := by have := h2.symm.trans hk; simpa using this
    have e3 : n' = nonce := by have := h3.symm.trans ho; simpa using this
    rw [e1, e2, e3] at h5
    exact ⟨hSk, nym, _, nonce, ipk.hash, rfl, rfl, h5⟩
  | @nymSignature sig nym ipk msg k q accepted hk hq =>
    right; right; left
    obtain ⟨hSk, hRand, h1, h2, h3⟩ := nymVer_ok_iff.mp accepted
    have e1 : hSk = k.hSk := by have := h1.symm.trans hk.hSk; simpa using this
    have e2 : hRand = k.hRand := by have := h2.symm.trans hk.hRand; simpa using this
    rw [e1, e2] at h3
    exact ⟨k, nym, _, _, ipk.hash, msg, q, _, rfl, hq, rfl, by rw [hq]; exact h3⟩
  | @signature RevPk sig D msg ipk values rhIndex eidIndex revPk epoch vt md k v vs q accepted hk hv hvs hq =>
    right; right; right
    obtain ⟨_, k', v', vs', e, sh, a⟩ := ver_ok_iff.mp accepted
    cases e
    obtain rfl := sh.reads.unique hk
    obtain rfl := hv.unique ⟨sh.decodes, sh.eid, sh.rh⟩
    have hvs' : vs' = vs := List.map_injective_iff.mpr (Option.some_injective _) (sh.values.trans hvs.symm)
    subst hvs'
    exact ⟨v, k', ipk.hash, D, vs', _, _, msg, q, rfl, hq, rfl, rfl, by rw [hq]; exact a.challenge⟩

theorem second_length (q : Bytes) (n : S.F) : (second S q n).length = 2 * S.scalarLen := by
  simp [second]; omega

theorem ipkTranscript_length (w : S.G2) (b1 b2 : S.G1) (c s : S.F) :
    (ipkTranscript w b1 b2 c s).length = 3 * S.g2Len + 3 * S.g1Len := by
  simp [ipkTranscript]; omega

theorem requestTranscript_length (hSk nym : S.G1) (c s : S.F) (nonce hash : Bytes) :
    (requestTranscript credRequestLabel hSk nym c s nonce hash).length = 11 + 3 * S.g1Len + 2 * S.scalarLen := by
  simp [requestTranscript, credRequestLabel]; omega

theorem g1Bytes_cons (P : S.G1) : ∃ b rest, S.g1Bytes P = b :: rest := by
  cases h : S.g1Bytes P with
  | nil =>
    have := S.g1Bytes_len P
    have h1 := S.scalarLen_le
    have h2 := S.scalarLen_pos
    rw [h] at this
    simp at this
    omega
  | cons b rest => exact ⟨b, rest, rfl⟩

/-- Two of the labels, continued by points, differ. -/
theorem labels_apart (hS : Apart S) (P Q : S.G1) (x y : Bytes) :
    signLabel ++ S.g1Bytes P ++ x ≠ signWithEidNymLabel ++ S.g1Bytes Q ++ y ∧
    signLabel ++ S.g1Bytes P ++ x ≠ signWithEidNymRhNymLabel ++ S.g1Bytes Q ++ y ∧
    signWithEidNymLabel ++ S.g1Bytes P ++ x ≠ signWithEidNymRhNymLabel ++ S.g1Bytes Q ++ y := by
  obtain ⟨b, rest, hb⟩ := g1Bytes_cons P
  have := hS.first P b (by rw [hb]; rfl)
  refine ⟨fun h => ?_, fun h => ?_, fun h => ?_⟩ <;>
    simp only [signLabel, signWithEidNymLabel, signWithEidNymRhNymLabel, hb, List.cons_append, List.nil_append,
      List.cons.injEq] at h
  · exact this.1 h.2.2.2.2.1
  · exact this.1 h.2.2.2.2.1
  · exact this.2 h.2.2.2.2.2.2.2.2.2.2.2.2.2.2.1

theorem transcript_shape (v : Sig S) (k : Key S) (hash D : Bytes) (vs : List S.F) (e r : Nat) (msg : Bytes) :
    ∃ P x, v.transcript (sigLabelOf v) k hash D vs e r msg = sigLabelOf v ++ S.g1Bytes P ++ x :=
  ⟨v.t1 k, _, by simp only [Sig.transcript, List.append_assoc]; rfl⟩

/-- First questions of signatures of different kinds differ. -/
theorem kinds_apart (hS : Apart S) (v v' : Sig S) (hne : v.kind ≠ v'.kind) (P Q : S.G1) (x y : Bytes) :
    sigLabelOf v ++ S.g1Bytes P ++ x ≠ sigLabelOf v' ++ S.g1Bytes Q ++ y := by
  have a := labels_apart hS P Q x y
  have b := labels_apart hS Q P y x
  revert hne
  simp only [Sig.kind, sigLabelOf, Sig.label]
  cases v.rh.isSome <;> cases v.eid.isSome <;> cases v'.rh.isSome <;> cases v'.eid.isSome <;>
    simp only [Bool.false_eq_true, if_true, if_false] <;> intro hne <;>
    first
      | exact (hne rfl).elim
      | exact a.1
      | exact a.2.1
      | exact a.2.2
      | exact fun h => b.1 h.symm
      | exact fun h => b.2.1 h.symm
      | exact fun h => b.2.2 h.symm

/-- From equal answers to different second questions, or to different first questions. -/
theorem second_collision {q q' : Bytes} {n n' : S.F} (hq : q ≠ q')
    (h : S.hashToZr (second S q n) = S.hashToZr (second S q' n')) :
    S.Collision q q' ∨ S.Collision (second S q n) (second S q' n') := by
  by_cases e : second S q n = second S q' n'
  · simp only [second] at e
    exact .inl ⟨hq, S.zrBytes_inj (List.append_inj e (by simp)).1⟩
  · exact .inr ⟨e, h⟩

/-- **C69 (dlog).** Two accepted objects of different kinds with one challenge: a question asked for the one and a question
asked for the other collide in the hash function. The pair of a pseudonym signature and a signature without attribute
pseudonyms is the exception; see `C69_nym_and_standard_partial`. -/
theorem C69_dlog_kinds_partial (hS : Apart S) (kind₁ kind₂ : Kind) (c : S.F) (qs₁ qs₂ : List Bytes)
    (h₁ : Asked T kind₁ c qs₁) (h₂ : Asked T kind₂ c qs₂) (hne : kind₁ ≠ kind₂)
    (hx₁ : ¬ (kind₁ = .nymSignature ∧ kind₂ = .standard)) (hx₂ : ¬ (kind₁ = .standard ∧ kind₂ = .nymSignature)) :
    ∃ q₁ ∈ qs₁, ∃ q₂ ∈ qs₂, S.Collision q₁ q₂ := by
  have l1 := S.scalarLen_le
  have l2 := S.scalarLen_pos
  have sym : ∀ {qs qs' : List Bytes}, (∃ q ∈ qs, ∃ q' ∈ qs', S.Collision q q') → ∃ q ∈ qs', ∃ q' ∈ qs, S.Collision q q' := by
    rintro qs qs' ⟨q, hq, q', hq', h, e⟩
    exact ⟨q', hq', q, hq, fun h' => h h'.symm, e.symm⟩
  -- a single question against two
  have single : ∀ {q q' : Bytes} {n : S.F}, q.length ≠ 2 * S.scalarLen → c = S.hashToZr q →
      c = S.hashToZr (second S q' n) → ∃ a ∈ [q], ∃ b ∈ [q', second S q' n], S.Collision a b := by
    intro q q' n hl h h'
    refine ⟨q, by simp, second S q' n, by simp, fun e => hl ?_, h.symm.trans h'⟩
    rw [e, second_length]
  -- two against two
  have double : ∀ {q q' : Bytes} {n n' : S.F}, q ≠ q' → c = S.hashToZr (second S q n) → c = S.hashToZr (second S q' n') →
      ∃ a ∈ [q, second S q n], ∃ b ∈ [q', second S q' n'], S.Collision a b := by
    intro q q' n n' hq h h'
    rcases second_collision hq (h.symm.trans h') with h | h
    · exact ⟨q, by simp, q', by simp, h⟩
    · exact ⟨second S q n, by simp, second S q' n', by simp, h⟩
  -- pseudonym signatures against signatures
  have nymSig : ∀ (k k' : Key S) (nym : S.G1) (sSk sR : S.F) (hash hash' msg msg' D : Bytes) (vs : List S.F) (e r : Nat)
      (v : Sig S), v.kind ≠ .standard → nymTranscript signLabel k nym c sSk sR hash msg ≠
        v.transcript (sigLabelOf v) k' hash' D vs e r msg' := by
    intro k k' nym sSk sR hash hash' msg msg' D vs e r v hv
    obtain ⟨Q, y, hy⟩ := transcript_shape v k' hash' D vs e r msg'
    rw [hy]
    simp only [nymTranscript, List.append_assoc]
    rw [← List.append_assoc]
    have := labels_apart hS (sSk • k.hSk + sR • k.hRand - c • nym) Q
      (S.g1Bytes nym ++ (Buf.padTo S.scalarLen hash ++ msg)) y
    revert hv
    simp only [Sig.kind, sigLabelOf, Sig.label]
    cases v.rh.isSome <;> cases v.eid.isSome <;>
      simp only [Bool.false_eq_true, if_true, if_false] <;> intro hv <;>
      simp only [List.append_assoc] at this ⊢ <;> first | exact (hv rfl).elim | exact this.1 | exact this.2.1
  rcases asked_last h₁ with ⟨w, b1, b2, s, rfl, rfl, a⟩ | ⟨hSk, nym, s, nonce, hash, rfl, rfl, a⟩ |
      ⟨k, nym, sSk, sR, hash, msg, q, n, rfl, hq, rfl, a⟩ | ⟨v, k, hash, D, vs, e, r, msg, q, rfl, hq, rfl, hc, a⟩ <;>
    rcases asked_last h₂ with ⟨w', b1', b2', s', rfl, rfl, a'⟩ | ⟨hSk', nym', s', nonce', hash', rfl, rfl, a'⟩ |
      ⟨k', nym', sSk', sR', hash', msg', q', n', rfl, hq', rfl, a'⟩ |
      ⟨v', k', hash', D', vs', e', r', msg', q', rfl, hq', rfl, hc', a'⟩
  · exact absurd rfl hne
  · refine ⟨_, List.mem_singleton_self _, _, List.mem_singleton_self _, fun h => ?_, a.symm.trans a'⟩
    have := congrArg List.length h
    rw [ipkTranscript_length, requestTranscript_length] at this
    exact hS.length (by omega)
  · exact single (by rw [ipkTranscript_length]; omega) a a'
  · exact single (by rw [ipkTranscript_length]; omega) a a'
  · refine ⟨_, List.mem_singleton_self _, _, List.mem_singleton_self _, fun h => ?_, a.symm.trans a'⟩
    have := congrArg List.length h
    rw [ipkTranscript_length, requestTranscript_length] at this
    exact hS.length (by omega)
  · exact absurd rfl hne
  · exact single (by rw [requestTranscript_length]; omega) a a'
  · exact single (by rw [requestTranscript_length]; omega) a a'
  · exact sym (single (by rw [ipkTranscript_length]; omega) a' a)
  · exact sym (single (by rw [requestTranscript_length]; omega) a' a)
  · exact absurd rfl hne
  · refine double ?_ a a'
    rw [hq, hq']
    exact nymSig _ _ _ _ _ _ _ _ _ _ _ _ _ _ (fun h => hx₁ ⟨rfl, h⟩)
  · exact sym (single (by rw [ipkTranscript_length]; omega) a' a)
  · exact sym (single (by rw [requestTranscript_length]; omega) a' a)
  · refine sym (double ?_ a' a)
    rw [hq, hq']
    exact nymSig _ _ _ _ _ _ _ _ _ _ _ _ _ _ (fun h => hx₂ ⟨h, rfl⟩)
  · refine double ?_ a a'
    obtain ⟨P, x, hx⟩ := transcript_shape v k hash D vs e r msg
    obtain ⟨Q, y, hy⟩ := transcript_shape v' k' hash' D' vs' e' r' msg'
    rw [hq, hq', hx, hy]
    exact kinds_apart hS v v' hne P Q x y

/-- **C69 (pseudonym signatures and signatures without attribute pseudonyms).** Both use the label `sign`. If an accepted
one of each has the same challenge then there is a collision, or the two first questions are one string: this is so exactly
if the first message of the pseudonym proof is `t1` of the signature, the pseudonym is `t2`, the hash of the first issuer
key is the beginning of the encoding of `t3`, and the message under the pseudonym is what remains of the question. That this
does not happen cannot be concluded; see `C69_nym_violated`. -/
theorem C69_nym_and_standard_partial {RevPk : Type} (nsig : NymSignature) (nym : S.G1) (ipk₁ ipk₂ : IssuerPublicKey)
    (msg₁ msg₂ D : Bytes) (sig : Signature) (values : List (Option S.F)) (rhIndex eidIndex : Int) (revPk : RevPk)
    (epoch : Int) (vt : VerType) (md : Option (SignerMetadata S)) (k₁ k₂ : Key S) (v : Sig S) (vs : List S.F)
    (hk₁ : Reads T ipk₁ k₁) (hk₂ : Reads T ipk₂ k₂) (hv : Views T sig vt v) (hvs : vs.map some = dis D values)
    (hl : ipk₁.hash.length = S.scalarLen) (hl' : ipk₂.hash.length = S.scalarLen)
    (acc₁ : nsig.ver T nym ipk₁ msg₁ = .ok ())
    (acc₂ : sig.ver T D (some ipk₂) msg₂ values rhIndex eidIndex revPk epoch vt md = .ok ())
    (standard : v.kind = .standard) (same : S.zrOfBytes nsig.proofC = v.c) (t : S.G1)
    (ht : t = S.zrOfBytes nsig.proofSSk • k₁.hSk + S.zrOfBytes nsig.proofSRNym • k₁.hRand - S.zrOfBytes nsig.proofC • nym)
    (q₁ q₂ : Bytes)
    (hq₁ : q₁ = nymTranscript signLabel k₁ nym (S.zrOfBytes nsig.proofC) (S.zrOfBytes nsig.proofSSk)
      (S.zrOfBytes nsig.proofSRNym) ipk₁.hash msg₁)
    (hq₂ : q₂ = v.transcript (sigLabelOf v) k₂ ipk₂.hash D vs eidIndex.toNat rhIndex.toNat msg₂) :
    (q₁ = q₂ ∨ S.Collision q₁ q₂ ∨
      S.Collision (second S q₁ (S.zrOfBytes nsig.nonce)) (second S q₂ v.nonce)) ∧
    (q₁ = q₂ ↔ t = v.t1 k₂ ∧ nym = v.t2 k₂ D vs ∧ ∃ rest, S.g1Bytes (v.t3 k₂) = ipk₁.hash ++ rest ∧
      msg₁ = rest ++ S.g1Bytes v.aPrime ++ S.g1Bytes v.aBar ++ S.g1Bytes v.bPrime ++ S.g1Bytes v.nym ++ ipk₂.hash ++ D ++
        msg₂) := by
  have hrh : v.rh = none := by
    simp only [Sig.kind] at standard
    split at standard
    · cases standard
    · cases h : v.rh <;> simp_all
  have heid : v.eid = none := by
    simp only [Sig.kind, hrh] at standard
    cases h : v.eid <;> simp_all
  have hlab : sigLabelOf v = signLabel := by simp [sigLabelOf, Sig.label, hrh, heid]
  constructor
  · by_cases e : q₁ = q₂
    · exact .inl e
    right
    rcases asked_last (Asked.nymSignature acc₁ hk₁ hq₁) with ⟨_, _, _, _, h, _⟩ | ⟨_, _, _, _, _, h, _⟩ |
      ⟨_, _, _, _, _, _, q, n, -, -, hqs, a⟩ | ⟨v', _, _, _, _, _, _, _, _, h, _⟩
    · cases h
    · cases h
    · rcases asked_last (Asked.signature acc₂ hk₂ hv hvs hq₂) with ⟨_, _, _, _, h, _⟩ | ⟨_, _, _, _, _, h, _⟩ |
        ⟨_, _, _, _, _, _, _, _, h, _⟩ | ⟨v', _, _, _, _, _, _, _, q', -, -, hqs', -, a'⟩
      · rw [standard] at h; cases h
      · rw [standard] at h; cases h
      · rw [standard] at h; cases h
      · simp only [List.cons.injEq, and_true] at hqs hqs'
        rw [← hqs.2] at a
        rw [← hqs'.2] at a'
        exact second_collision e (a.symm.trans (same.trans a'))
    · simp only [Sig.kind] at h
      split at h
      · cases h
      · split at h <;> cases h
  · rw [hq₁, hq₂, hlab]
    simp only [nymTranscript, Sig.transcript, Sig.nymPart, heid, hrh, List.append_nil, List.append_assoc,
      Buf.padTo_of_length hl, Buf.padTo_of_length hl', ← ht, List.append_cancel_left_eq]
    have hle : ipk₁.hash.length ≤ (S.g1Bytes (v.t3 k₂)).length := by
      rw [hl, S.g1Bytes_len]; exact S.scalarLen_le
    constructor
    · intro h
      obtain ⟨e1, h⟩ := List.append_inj h (by simp)
      obtain ⟨e2, h⟩ := List.append_inj h (by simp)
      refine ⟨S.g1Bytes_inj e1, S.g1Bytes_inj e2, ?_⟩
      rcases List.append_eq_append_iff.mp h with ⟨a, h1, h2⟩ | ⟨a, h1, h2⟩
      · exact ⟨a, h1, h2⟩
      · have : a = [] := by
          have := congrArg List.length h1
          rw [List.length_append] at this
          exact List.eq_nil_of_length_eq_zero (by omega)
        subst this
        simp only [List.append_nil, List.nil_append] at h1 h2
        exact ⟨[], by simpa using h1.symm, by simpa using h2.symm⟩
    · rintro ⟨rfl, rfl, rest, h1, rfl⟩
      rw [h1]
      simp

namespace Ex

/-- The issuer key of the examples, read. -/
def keyV : Key Toy.suite := ⟨(3 : Toy.K), (6 : Toy.K), [(2 : Toy.K), (4 : Toy.K), (5 : Toy.K)], (3 : Toy.K)⟩
theorem keyV_reads : Reads Toy.tr key.ipk keyV := ⟨rfl, rfl, rfl, rfl⟩
theorem toy_apart : Apart Toy.suite := ⟨by decide, by decide⟩

/-- Randomness such that `t3` of the signature is encoded like the hash of the issuer key. -/
def sameRnd : SigRand Toy.suite := ⟨(2 : Toy.K), (3 : Toy.K), 1, 5, 5, 6, 1, 2, 3, [4, 5], 2, 3, 4, 5⟩
/-- A signature without attribute pseudonyms on the message `[2]`, made by the library, and its content. -/
def stdSig : Signature :=
  ⟨some ⟨[6], []⟩, some ⟨[4], []⟩, some ⟨[5], []⟩, [3], [3], [6], [1], [3], [0], [[4], [2]], [1], some ⟨[3], []⟩, [2],
    cri.epochPk, cri.epochPkSig, cri.epoch, some ⟨0, []⟩, none, none⟩
def stdV : Sig Toy.suite :=
  ⟨(6 : Toy.K), (4 : Toy.K), (5 : Toy.K), (3 : Toy.K), (3 : Toy.K), 3, 6, 1, 3, 0, 2, [(4 : Toy.K), 2], 1, none, none⟩
/-- A pseudonym signature. -/
def stdNym : NymSignature := ⟨[3], [0], [2], [1]⟩

end Ex

set_option maxRecDepth 20000 in
/-- **C69 (violated for pseudonym signatures and signatures without attribute pseudonyms).** A suite, an issuer key, a
signature made by the library and a pseudonym signature, both accepted, with one challenge and the very same questions. The
two kinds are told apart by nothing but the lengths of what follows the label. -/
theorem C69_nym_violated : Apart Toy.suite ∧
    (∃ md, newSignature Toy.tr Ex.cred (4 : Toy.K) Ex.nym (2 : Toy.K) Ex.key.ipk Ex.discl [2] 2 1 Ex.cri Ex.sameRnd .standard
      none = .ok (Ex.stdSig, md)) ∧
    Ex.stdSig.ver Toy.tr Ex.discl (some Ex.key.ipk) [2] Ex.vals 2 1 () 0 .expectStandard none = .ok () ∧
    Ex.stdNym.ver Toy.tr (3 : Toy.K) Ex.key.ipk [6, 4, 5, 3, 5, 1, 0, 0, 2] = .ok () ∧
    ∃ q₁ q₂, Asked Toy.tr .standard (3 : Toy.K) [q₁, q₂] ∧ Asked Toy.tr .nymSignature (3 : Toy.K) [q₁, q₂] := by
  have acc₁ : Ex.stdSig.ver Toy.tr Ex.discl (some Ex.key.ipk) [2] Ex.vals 2 1 () 0 .expectStandard none = .ok () := by decide
  have acc₂ : Ex.stdNym.ver Toy.tr (3 : Toy.K) Ex.key.ipk [6, 4, 5, 3, 5, 1, 0, 0, 2] = .ok () := by decide
  have hv : Views Toy.tr Ex.stdSig .expectStandard Ex.stdV :=
    ⟨⟨rfl, rfl, rfl, rfl, rfl, rfl, rfl, rfl, rfl, rfl, rfl, rfl, rfl⟩, .inl ⟨rfl, rfl⟩, .inl ⟨rfl, rfl⟩⟩
  have a₁ := Asked.signature (vs := [(1 : Toy.K)]) acc₁ Ex.keyV_reads hv rfl rfl
  have a₂ := Asked.nymSignature acc₂ Ex.keyV_reads rfl
  refine ⟨Ex.toy_apart, ⟨_, rfl⟩, acc₁, acc₂, _, _, a₁, ?_⟩
  have e : nymTranscript signLabel Ex.keyV (3 : Toy.K) (Toy.dec Ex.stdNym.proofC) (Toy.dec Ex.stdNym.proofSSk)
      (Toy.dec Ex.stdNym.proofSRNym) Ex.key.ipk.hash [6, 4, 5, 3, 5, 1, 0, 0, 2] =
      Ex.stdV.transcript (sigLabelOf Ex.stdV) Ex.keyV Ex.key.ipk.hash Ex.discl [(1 : Toy.K)] (1 : Int).toNat
        (2 : Int).toNat [2] := by decide
  have a₂' := a₂
  rw [e] at a₂'
  exact a₂'

set_option maxRecDepth 20000 in
/-- A request and a pseudonym signature, both made by the library and accepted, with one challenge: in the toy suite there
are collisions. -/
example : Apart Toy.suite ∧
    newCredRequest Toy.tr (4 : Toy.K) (some [6]) Ex.key.ipk (5 : Toy.K) = .ok Ex.req ∧
    newNymSignature Toy.tr (4 : Toy.K) Ex.nym (2 : Toy.K) Ex.key.ipk [4] Ex.nymRnd = .ok ⟨[6], [6], [3], [1]⟩ ∧
    (∃ qs, Asked Toy.tr .request (6 : Toy.K) qs) ∧ ∃ qs, Asked Toy.tr .nymSignature (6 : Toy.K) qs := by
  have a₁ : Ex.req.check Toy.tr Ex.key.ipk = .ok () := by decide
  have a₂ : NymSignature.ver Toy.tr ⟨[6], [6], [3], [1]⟩ Ex.nym Ex.key.ipk [4] = .ok () := by decide
  exact ⟨Ex.toy_apart, by decide, by decide,
    ⟨_, Asked.request (nym := (5 : Toy.K)) (hSk := (3 : Toy.K)) (nonce := [6]) a₁ rfl rfl rfl⟩,
    ⟨_, Asked.nymSignature (k := Ex.keyV) a₂ Ex.keyV_reads rfl⟩⟩

end Idemix.Dlog
